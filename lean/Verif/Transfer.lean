import Verif.Decide
/-!
# User data transfers between processes

Model of `start_user_data_transfers`, `wait_user_data_transfer_receives` and
`wait_user_data_transfer_sends` (dccrg.hpp:10758-11264). Every process first posts all of its receives
and sends (`MPI_Irecv`, `MPI_Isend`) and then waits for them.

MPI is modelled by `Net.Step`: at any time any send and receive that have been posted with the same
source, destination and tag, and of which there is no earlier one with same values, can be matched,
which copies the sent values to where the receive stores them. The order in which this happens is
arbitrary. `transfer` is the result, `schedule` shows that it does not depend on the order.
-/
namespace Dccrg
variable {n : Nat} {D : Type}

/-- Source, destination and tag of a message. -/
structure Chan (n : Nat) where
  src : Fin n
  dst : Fin n
  tag : Nat
deriving DecidableEq

/-- Posted but not yet matched sends (values) and receives (cells) and stored data of processes. -/
structure Net (n : Nat) (D : Type) where
  sends : List (Chan n × List D)
  recvs : List (Chan n × List Nat)
  dest : Fin n → Nat → Option D

/-- Store received values. -/
def store (f : Nat → Option D) : List Nat → List D → Nat → Option D
  | c :: cs, v :: vs => store (fun x => if x = c then some v else f x) cs vs
  | _, _ => f

/-- Match one send and one receive. -/
inductive Net.Step : Net n D → Net n D → Prop
  | mk {ch : Chan n} {vs : List D} {cs : List Nat} {s1 s2 : List (Chan n × List D)}
      {r1 r2 : List (Chan n × List Nat)} {dest : Fin n → Nat → Option D} :
      (∀ x ∈ s1, x.1 ≠ ch) → (∀ x ∈ r1, x.1 ≠ ch) →
      Net.Step ⟨s1 ++ (ch, vs) :: s2, r1 ++ (ch, cs) :: r2, dest⟩
        ⟨s1 ++ s2, r1 ++ r2, fun q => if q = ch.dst then store (dest q) cs vs else dest q⟩

/-- `k` steps in some order. -/
inductive Net.Run : Nat → Net n D → Net n D → Prop
  | refl (a : Net n D) : Net.Run 0 a a
  | step {k : Nat} {a b c : Net n D} : Net.Step a b → Net.Run k b c → Net.Run (k + 1) a c

/-- Everything that has been posted has been matched. -/
def Net.Done (a : Net n D) : Prop := a.sends = [] ∧ a.recvs = []

theorem nodup_middle {α : Type} {l1 l2 : List α} {a : α} :
    (l1 ++ a :: l2).Nodup ↔ (a :: (l1 ++ l2)).Nodup := List.perm_middle.nodup_iff

theorem store_spec (F : Nat → Option D) (cs : List Nat) (vs : List D) (f : Nat → Option D)
    (hl : cs.length = vs.length)
    (hF : ∀ (k : Nat) c v, cs[k]? = some c → vs[k]? = some v → F c = some v) (c : Nat) :
    store f cs vs c = if c ∈ cs then F c else f c := by
  induction cs generalizing f vs with
  | nil => cases vs <;> simp [store]
  | cons a cs ih =>
    cases vs with
    | nil => simp at hl
    | cons v vs =>
      rw [store, ih vs _ (by simpa using hl) (fun k c v h1 h2 => hF (k + 1) c v (by simpa using h1)
        (by simpa using h2))]
      have h0 := hF 0 a v (by simp) (by simp)
      by_cases h1 : c ∈ cs
      · simp [h1]
      · by_cases h2 : c = a
        · subst h2; simp [h0]
        · simp [h1, h2]

/-- Values that will be stored and messages that have been posted agree. -/
structure Net.Good (F : Fin n → Nat → Option D) (a : Net n D) : Prop where
  sendNodup : (a.sends.map (·.1)).Nodup
  recvNodup : (a.recvs.map (·.1)).Nodup
  same : ∀ ch, (∃ vs, (ch, vs) ∈ a.sends) ↔ ∃ cs, (ch, cs) ∈ a.recvs
  vals : ∀ ch vs cs, (ch, vs) ∈ a.sends → (ch, cs) ∈ a.recvs → cs.length = vs.length ∧
    ∀ (k : Nat) c v, cs[k]? = some c → vs[k]? = some v → F ch.dst c = some v
  dest : ∀ q c, (∀ ch cs, (ch, cs) ∈ a.recvs → ch.dst = q → c ∉ cs) → a.dest q c = F q c

theorem Net.Good.step {F : Fin n → Nat → Option D} {a b : Net n D} (ha : a.Good F) (h : a.Step b) :
    b.Good F ∧ b.sends.length + 1 = a.sends.length := by
  cases h with
  | @mk ch vs cs s1 s2 r1 r2 dest hs1 hr1 =>
  have hsn := ha.sendNodup
  have hrn := ha.recvNodup
  simp only [List.map_append, List.map_cons] at hsn hrn
  have hs' := nodup_middle.1 hsn
  have hr' := nodup_middle.1 hrn
  rw [List.nodup_cons] at hs' hr'
  have hsne : ∀ x ∈ s1 ++ s2, x.1 ≠ ch := by
    intro x hx e
    apply hs'.1
    rw [← List.map_append, ← e]
    exact List.mem_map.2 ⟨x, hx, rfl⟩
  have hrne : ∀ x ∈ r1 ++ r2, x.1 ≠ ch := by
    intro x hx e
    apply hr'.1
    rw [← List.map_append, ← e]
    exact List.mem_map.2 ⟨x, hx, rfl⟩
  have hms : ∀ x, x ∈ s1 ++ (ch, vs) :: s2 ↔ x = (ch, vs) ∨ x ∈ s1 ++ s2 := by
    intro x; simp only [List.mem_append, List.mem_cons]
    constructor
    · rintro (h | h | h)
      · exact Or.inr (Or.inl h)
      · exact Or.inl h
      · exact Or.inr (Or.inr h)
    · rintro (h | h | h)
      · exact Or.inr (Or.inl h)
      · exact Or.inl h
      · exact Or.inr (Or.inr h)
  have hmr : ∀ x, x ∈ r1 ++ (ch, cs) :: r2 ↔ x = (ch, cs) ∨ x ∈ r1 ++ r2 := by
    intro x; simp only [List.mem_append, List.mem_cons]
    constructor
    · rintro (h | h | h)
      · exact Or.inr (Or.inl h)
      · exact Or.inl h
      · exact Or.inr (Or.inr h)
    · rintro (h | h | h)
      · exact Or.inr (Or.inl h)
      · exact Or.inl h
      · exact Or.inr (Or.inr h)
  obtain ⟨hlen, hv⟩ := ha.vals ch vs cs ((hms _).2 (Or.inl rfl)) ((hmr _).2 (Or.inl rfl))
  refine ⟨⟨?_, ?_, ?_, ?_, ?_⟩, ?_⟩
  · simpa using hs'.2
  · simpa using hr'.2
  · intro ch'
    have hsame := ha.same ch'
    by_cases he : ch' = ch
    · subst he
      constructor
      · rintro ⟨x, hx⟩; exact absurd rfl (hsne _ hx)
      · rintro ⟨x, hx⟩; exact absurd rfl (hrne _ hx)
    · constructor
      · rintro ⟨x, hx⟩
        obtain ⟨y, hy⟩ := hsame.1 ⟨x, (hms _).2 (Or.inr hx)⟩
        rcases (hmr _).1 hy with h | h
        · injection h with h _; exact absurd h he
        · exact ⟨y, h⟩
      · rintro ⟨x, hx⟩
        obtain ⟨y, hy⟩ := hsame.2 ⟨x, (hmr _).2 (Or.inr hx)⟩
        rcases (hms _).1 hy with h | h
        · injection h with h _; exact absurd h he
        · exact ⟨y, h⟩
  · intro ch' vs' cs' h1 h2
    exact ha.vals ch' vs' cs' ((hms _).2 (Or.inr h1)) ((hmr _).2 (Or.inr h2))
  · intro q c hq
    show (if q = ch.dst then store (dest q) cs vs else dest q) c = F q c
    by_cases hqd : q = ch.dst
    · rw [if_pos hqd, store_spec (F q) cs vs _ hlen (by rw [hqd]; exact hv)]
      by_cases hc : c ∈ cs
      · rw [if_pos hc]
      · rw [if_neg hc]
        apply ha.dest q c
        intro ch' cs' hm hd hcs
        rcases (hmr _).1 hm with h | h
        · injection h with _ h; exact hc (h ▸ hcs)
        · exact hq ch' cs' h hd hcs
    · rw [if_neg hqd]
      apply ha.dest q c
      intro ch' cs' hm hd hcs
      rcases (hmr _).1 hm with h | h
      · injection h with h _; exact hqd (by rw [← hd, h])
      · exact hq ch' cs' h hd hcs
  · simp only [List.length_append, List.length_cons]; omega

theorem split_first {α : Type} {l : List (Chan n × α)} {ch : Chan n} {x : α} (hn : (l.map (·.1)).Nodup)
    (h : (ch, x) ∈ l) : ∃ l1 l2, l = l1 ++ (ch, x) :: l2 ∧ ∀ y ∈ l1, y.1 ≠ ch := by
  obtain ⟨l1, l2, e⟩ := List.append_of_mem h
  refine ⟨l1, l2, e, fun y hy hyc => ?_⟩
  subst e
  simp only [List.map_append, List.map_cons] at hn
  have h' := (List.nodup_cons.1 (nodup_middle.1 hn)).1
  apply h'
  rw [List.mem_append]
  exact Or.inl (List.mem_map.2 ⟨y, hy, hyc⟩)

theorem Net.Good.progress {F : Fin n → Nat → Option D} {a : Net n D} (ha : a.Good F)
    (h : ¬ ∃ b, a.Step b) : a.Done ∧ a.dest = F := by
  have hs : a.sends = [] := by
    cases hs : a.sends with
    | nil => rfl
    | cons x l =>
      exfalso
      obtain ⟨ch, vs⟩ := x
      have hm : (ch, vs) ∈ a.sends := by rw [hs]; simp
      obtain ⟨cs, hcs⟩ := (ha.same ch).1 ⟨vs, hm⟩
      obtain ⟨s1, s2, e1, e2⟩ := split_first ha.sendNodup hm
      obtain ⟨r1, r2, e3, e4⟩ := split_first ha.recvNodup hcs
      apply h
      obtain ⟨as, ar, ad⟩ := a
      simp only at e1 e3
      subst e1; subst e3
      exact ⟨_, .mk e2 e4⟩
  have hr : a.recvs = [] := by
    cases hr : a.recvs with
    | nil => rfl
    | cons x l =>
      exfalso
      obtain ⟨ch, cs⟩ := x
      obtain ⟨vs, hvs⟩ := (ha.same ch).2 ⟨cs, by rw [hr]; simp⟩
      rw [hs] at hvs; cases hvs
  refine ⟨⟨hs, hr⟩, ?_⟩
  funext q c
  apply ha.dest
  intro ch cs hm
  rw [hr] at hm; cases hm

theorem Net.Good.run {F : Fin n → Nat → Option D} {a b : Net n D} {k : Nat} (ha : a.Good F)
    (h : Net.Run k a b) : b.Good F ∧ b.sends.length + k = a.sends.length := by
  induction h with
  | refl => exact ⟨ha, rfl⟩
  | step hs _ ih =>
    obtain ⟨h1, h2⟩ := ha.step hs
    obtain ⟨h3, h4⟩ := ih h1
    exact ⟨h3, by omega⟩

/-! ## Lists of cells -/

/-- Messages from `s` to `d`. -/
def posts (single : Bool) {α : Type} (s d : Fin n) (l : List α) : List (Chan n × List α) :=
  if single then l.mapIdx fun k x => (⟨s, d, k + 1⟩, [x])
  else if l = [] then [] else [(⟨s, d, 0⟩, l)]

/-- All messages of all processes: `start_user_data_sends` (dccrg.hpp:10978-11160) and
`start_user_data_receives` (dccrg.hpp:10787-10973), one message per cell with tags 1, 2, ...
(`send_single_cells`) or one message with all cells and tag 0. `snd p q` are the cells sent by `p`
to `q` and `rcv q p` the cells received by `q` from `p`, `data p c` is the data of cell `c` on process `p`. -/
def startTransfers (single : Bool) (snd rcv : Fin n → Fin n → List Nat) (data : Fin n → Nat → D)
    (dest : Fin n → Nat → Option D) : Net n D where
  sends := (List.finRange n).flatMap fun p => (List.finRange n).flatMap fun q =>
    posts single p q ((snd p q).map (data p))
  recvs := (List.finRange n).flatMap fun q => (List.finRange n).flatMap fun p =>
    posts single p q (rcv q p)
  dest := dest

theorem mem_posts {single : Bool} {α : Type} {s d : Fin n} {l : List α} {ch : Chan n} {x : List α} :
    (ch, x) ∈ posts single s d l ↔ ch.src = s ∧ ch.dst = d ∧
      if single then ∃ k, ch.tag = k + 1 ∧ ∃ y, l[k]? = some y ∧ x = [y]
      else ch.tag = 0 ∧ l ≠ [] ∧ x = l := by
  unfold posts
  cases single with
  | true =>
    simp only [if_true]
    rw [List.mem_mapIdx]
    constructor
    · rintro ⟨k, hk, e⟩
      injection e with e1 e2
      subst e1; subst e2
      exact ⟨rfl, rfl, k, rfl, l[k], by simp [hk], rfl⟩
    · rintro ⟨rfl, rfl, k, hk, y, hy, rfl⟩
      have hlt := List.getElem?_eq_some_iff.1 hy
      obtain ⟨hlt, e⟩ := hlt
      refine ⟨k, hlt, ?_⟩
      rw [← hk, e]
  | false =>
    simp only [Bool.false_eq_true, if_false]
    by_cases hl : l = []
    · rw [if_pos hl]; simp [hl]
    · rw [if_neg hl, List.mem_singleton]
      constructor
      · intro e
        injection e with e1 e2
        subst e1; subst e2
        exact ⟨rfl, rfl, rfl, hl, rfl⟩
      · rintro ⟨rfl, rfl, h, -, rfl⟩
        rw [← h]

theorem posts_nodup {single : Bool} {α : Type} {s d : Fin n} (l : List α) :
    ((posts single s d l).map (·.1)).Nodup := by
  unfold posts
  cases single with
  | true =>
    simp only [if_true]
    unfold List.Nodup
    rw [List.pairwise_iff_getElem]
    intro i j hi hj hij
    simp only [List.getElem_map, List.getElem_mapIdx]
    intro e
    injection e with _ _ e
    omega
  | false =>
    simp only [Bool.false_eq_true, if_false]
    split <;> simp

theorem flatMap_chan_nodup {α : Type} (f : Fin n → Fin n → List (Chan n × α))
    (hf : ∀ p q, ((f p q).map (·.1)).Nodup) (key : Chan n → Fin n × Fin n)
    (hk : ∀ p q x, x ∈ f p q → key x.1 = (p, q)) :
    (((List.finRange n).flatMap fun p => (List.finRange n).flatMap fun q => f p q).map (·.1)).Nodup := by
  rw [List.map_flatMap]
  unfold List.Nodup
  rw [List.pairwise_flatMap]
  constructor
  · intro p _
    rw [List.map_flatMap, List.pairwise_flatMap]
    refine ⟨fun q _ => hf p q, ?_⟩
    apply List.Pairwise.imp _ (List.nodup_finRange n)
    intro q q' hne x hx y hy e
    subst e
    obtain ⟨x', hx', rfl⟩ := List.mem_map.1 hx
    obtain ⟨y', hy', e⟩ := List.mem_map.1 hy
    have h1 := hk _ _ _ hx'
    have h2 := hk _ _ _ hy'
    rw [e, h1] at h2
    injection h2 with _ h2
    exact hne h2
  · apply List.Pairwise.imp _ (List.nodup_finRange n)
    intro p p' hne x hx y hy e
    subst e
    obtain ⟨x', hx', rfl⟩ := List.mem_map.1 hx
    obtain ⟨y', hy', e⟩ := List.mem_map.1 hy
    obtain ⟨q, -, hx'⟩ := List.mem_flatMap.1 hx'
    obtain ⟨q', -, hy'⟩ := List.mem_flatMap.1 hy'
    have h1 := hk _ _ _ hx'
    have h2 := hk _ _ _ hy'
    rw [e, h1] at h2
    injection h2 with h2 _
    exact hne h2

theorem mem_sends {single : Bool} {snd rcv : Fin n → Fin n → List Nat} {data : Fin n → Nat → D}
    {dest : Fin n → Nat → Option D} {ch : Chan n} {vs : List D} :
    (ch, vs) ∈ (startTransfers single snd rcv data dest).sends ↔
      (ch, vs) ∈ posts single ch.src ch.dst ((snd ch.src ch.dst).map (data ch.src)) := by
  simp only [startTransfers, List.mem_flatMap]
  constructor
  · rintro ⟨p, -, q, -, h⟩
    have := mem_posts.1 h
    rw [this.1, this.2.1]; exact h
  · intro h; exact ⟨_, List.mem_finRange _, _, List.mem_finRange _, h⟩

theorem mem_recvs {single : Bool} {snd rcv : Fin n → Fin n → List Nat} {data : Fin n → Nat → D}
    {dest : Fin n → Nat → Option D} {ch : Chan n} {cs : List Nat} :
    (ch, cs) ∈ (startTransfers single snd rcv data dest).recvs ↔
      (ch, cs) ∈ posts single ch.src ch.dst (rcv ch.dst ch.src) := by
  simp only [startTransfers, List.mem_flatMap]
  constructor
  · rintro ⟨q, -, p, -, h⟩
    have := mem_posts.1 h
    rw [this.1, this.2.1]; exact h
  · intro h; exact ⟨_, List.mem_finRange _, _, List.mem_finRange _, h⟩

/-- Lists of sent and received cells that agree, and one source for every received cell. -/
structure ListsMatch (snd rcv : Fin n → Fin n → List Nat) : Prop where
  eq : ∀ p q, snd p q = rcv q p
  once : ∀ q p p' c, c ∈ rcv q p → c ∈ rcv q p' → p = p'

/-- Values after the transfer: received cells have the data of their source. -/
noncomputable def received (rcv : Fin n → Fin n → List Nat) (data : Fin n → Nat → D)
    (dest : Fin n → Nat → Option D) (q : Fin n) (c : Nat) : Option D :=
  open Classical in if h : ∃ p, c ∈ rcv q p then some (data (Classical.choose h) c) else dest q c

theorem received_eq {snd rcv : Fin n → Fin n → List Nat} (hm : ListsMatch snd rcv)
    {data : Fin n → Nat → D} {dest : Fin n → Nat → Option D} {p q : Fin n} {c : Nat}
    (h : c ∈ rcv q p) : received rcv data dest q c = some (data p c) := by
  unfold received
  rw [dif_pos ⟨p, h⟩]
  have : ∃ p, c ∈ rcv q p := ⟨p, h⟩
  rw [hm.once q _ p c (Classical.choose_spec this) h]

theorem received_other {rcv : Fin n → Fin n → List Nat} {data : Fin n → Nat → D}
    {dest : Fin n → Nat → Option D} {q : Fin n} {c : Nat} (h : ∀ p, c ∉ rcv q p) :
    received rcv data dest q c = dest q c := by
  unfold received
  rw [dif_neg]; rintro ⟨p, hp⟩; exact h p hp

theorem start_good (single : Bool) {snd rcv : Fin n → Fin n → List Nat} (hm : ListsMatch snd rcv)
    (data : Fin n → Nat → D) (dest : Fin n → Nat → Option D) :
    (startTransfers single snd rcv data dest).Good (received rcv data dest) := by
  refine ⟨?_, ?_, fun ch => ?_, ?_, ?_⟩
  · exact flatMap_chan_nodup _ (fun p q => posts_nodup _) (fun ch => (ch.src, ch.dst))
      (fun p q x hx => by
        obtain ⟨ch, vs⟩ := x
        have := mem_posts.1 hx
        show (ch.src, ch.dst) = _
        rw [this.1, this.2.1])
  · exact flatMap_chan_nodup _ (fun p q => posts_nodup _) (fun ch => (ch.dst, ch.src))
      (fun p q x hx => by
        obtain ⟨ch, vs⟩ := x
        have := mem_posts.1 hx
        show (ch.dst, ch.src) = _
        rw [this.1, this.2.1])
  · simp only [mem_sends, mem_recvs, mem_posts, true_and]
    rw [hm.eq]
    cases single with
    | true =>
      simp only [if_true]
      constructor
      · rintro ⟨vs, k, hk, y, hy, rfl⟩
        rw [List.getElem?_map] at hy
        cases hx : (rcv ch.dst ch.src)[k]? with
        | none => rw [hx] at hy; cases hy
        | some x => exact ⟨[x], k, hk, x, hx, rfl⟩
      · rintro ⟨cs, k, hk, y, hy, rfl⟩
        exact ⟨[data ch.src y], k, hk, data ch.src y, by rw [List.getElem?_map, hy]; rfl, rfl⟩
    | false =>
      simp only [Bool.false_eq_true, if_false]
      constructor
      · rintro ⟨vs, h1, h2, rfl⟩
        exact ⟨_, h1, by simpa using h2, rfl⟩
      · rintro ⟨cs, h1, h2, rfl⟩
        exact ⟨_, h1, by simpa using h2, rfl⟩
  · intro ch vs cs h1 h2
    rw [mem_sends, mem_posts] at h1
    rw [mem_recvs, mem_posts] at h2
    obtain ⟨-, -, h1⟩ := h1
    obtain ⟨-, -, h2⟩ := h2
    rw [hm.eq] at h1
    cases single with
    | true =>
      simp only [if_true] at h1 h2
      obtain ⟨k, hk, y, hy, rfl⟩ := h1
      obtain ⟨k', hk', y', hy', rfl⟩ := h2
      have : k' = k := by omega
      subst this
      refine ⟨rfl, fun j c v hc hv => ?_⟩
      rw [List.getElem?_map, hy'] at hy
      cases j with
      | succ j => simp at hc
      | zero =>
        simp only [List.getElem?_cons_zero, Option.some.injEq] at hc hv
        subst hc; subst hv
        rw [received_eq hm (List.mem_of_getElem? hy')]
        exact hy
    | false =>
      simp only [Bool.false_eq_true, if_false] at h1 h2
      obtain ⟨-, -, rfl⟩ := h1
      obtain ⟨-, -, rfl⟩ := h2
      refine ⟨by simp, fun j c v hc hv => ?_⟩
      rw [List.getElem?_map, hc] at hv
      rw [received_eq hm (List.mem_of_getElem? hc)]
      exact hv
  · intro q c h
    rw [received_other]
    · rfl
    intro p hp
    obtain ⟨k, hk⟩ := List.getElem?_of_mem hp
    cases single with
    | true =>
      refine h ⟨p, q, k + 1⟩ [c] ?_ rfl (by simp)
      rw [mem_recvs, mem_posts]
      exact ⟨rfl, rfl, by simp only [if_true]; exact ⟨k, rfl, c, hk, rfl⟩⟩
    | false =>
      refine h ⟨p, q, 0⟩ (rcv q p) ?_ rfl hp
      rw [mem_recvs, mem_posts]
      refine ⟨rfl, rfl, ?_⟩
      simp only [Bool.false_eq_true, if_false, true_and, and_true]
      intro e; rw [e] at hp; cases hp

/-- The result of a transfer does not depend on the order in which messages are matched: every order
ends, after a fixed number of steps, with everything matched and received cells equal to the data of
their source. -/
theorem schedule (single : Bool) {snd rcv : Fin n → Fin n → List Nat} (hm : ListsMatch snd rcv)
    (data : Fin n → Nat → D) (dest : Fin n → Nat → Option D) {k : Nat} {b : Net n D}
    (hr : Net.Run k (startTransfers single snd rcv data dest) b) :
    b.sends.length + k = (startTransfers single snd rcv data dest).sends.length ∧
    ((¬ ∃ c, b.Step c) → b.Done ∧ b.dest = received rcv data dest) := by
  obtain ⟨h1, h2⟩ := (start_good single hm data dest).run hr
  exact ⟨h2, fun h => h1.progress h⟩

/-- Result of a transfer as a function: the k-th cell that `q` receives from `p` gets data of the
k-th cell that `p` sends to `q`. The code aborts if more than `maxTag` cells are sent from one process
to another, `cell_data.at` throws if a sent cell has no data, and the transfer ends only if numbers of
sent and received cells agree. -/
def transfer (maxTag : Nat) (snd rcv : Fin n → Fin n → List Nat) (data dest : Fin n → Nat → Option D) :
    Out (Fin n → Nat → Option D) :=
  if ∃ p q, maxTag < (snd p q).length ∨ maxTag < (rcv p q).length then .throws
  else if ∃ p q, ∃ c ∈ snd p q, (data p c).isNone then .throws
  else if ∃ p q, (snd p q).length ≠ (rcv q p).length then .hangs
  else .ok fun q c =>
    match (List.finRange n).findSome? fun p =>
      (((rcv q p).zip (snd p q)).lookup c).map fun s => (p, s) with
    | some (p, s) => data p s
    | none => dest q c

theorem lookup_zip_self (l : List Nat) (c : Nat) :
    (l.zip l).lookup c = if c ∈ l then some c else none := by
  induction l with
  | nil => simp
  | cons a l ih =>
    rw [List.zip_cons_cons, List.lookup_cons, ih]
    by_cases h : c = a
    · subst h; simp
    · have : (c == a) = false := by simpa using h
      rw [this]
      simp [h]

theorem transfer_spec {maxTag : Nat} {snd rcv : Fin n → Fin n → List Nat} (hm : ListsMatch snd rcv)
    {data dest : Fin n → Nat → Option D} (ht : ∀ p q, (snd p q).length ≤ maxTag)
    (hd : ∀ p q c, c ∈ snd p q → (data p c).isSome) :
    ∃ res, transfer maxTag snd rcv data dest = .ok res ∧
      (∀ q p c, c ∈ rcv q p → res q c = data p c) ∧
      (∀ q c, (∀ p, c ∉ rcv q p) → res q c = dest q c) := by
  unfold transfer
  rw [if_neg (by
      rintro ⟨p, q, h | h⟩
      · have := ht p q; omega
      · rw [← hm.eq] at h
        have := ht q p; omega),
    if_neg (by
      rintro ⟨p, q, c, h1, h2⟩
      have := hd p q c h1
      cases hx : data p c with
      | none => rw [hx] at this; cases this
      | some x => rw [hx] at h2; cases h2),
    if_neg (by rintro ⟨p, q, h⟩; rw [hm.eq] at h; exact h rfl)]
  refine ⟨_, rfl, ?_, ?_⟩
  · intro q p c hc
    have hf : ((List.finRange n).findSome? fun p =>
        (((rcv q p).zip (snd p q)).lookup c).map fun s => (p, s)) = some (p, c) := by
      cases hx : ((List.finRange n).findSome? fun p =>
        (((rcv q p).zip (snd p q)).lookup c).map fun s => (p, s)) with
      | none =>
        rw [List.findSome?_eq_none_iff] at hx
        have := hx p (List.mem_finRange p)
        rw [hm.eq, lookup_zip_self, if_pos hc] at this
        cases this
      | some x =>
        obtain ⟨p', -, h⟩ := List.exists_of_findSome?_eq_some hx
        rw [hm.eq, lookup_zip_self] at h
        by_cases hc' : c ∈ rcv q p'
        · rw [if_pos hc'] at h
          rw [hm.once q p p' c hc hc', ← h]; rfl
        · rw [if_neg hc'] at h; cases h
    rw [hf]
  · intro q c hc
    have hf : ((List.finRange n).findSome? fun p =>
        (((rcv q p).zip (snd p q)).lookup c).map fun s => (p, s)) = none := by
      rw [List.findSome?_eq_none_iff]
      intro p _
      rw [hm.eq, lookup_zip_self, if_neg (hc p)]
      rfl
    rw [hf]

/-- `transfer` is the result of every schedule. -/
theorem transfer_schedule {maxTag : Nat} (single : Bool) {snd rcv : Fin n → Fin n → List Nat}
    (hm : ListsMatch snd rcv) {data dest res : Fin n → Nat → Option D} {vals : Fin n → Nat → D}
    (hv : ∀ p q c, c ∈ snd p q → data p c = some (vals p c))
    (h : transfer maxTag snd rcv data dest = .ok res) {k : Nat} {b : Net n D}
    (hr : Net.Run k (startTransfers single snd rcv vals dest) b) (hs : ¬ ∃ c, b.Step c) :
    b.Done ∧ b.dest = res := by
  obtain ⟨h1, h2⟩ := (schedule single hm vals dest hr).2 hs
  refine ⟨h1, h2.trans ?_⟩
  have htag : ∀ p q, (snd p q).length ≤ maxTag := by
    intro p q
    apply Nat.le_of_not_lt
    intro hlt
    unfold transfer at h
    rw [if_pos ⟨p, q, Or.inl hlt⟩] at h
    cases h
  obtain ⟨res', e1, e2, e3⟩ := transfer_spec (data := data) (dest := dest) hm htag
    (fun p q c hc => by rw [hv p q c hc]; rfl)
  rw [h] at e1
  injection e1 with e1
  subst e1
  funext q c
  by_cases hx : ∃ p, c ∈ rcv q p
  · obtain ⟨p, hp⟩ := hx
    rw [received_eq hm hp, e2 q p c hp, hv p q c (by rw [hm.eq]; exact hp)]
  · have hx' : ∀ p, c ∉ rcv q p := fun p hp => hx ⟨p, hp⟩
    rw [received_other hx', e3 q c hx']

/-! ## Sorted lists -/

/-- Insert into a sorted list. -/
def insertSorted (a : Nat) : List Nat → List Nat
  | [] => [a]
  | b :: l => if a ≤ b then a :: b :: l else b :: insertSorted a l

/-- `std::sort` of cells. -/
def isort : List Nat → List Nat
  | [] => []
  | a :: l => insertSorted a (isort l)

theorem insertSorted_perm (a : Nat) (l : List Nat) : (insertSorted a l).Perm (a :: l) := by
  induction l with
  | nil => exact .refl _
  | cons b l ih =>
    unfold insertSorted
    split
    · exact .refl _
    · exact (ih.cons b).trans (.swap a b l)

theorem isort_perm (l : List Nat) : (isort l).Perm l := by
  induction l with
  | nil => exact .refl _
  | cons a l ih => exact (insertSorted_perm a _).trans (ih.cons a)

theorem mem_isort {c : Nat} {l : List Nat} : c ∈ isort l ↔ c ∈ l := (isort_perm l).mem_iff

theorem insertSorted_sorted {a : Nat} {l : List Nat} (h : l.Pairwise (· ≤ ·)) :
    (insertSorted a l).Pairwise (· ≤ ·) := by
  induction l with
  | nil => simp [insertSorted]
  | cons b l ih =>
    unfold insertSorted
    rw [List.pairwise_cons] at h
    split
    · next hab =>
      rw [List.pairwise_cons, List.pairwise_cons]
      refine ⟨?_, h⟩
      intro x hx
      rcases List.mem_cons.1 hx with rfl | hx
      · exact hab
      · exact Nat.le_trans hab (h.1 x hx)
    · next hab =>
      rw [List.pairwise_cons]
      refine ⟨?_, ih h.2⟩
      intro x hx
      rcases List.mem_cons.1 ((insertSorted_perm a l).mem_iff.1 hx) with rfl | hx
      · omega
      · exact h.1 x hx

theorem isort_sorted (l : List Nat) : (isort l).Pairwise (· ≤ ·) := by
  induction l with
  | nil => exact .nil
  | cons a l ih => exact insertSorted_sorted ih

theorem sorted_ext {l l' : List Nat} (h : l.Pairwise (· < ·)) (h' : l'.Pairwise (· < ·))
    (hm : ∀ c, c ∈ l ↔ c ∈ l') : l = l' := by
  induction l generalizing l' with
  | nil =>
    cases l' with
    | nil => rfl
    | cons a _ => exact absurd ((hm a).2 (by simp)) (by simp)
  | cons a l ih =>
    cases l' with
    | nil => exact absurd ((hm a).1 (by simp)) (by simp)
    | cons b l' =>
      rw [List.pairwise_cons] at h h'
      have hab : a = b := by
        have h1 := (hm a).1 (by simp)
        have h2 := (hm b).2 (by simp)
        rcases List.mem_cons.1 h1 with e | h1
        · exact e
        rcases List.mem_cons.1 h2 with e | h2
        · exact e.symm
        have := h.1 b h2
        have := h'.1 a h1
        omega
      subst hab
      congr 1
      apply ih h.2 h'.2
      intro c
      have := hm c
      simp only [List.mem_cons] at this
      constructor
      · intro hc
        rcases this.1 (Or.inr hc) with e | e
        · have := h.1 c hc; omega
        · exact e
      · intro hc
        rcases this.2 (Or.inr hc) with e | e
        · have := h'.1 c hc; omega
        · exact e

theorem isort_strict {l : List Nat} (h : l.Nodup) : (isort l).Pairwise (· < ·) := by
  have h1 := isort_sorted l
  have h2 : (isort l).Nodup := (isort_perm l).nodup_iff.2 h
  exact (h1.and h2).imp fun ⟨a, b⟩ => by omega

theorem isort_eq {l l' : List Nat} (h : l.Nodup) (h' : l'.Nodup) (hm : ∀ c, c ∈ l ↔ c ∈ l') :
    isort l = isort l' :=
  sorted_ext (isort_strict h) (isort_strict h') fun c => by rw [mem_isort, mem_isort, hm]

end Dccrg
