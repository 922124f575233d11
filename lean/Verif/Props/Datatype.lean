import Verif.Datatype
import Verif.Props.Halo
/-!
# C99, C100: bytes of cell data in messages and the function that describes them
-/
namespace Dccrg
open Cfg
variable {n : Nat} {B : Type}

/-! ## One message for all cells -/

/-- The message for all cells has the bytes of every cell after each other. -/
theorem allCells_bytes (l : List Info) : (allCells l).bytes = l.flatMap Info.bytes := by
  cases l with
  | nil => rfl
  | cons x l =>
    unfold allCells Info.bytes
    simp only [List.range_succ, List.range_zero, List.nil_append, List.flatMap_singleton]
    unfold createStruct
    simp only [List.flatMap_map, List.map_flatMap, List.map_map]
    congr 1
    funext y
    congr 1
    funext k
    apply List.map_congr_left
    intro d _
    simp only [Function.comp]
    congr 1
    simp only [Int.mul_zero, Int.add_zero]
    generalize (k : Int) * y.type.extent = z
    omega

theorem flatMap_same_length {α : Type} {f g : α → List Nat} {l : List α} (h : ∀ c ∈ l, (f c).length = (g c).length) :
    (l.flatMap f).length = (l.flatMap g).length := by
  induction l with
  | nil => rfl
  | cons c l ih =>
    simp only [List.flatMap_cons, List.length_append]
    rw [h c (by simp), ih fun c hc => h c (by simp [hc])]

theorem flatMap_aligned {α : Type} {f g : α → List Nat} {l : List α} (h : ∀ c ∈ l, (f c).length = (g c).length)
    {k a x : Nat} (ha : (l.flatMap f)[k]? = some a) (hx : (l.flatMap g)[k]? = some x) :
    ∃ c ∈ l, ∃ j : Nat, (f c)[j]? = some a ∧ (g c)[j]? = some x := by
  induction l generalizing k with
  | nil => simp at ha
  | cons c l ih =>
    simp only [List.flatMap_cons] at ha hx
    have hc := h c (by simp)
    by_cases hk : k < (f c).length
    · rw [List.getElem?_append_left hk] at ha
      rw [List.getElem?_append_left (by omega)] at hx
      exact ⟨c, by simp, k, ha, hx⟩
    · rw [List.getElem?_append_right (by omega)] at ha
      rw [List.getElem?_append_right (by omega)] at hx
      rw [← hc] at hx
      obtain ⟨c', hc', hj⟩ := ih (fun c hc => h c (by simp [hc])) ha hx
      exact ⟨c', by simp [hc'], hj⟩

/-! ## Bytes and values -/

/-- Messages with values that sent bytes have in the beginning. -/
def Wire.net (m : Fin n → Nat → B) (a : Wire n B) : Net n B where
  sends := a.sends.map fun x => (x.1, x.2.map (m x.1.src))
  recvs := a.recvs
  dest := fun q x => some (a.mem q x)

/-- Bytes that are received have not been sent. -/
structure Wire.Safe (m : Fin n → Nat → B) (R : Fin n → Nat → Prop) (a : Wire n B) : Prop where
  recvs : ∀ ch cs, (ch, cs) ∈ a.recvs → ∀ x ∈ cs, R ch.dst x
  sends : ∀ ch as, (ch, as) ∈ a.sends → ∀ x ∈ as, ¬ R ch.src x
  same : ∀ p x, ¬ R p x → a.mem p x = m p x

theorem store_putBytes (m : Nat → B) (cs : List Nat) (vs : List B) :
    store (fun x => some (m x)) cs vs = fun x => some (putBytes m cs vs x) := by
  induction cs generalizing m vs with
  | nil => cases vs <;> rfl
  | cons c cs ih =>
    cases vs with
    | nil => rfl
    | cons v vs =>
      simp only [store, putBytes]
      rw [← ih]
      congr 1
      funext x
      split <;> rfl

theorem putBytes_other {m : Nat → B} {cs : List Nat} {vs : List B} {x : Nat} (h : x ∉ cs) : putBytes m cs vs x = m x := by
  induction cs generalizing m vs with
  | nil => cases vs <;> rfl
  | cons c cs ih =>
    cases vs with
    | nil => rfl
    | cons v vs =>
      simp only [List.mem_cons, not_or] at h
      simp only [putBytes]
      rw [ih h.2, if_neg h.1]

theorem Wire.Safe.step {m : Fin n → Nat → B} {R : Fin n → Nat → Prop} {a b : Wire n B} (ha : a.Safe m R)
    (h : a.Step b) : b.Safe m R ∧ (a.net m).Step (b.net m) := by
  cases h with
  | @mk ch as cs s1 s2 r1 r2 mem h1 h2 h3 =>
  have hv : as.map (mem ch.src) = as.map (m ch.src) := by
    apply List.map_congr_left
    intro x hx
    exact ha.same _ _ (ha.sends ch as (by simp) x hx)
  have hR := ha.recvs ch cs (by simp)
  refine ⟨⟨?_, ?_, ?_⟩, ?_⟩
  · intro ch' cs' h'
    apply ha.recvs
    simp only [List.mem_append, List.mem_cons] at h' ⊢
    exact h'.elim Or.inl fun h => Or.inr (Or.inr h)
  · intro ch' as' h'
    apply ha.sends
    simp only [List.mem_append, List.mem_cons] at h' ⊢
    exact h'.elim Or.inl fun h => Or.inr (Or.inr h)
  · intro p x hx
    show (if p = ch.dst then _ else _ : Nat → B) x = _
    split
    case isTrue e =>
      subst e
      rw [putBytes_other fun hc => hx (hR x hc)]
      exact ha.same _ _ hx
    case isFalse e => exact ha.same _ _ hx
  · unfold Wire.net
    simp only [List.map_append, List.map_cons]
    have := @Net.Step.mk n B ch (as.map (m ch.src)) cs (s1.map fun x => (x.1, x.2.map (m x.1.src)))
      (s2.map fun x => (x.1, x.2.map (m x.1.src))) r1 r2 (fun q x => some (mem q x)) (by
        intro x hx
        obtain ⟨y, hy, rfl⟩ := List.mem_map.1 hx
        exact h1 y hy) h2
    refine cast ?_ this
    congr 2
    funext q
    split
    · rw [store_putBytes, hv]
    · rfl

theorem Wire.Safe.run {m : Fin n → Nat → B} {R : Fin n → Nat → Prop} {a b : Wire n B} {k : Nat} (ha : a.Safe m R)
    (h : Wire.Run k a b) : b.Safe m R ∧ Net.Run k (a.net m) (b.net m) := by
  induction h with
  | refl a => exact ⟨ha, .refl _⟩
  | step hs _ ih =>
    obtain ⟨h1, h2⟩ := ha.step hs
    obtain ⟨h3, h4⟩ := ih h1
    exact ⟨h3, .step h2 h4⟩

theorem Wire.mem_net {m : Fin n → Nat → B} {a : Wire n B} {ch : Chan n} {as : List Nat} (h : (ch, as) ∈ a.sends) :
    (ch, as.map (m ch.src)) ∈ (a.net m).sends := List.mem_map.2 ⟨(ch, as), h, rfl⟩

theorem Wire.not_fails {m : Fin n → Nat → B} {F : Fin n → Nat → Option B} {a : Wire n B} (hg : (a.net m).Good F) :
    ¬ a.Fails := by
  rintro ⟨ch, as, cs, s1, s2, r1, r2, h1, h2, -, -, h5⟩
  have hs : (ch, as) ∈ a.sends := by rw [h1]; simp
  have hr : (ch, cs) ∈ a.recvs := by rw [h2]; simp
  have := (hg.vals ch _ cs (Wire.mem_net hs) hr).1
  rw [List.length_map] at this
  omega

theorem Wire.stuck {m : Fin n → Nat → B} {F : Fin n → Nat → Option B} {a : Wire n B} (hg : (a.net m).Good F)
    (h : ¬ ∃ b, a.Step b) : ¬ ∃ b, (a.net m).Step b := by
  rintro ⟨b, hb⟩
  apply h
  have key : ∀ u v, Net.Step u v → u = a.net m → ∃ b, a.Step b := by
    rintro u v ⟨h1, h2⟩ e
    rename_i ch vs cs s1 s2 r1 r2 dest
    injection e with e1 e2 e3
    obtain ⟨l1, l2', ea, el, er⟩ := List.map_eq_append_iff.1 e1.symm
    obtain ⟨x, l2, rfl, ex, el2⟩ := List.map_eq_cons_iff.1 er
    obtain ⟨ch', as⟩ := x
    injection ex with ex1 ex2
    subst ex1
    have hs : (ch', as) ∈ a.sends := by rw [ea]; simp
    have hr : (ch', cs) ∈ a.recvs := by rw [← e2]; simp
    have hlen := (hg.vals ch' _ cs (Wire.mem_net hs) hr).1
    rw [List.length_map] at hlen
    obtain ⟨sa, ra, ma⟩ := a
    simp only at ea e2
    subst ea; subst e2
    refine ⟨_, .mk ?_ h2 (by omega)⟩
    intro y hy
    exact h1 _ (by rw [← el]; exact List.mem_map.2 ⟨y, hy, rfl⟩)
  exact key _ _ hb rfl

/-! ## C99 -/

/-- Bytes of cell `c` that process `p` sends to `q`. -/
def sentBytes (tell : Fin n → XferArgs → Info) (hood : Int) (p q : Fin n) (c : Nat) : List Nat :=
  (tell p ⟨c, p, q, false, hood⟩).bytes

/-- Bytes of cell `c` that process `q` receives from `p`. -/
def receivedBytes (tell : Fin n → XferArgs → Info) (hood : Int) (p q : Fin n) (c : Nat) : List Nat :=
  (tell q ⟨c, p, q, true, hood⟩).bytes

/-- What users' classes must take care of: same number of bytes are described for a cell by the sender and the receiver, no
byte is received twice, and bytes that are received aren't being sent. `cells q p` are cells that `q` receives from `p`. -/
structure Described (tell : Fin n → XferArgs → Info) (hood : Int) (cells : Fin n → Fin n → List Nat) : Prop where
  length : ∀ p q c, c ∈ cells q p →
    (sentBytes tell hood p q c).length = (receivedBytes tell hood p q c).length
  once : ∀ q p p' c c' (j j' : Nat) x, c ∈ cells q p → c' ∈ cells q p' →
    (receivedBytes tell hood p q c)[j]? = some x → (receivedBytes tell hood p' q c')[j']? = some x →
    p = p' ∧ c = c' ∧ j = j'
  apart : ∀ q p r c c' x, c ∈ cells q p → c' ∈ cells r q → x ∈ receivedBytes tell hood p q c →
    x ∉ sentBytes tell hood q r c'

theorem mem_messages {single : Bool} {s d : Fin n} {l : List Info} {ch : Chan n} {x : List Nat} :
    (ch, x) ∈ messages single s d l ↔ ch.src = s ∧ ch.dst = d ∧
      if single then ∃ k, ch.tag = k + 1 ∧ ∃ y, l[k]? = some y ∧ x = y.bytes
      else ch.tag = 0 ∧ l ≠ [] ∧ x = l.flatMap Info.bytes := by
  unfold messages
  rw [allCells_bytes]
  cases single with
  | true =>
    simp only [if_true]
    rw [List.mem_mapIdx]
    constructor
    · rintro ⟨k, hk, e⟩
      injection e with e1 e2
      subst e1; subst e2
      exact ⟨rfl, rfl, k, rfl, l[k], by simp [hk], rfl⟩
    · rintro ⟨rfl, rfl, k, hk, y, hy, rfl⟩
      obtain ⟨hlt, e⟩ := List.getElem?_eq_some_iff.1 hy
      refine ⟨k, hlt, ?_⟩
      rw [← hk, e]
  | false =>
    simp only [Bool.false_eq_true, if_false]
    by_cases hl : l = []
    · rw [if_pos hl]; simp [hl]
    · rw [if_neg hl, List.mem_singleton]
      constructor
      · intro e
        injection e with e1 e2
        subst e1; subst e2
        exact ⟨rfl, rfl, rfl, hl, rfl⟩
      · rintro ⟨rfl, rfl, h, -, rfl⟩
        rw [← h]

theorem messages_nodup {single : Bool} {s d : Fin n} (l : List Info) : ((messages single s d l).map (·.1)).Nodup := by
  unfold messages
  cases single with
  | true =>
    simp only [if_true]
    unfold List.Nodup
    rw [List.pairwise_iff_getElem]
    intro i j hi hj hij
    simp only [List.getElem_map, List.getElem_mapIdx]
    intro e
    injection e with _ _ e
    omega
  | false =>
    simp only [Bool.false_eq_true, if_false]
    split <;> simp

section
variable {single : Bool} {hood : Int} {snd rcv : Fin n → Fin n → List Nat} {tell : Fin n → XferArgs → Info}
  {mem : Fin n → Nat → B}

theorem wire_sends {ch : Chan n} {as : List Nat} :
    (ch, as) ∈ (startWire single hood snd rcv tell mem).sends ↔
      (ch, as) ∈ messages single ch.src ch.dst
        ((snd ch.src ch.dst).map fun c => tell ch.src ⟨c, ch.src, ch.dst, false, hood⟩) := by
  simp only [startWire, List.mem_flatMap]
  constructor
  · rintro ⟨p, -, q, -, h⟩
    have := mem_messages.1 h
    rw [this.1, this.2.1]; exact h
  · intro h; exact ⟨_, List.mem_finRange _, _, List.mem_finRange _, h⟩

theorem wire_recvs {ch : Chan n} {as : List Nat} :
    (ch, as) ∈ (startWire single hood snd rcv tell mem).recvs ↔
      (ch, as) ∈ messages single ch.src ch.dst
        ((rcv ch.dst ch.src).map fun c => tell ch.dst ⟨c, ch.src, ch.dst, true, hood⟩) := by
  simp only [startWire, List.mem_flatMap]
  constructor
  · rintro ⟨p, -, q, -, h⟩
    have := mem_messages.1 h
    rw [this.1, this.2.1]; exact h
  · intro h; exact ⟨_, List.mem_finRange _, _, List.mem_finRange _, h⟩

/-- Byte `x` of process `q` gets the value of byte `a` of process `p`. -/
def Lands (hood : Int) (rcv : Fin n → Fin n → List Nat) (tell : Fin n → XferArgs → Info) (q : Fin n) (x : Nat)
    (p : Fin n) (a : Nat) : Prop :=
  ∃ c ∈ rcv q p, ∃ j : Nat, (sentBytes tell hood p q c)[j]? = some a ∧ (receivedBytes tell hood p q c)[j]? = some x

theorem Lands.unique (hd : Described tell hood rcv) {q p p' : Fin n} {x a a' : Nat} (h : Lands hood rcv tell q x p a)
    (h' : Lands hood rcv tell q x p' a') : p = p' ∧ a = a' := by
  obtain ⟨c, hc, j, h1, h2⟩ := h
  obtain ⟨c', hc', j', h1', h2'⟩ := h'
  obtain ⟨rfl, rfl, rfl⟩ := hd.once q p p' c c' j j' x hc hc' h2 h2'
  rw [h1] at h1'
  exact ⟨rfl, Option.some.inj h1'⟩

/-- Memory after the transfer. -/
noncomputable def landed (hood : Int) (rcv : Fin n → Fin n → List Nat) (tell : Fin n → XferArgs → Info)
    (mem : Fin n → Nat → B) (q : Fin n) (x : Nat) : Option B :=
  open Classical in
  if h : ∃ pa : Fin n × Nat, Lands hood rcv tell q x pa.1 pa.2 then
    some (mem (Classical.choose h).1 (Classical.choose h).2)
  else some (mem q x)

theorem landed_eq (hd : Described tell hood rcv) {q p : Fin n} {x a : Nat} (h : Lands hood rcv tell q x p a) :
    landed hood rcv tell mem q x = some (mem p a) := by
  have hex : ∃ pa : Fin n × Nat, Lands hood rcv tell q x pa.1 pa.2 := ⟨(p, a), h⟩
  unfold landed
  rw [dif_pos hex]
  obtain ⟨h1, h2⟩ := (Classical.choose_spec hex).unique hd h
  rw [h1, h2]

theorem landed_other {q : Fin n} {x : Nat} (h : ∀ p a, ¬ Lands hood rcv tell q x p a) :
    landed hood rcv tell mem q x = some (mem q x) := by
  unfold landed
  rw [dif_neg]
  rintro ⟨⟨p, a⟩, h'⟩
  exact h p a h'

theorem wire_good (hm : ∀ p q, snd p q = rcv q p) (hd : Described tell hood rcv) :
    ((startWire single hood snd rcv tell mem).net mem).Good (landed hood rcv tell mem) := by
  refine ⟨?_, ?_, ?_, ?_, ?_⟩
  · have : ((startWire single hood snd rcv tell mem).net mem).sends.map (·.1) =
        (startWire single hood snd rcv tell mem).sends.map (·.1) := by
      unfold Wire.net
      rw [List.map_map]; rfl
    rw [this]
    exact flatMap_chan_nodup _ (fun p q => messages_nodup _) (fun ch => (ch.src, ch.dst))
      (fun p q x hx => by
        obtain ⟨ch, vs⟩ := x
        have := mem_messages.1 hx
        show (ch.src, ch.dst) = _
        rw [this.1, this.2.1])
  · exact flatMap_chan_nodup _ (fun p q => messages_nodup _) (fun ch => (ch.dst, ch.src))
      (fun p q x hx => by
        obtain ⟨ch, vs⟩ := x
        have := mem_messages.1 hx
        show (ch.dst, ch.src) = _
        rw [this.1, this.2.1])
  · intro ch
    have e : (∃ vs, (ch, vs) ∈ ((startWire single hood snd rcv tell mem).net mem).sends) ↔
        ∃ as, (ch, as) ∈ (startWire single hood snd rcv tell mem).sends := by
      constructor
      · rintro ⟨vs, h⟩
        obtain ⟨⟨ch', as⟩, h1, h2⟩ := List.mem_map.1 h
        injection h2 with h2 _
        subst h2
        exact ⟨as, h1⟩
      · rintro ⟨as, h⟩
        exact ⟨_, Wire.mem_net h⟩
    rw [e]
    show _ ↔ ∃ cs, (ch, cs) ∈ (startWire single hood snd rcv tell mem).recvs
    simp only [wire_sends, wire_recvs, mem_messages, true_and, hm]
    cases single with
    | true =>
      simp only [if_true, List.getElem?_map]
      constructor
      · rintro ⟨as, k, hk, y, hy, rfl⟩
        cases hx : (rcv ch.dst ch.src)[k]? with
        | none => rw [hx] at hy; cases hy
        | some x => exact ⟨_, k, hk, _, by rw [hx]; rfl, rfl⟩
      · rintro ⟨as, k, hk, y, hy, rfl⟩
        cases hx : (rcv ch.dst ch.src)[k]? with
        | none => rw [hx] at hy; cases hy
        | some x => exact ⟨_, k, hk, _, by rw [hx]; rfl, rfl⟩
    | false =>
      simp only [Bool.false_eq_true, if_false]
      constructor
      · rintro ⟨as, h1, h2, rfl⟩
        exact ⟨_, h1, by simpa using h2, rfl⟩
      · rintro ⟨as, h1, h2, rfl⟩
        exact ⟨_, h1, by simpa using h2, rfl⟩
  · intro ch vs cs h0 h2
    obtain ⟨⟨ch', as⟩, h1, e⟩ := List.mem_map.1 h0
    injection e with e1 e2
    subst e1; subst e2
    change (_, cs) ∈ (startWire single hood snd rcv tell mem).recvs at h2
    dsimp only at h2 ⊢
    rw [wire_sends, mem_messages] at h1
    rw [wire_recvs, mem_messages] at h2
    obtain ⟨-, -, h1⟩ := h1
    obtain ⟨-, -, h2⟩ := h2
    rw [hm] at h1
    rw [List.length_map]
    suffices h : cs.length = as.length ∧ ∀ (k : Nat) c a, cs[k]? = some c → as[k]? = some a →
        Lands hood rcv tell ch'.dst c ch'.src a by
      refine ⟨h.1, fun k c v hc hv => ?_⟩
      rw [List.getElem?_map] at hv
      cases ha : as[k]? with
      | none => rw [ha] at hv; cases hv
      | some a =>
        rw [ha] at hv
        rw [landed_eq hd (h.2 k c a hc ha)]
        exact hv
    cases single with
    | true =>
      simp only [if_true, List.getElem?_map] at h1 h2
      obtain ⟨k, hk, y, hy, rfl⟩ := h1
      obtain ⟨k', hk', y', hy', rfl⟩ := h2
      have : k' = k := by omega
      subst this
      cases hx : (rcv ch'.dst ch'.src)[k']? with
      | none => rw [hx] at hy; cases hy
      | some x =>
        rw [hx] at hy hy'
        have hmem := List.mem_of_getElem? hx
        obtain rfl := (Option.some.inj hy).symm
        obtain rfl := (Option.some.inj hy').symm
        exact ⟨(hd.length _ _ _ hmem).symm, fun j c a hc ha => ⟨x, hmem, j, ha, hc⟩⟩
    | false =>
      simp only [Bool.false_eq_true, if_false, List.flatMap_map] at h1 h2
      obtain ⟨-, -, rfl⟩ := h1
      obtain ⟨-, -, rfl⟩ := h2
      have hl : ∀ c ∈ rcv ch'.dst ch'.src, (sentBytes tell hood ch'.src ch'.dst c).length =
        (receivedBytes tell hood ch'.src ch'.dst c).length := fun c hc => hd.length _ _ c hc
      exact ⟨(flatMap_same_length hl).symm, fun k c a hc ha => flatMap_aligned hl ha hc⟩
  · intro q x h
    rw [landed_other]
    · rfl
    rintro p a ⟨c, hc, j, h1, h2⟩
    have hx := List.mem_of_getElem? h2
    obtain ⟨k, hk⟩ := List.getElem?_of_mem hc
    cases single with
    | true =>
      refine h ⟨p, q, k + 1⟩ (receivedBytes tell hood p q c) ?_ rfl hx
      show _ ∈ (startWire true hood snd rcv tell mem).recvs
      rw [wire_recvs, mem_messages]
      refine ⟨rfl, rfl, ?_⟩
      simp only [if_true]
      exact ⟨k, rfl, _, by rw [List.getElem?_map, hk]; rfl, rfl⟩
    | false =>
      refine h ⟨p, q, 0⟩ ((rcv q p).flatMap (receivedBytes tell hood p q)) ?_ rfl (List.mem_flatMap.2 ⟨c, hc, hx⟩)
      show _ ∈ (startWire false hood snd rcv tell mem).recvs
      rw [wire_recvs, mem_messages]
      refine ⟨rfl, rfl, ?_⟩
      simp only [Bool.false_eq_true, if_false, List.flatMap_map, true_and]
      refine ⟨?_, rfl⟩
      intro e
      rw [List.map_eq_nil_iff] at e
      rw [e] at hc; cases hc

theorem wire_safe (hm : ∀ p q, snd p q = rcv q p) (hd : Described tell hood rcv) :
    (startWire single hood snd rcv tell mem).Safe mem
      (fun q x => ∃ p, ∃ c ∈ rcv q p, x ∈ receivedBytes tell hood p q c) := by
  refine ⟨?_, ?_, fun p x _ => rfl⟩
  · intro ch cs h x hx
    rw [wire_recvs, mem_messages] at h
    obtain ⟨-, -, h⟩ := h
    refine ⟨ch.src, ?_⟩
    cases single with
    | true =>
      simp only [if_true, List.getElem?_map] at h
      obtain ⟨k, -, y, hy, rfl⟩ := h
      cases hz : (rcv ch.dst ch.src)[k]? with
      | none => rw [hz] at hy; cases hy
      | some z =>
        rw [hz] at hy
        obtain rfl := (Option.some.inj hy).symm
        exact ⟨z, List.mem_of_getElem? hz, hx⟩
    | false =>
      simp only [Bool.false_eq_true, if_false, List.flatMap_map] at h
      obtain ⟨-, -, rfl⟩ := h
      exact List.mem_flatMap.1 hx
  · rintro ch as h x hx ⟨p, c, hc, hx'⟩
    rw [wire_sends, mem_messages] at h
    obtain ⟨-, -, h⟩ := h
    rw [hm] at h
    suffices hs : ∃ c' ∈ rcv ch.dst ch.src, x ∈ sentBytes tell hood ch.src ch.dst c' by
      obtain ⟨c', hc', hx''⟩ := hs
      exact hd.apart _ _ _ _ _ _ hc hc' hx' hx''
    cases single with
    | true =>
      simp only [if_true, List.getElem?_map] at h
      obtain ⟨k, -, y, hy, rfl⟩ := h
      cases hz : (rcv ch.dst ch.src)[k]? with
      | none => rw [hz] at hy; cases hy
      | some z =>
        rw [hz] at hy
        obtain rfl := (Option.some.inj hy).symm
        exact ⟨z, List.mem_of_getElem? hz, hx⟩
    | false =>
      simp only [Bool.false_eq_true, if_false, List.flatMap_map] at h
      obtain ⟨-, -, rfl⟩ := h
      exact List.mem_flatMap.1 hx

/-- C99: data of cells are transferred as users' classes describe: in whatever order messages are delivered, no message is too
long, all messages are delivered, and then the j-th byte described by the receiver for a cell has the value that the j-th byte
described by the sender had. No other byte of any process is changed. This holds for one message per cell and for one message for
all cells. -/
theorem C99_transfer (hm : ∀ p q, snd p q = rcv q p) (hd : Described tell hood rcv) {k : Nat} {b : Wire n B}
    (hr : Wire.Run k (startWire single hood snd rcv tell mem) b) :
    ¬ b.Fails ∧ b.sends.length + k = (startWire single hood snd rcv tell mem).sends.length ∧
    ((¬ ∃ c, b.Step c) → b.sends = [] ∧ b.recvs = [] ∧
      (∀ p q c, c ∈ rcv q p → ∀ (j : Nat) a x, (sentBytes tell hood p q c)[j]? = some a →
        (receivedBytes tell hood p q c)[j]? = some x → b.mem q x = mem p a) ∧
      ∀ q x, (∀ p c, c ∈ rcv q p → x ∉ receivedBytes tell hood p q c) → b.mem q x = mem q x) := by
  have hg0 : ((startWire single hood snd rcv tell mem).net mem).Good (landed hood rcv tell mem) := wire_good hm hd
  obtain ⟨-, hrun⟩ := (wire_safe (single := single) (mem := mem) hm hd).run hr
  obtain ⟨hg, hl⟩ := hg0.run hrun
  refine ⟨Wire.not_fails hg, by simpa [Wire.net] using hl, fun hs => ?_⟩
  obtain ⟨⟨h1, h2⟩, h3⟩ := hg.progress (Wire.stuck hg hs)
  have hmem : ∀ q x, some (b.mem q x) = landed hood rcv tell mem q x := fun q x => congrFun (congrFun h3 q) x
  refine ⟨by simpa [Wire.net] using h1, h2, ?_, ?_⟩
  · intro p q c hc j a x ha hx
    have := hmem q x
    rw [landed_eq hd ⟨c, hc, j, ha, hx⟩] at this
    exact Option.some.inj this
  · intro q x hx
    have := hmem q x
    rw [landed_other] at this
    · exact Option.some.inj this
    rintro p a ⟨c, hc, j, -, h⟩
    exact hx p c hc (List.mem_of_getElem? h)

/-- C99: `set_send_single_cells` has no effect on the result. -/
theorem C99_single_partial (hm : ∀ p q, snd p q = rcv q p) (hd : Described tell hood rcv) {k k' : Nat} {b b' : Wire n B}
    (hr : Wire.Run k (startWire true hood snd rcv tell mem) b) (hs : ¬ ∃ c, b.Step c)
    (hr' : Wire.Run k' (startWire false hood snd rcv tell mem) b') (hs' : ¬ ∃ c, b'.Step c) : b.mem = b'.mem := by
  obtain ⟨-, -, h⟩ := C99_transfer hm hd hr
  obtain ⟨-, -, h'⟩ := C99_transfer hm hd hr'
  obtain ⟨-, -, h1, h2⟩ := h hs
  obtain ⟨-, -, h1', h2'⟩ := h' hs'
  funext q x
  by_cases hx : ∃ p c, c ∈ rcv q p ∧ x ∈ receivedBytes tell hood p q c
  · obtain ⟨p, c, hc, hx⟩ := hx
    obtain ⟨j, hj⟩ := List.getElem?_of_mem hx
    obtain ⟨hlt, -⟩ := List.getElem?_eq_some_iff.1 hj
    have hlt' : j < (sentBytes tell hood p q c).length := by rw [hd.length p q c hc]; exact hlt
    have ha : (sentBytes tell hood p q c)[j]? = some (sentBytes tell hood p q c)[j] := List.getElem?_eq_getElem hlt'
    rw [h1 p q c hc j _ x ha hj, h1' p q c hc j _ x ha hj]
  · have hx' : ∀ p c, c ∈ rcv q p → x ∉ receivedBytes tell hood p q c := fun p c hc h => hx ⟨p, c, hc, h⟩
    rw [h2 q x hx', h2' q x hx']

/-- C99: delivery of messages always ends. -/
theorem C99_ends (hm : ∀ p q, snd p q = rcv q p) (hd : Described tell hood rcv) :
    ∃ (k : Nat) (b : Wire n B), Wire.Run k (startWire single hood snd rcv tell mem) b ∧ ¬ ∃ c, b.Step c := by
  suffices h : ∀ m k (b : Wire n B), b.sends.length ≤ m → Wire.Run k (startWire single hood snd rcv tell mem) b →
      ∃ (k : Nat) (b : Wire n B), Wire.Run k (startWire single hood snd rcv tell mem) b ∧ ¬ ∃ c, b.Step c from
    h _ 0 _ (Nat.le_refl _) (.refl _)
  intro m
  induction m with
  | zero =>
    intro k b hb hr
    refine ⟨k, b, hr, ?_⟩
    rintro ⟨c, hc⟩
    cases hc
    simp at hb
  | succ m ih =>
    intro k b hb hr
    by_cases hs : ∃ c, b.Step c
    · obtain ⟨c, hc⟩ := hs
      have hrun : Wire.Run (k + 1) (startWire single hood snd rcv tell mem) c := by
        clear ih hb
        revert hr
        generalize startWire single hood snd rcv tell mem = a
        intro hr
        induction hr with
        | refl a => exact .step hc (.refl _)
        | step h1 _ ih => exact .step h1 (ih hc)
      have h1 := (C99_transfer hm hd hr).2.1
      have h2 := (C99_transfer hm hd hrun).2.1
      exact ih (k + 1) c (by omega) hrun
    · exact ⟨k, b, hr, hs⟩

end

section
variable {D W : Type} {g : Cfg} {dflt : D} {maxTag : Nat} {s : Sys n D W} {id : Int} {H : List (V3 Int)}

/-- C99: an update of remote neighbors. `tell` describes data of cells and of copies of remote neighbors. -/
theorem C99_update (hw : g.WF) (h : Reachable g dflt maxTag s) (hH : ∀ i, hoodFor g (s i) id = some H)
    {tell : Fin n → XferArgs → Info}
    (hd : Described tell id fun q p => recvList g H q (s q).owner (s q).has p) {single : Bool} {mem : Fin n → Nat → B}
    {k : Nat} {b : Wire n B}
    (hr : Wire.Run k (startWire single id (fun p q => sendList g H p (s p).owner (s p).has q)
      (fun q p => recvList g H q (s q).owner (s q).has p) tell mem) b) (hs : ¬ ∃ c, b.Step c) :
    b.sends = [] ∧ b.recvs = [] ∧
    (∀ i j c c', (s i).owner c = some i → NbrOf g (s i) id c c' → (s i).owner c' = some j → j ≠ i →
      ∀ (t : Nat) a x, (tell j ⟨c', j, i, false, id⟩).bytes[t]? = some a →
        (tell i ⟨c', j, i, true, id⟩).bytes[t]? = some x → b.mem i x = mem j a) ∧
    ∀ i x, (∀ j c c', (s i).owner c = some i → NbrOf g (s i) id c c' → (s i).owner c' = some j → j ≠ i →
      x ∉ (tell i ⟨c', j, i, true, id⟩).bytes) → b.mem i x = mem i x := by
  have hm : ∀ p q, sendList g H p (s p).owner (s p).has q = recvList g H q (s q).owner (s q).has p :=
    fun p q => (C34_lists hw h p q (hH p)).2.1
  obtain ⟨-, -, h3⟩ := C99_transfer hm hd hr
  obtain ⟨h4, h5, h6, h7⟩ := h3 hs
  have ho : ∀ i j, (s i).owner = (s j).owner := by
    intro i j
    obtain ⟨w, hi⟩ := h.inv hw (by have := i.2; omega)
    rw [hi.sys.owner, hi.sys.owner]
  have hmem : ∀ i j c', c' ∈ recvList g H i (s i).owner (s i).has j ↔
      ∃ c, (s i).owner c = some i ∧ NbrOf g (s i) id c c' ∧ (s i).owner c' = some j ∧ j ≠ i := by
    intro i j c'
    rw [← hm j i, (C34_lists hw h j i (hH j)).2.2.2 c', ho j i]
    constructor
    · rintro ⟨e1, e2, c, e3, e4⟩
      exact ⟨c, e3, e4, e2, e1⟩
    · rintro ⟨c, e3, e4, e2, e1⟩
      exact ⟨e1, e2, c, e3, e4⟩
  refine ⟨h4, h5, ?_, ?_⟩
  · intro i j c c' e1 e2 e3 e4 t a x ha hx
    exact h6 j i c' ((hmem i j c').2 ⟨c, e1, e2, e3, e4⟩) t a x ha hx
  · intro i x hx
    apply h7
    intro j c' hc'
    obtain ⟨c, e1, e2, e3, e4⟩ := (hmem i j c').1 hc'
    exact hx j c c' e1 e2 e3 e4

end

/-- Every cell has 16 bytes of which 2 and 3, and after them 0, are transferred. Copies of remote neighbors are in another
place. -/
def sampleTell : Fin 2 → XferArgs → Info := fun _ a =>
  ⟨16 * a.cell + (if a.receiving then 1000 else 0), 1, ⟨[2, 3, 0], 16⟩⟩

/-- Process 0 has cell 1 and process 1 has cell 2, which are neighbors. -/
def sampleCells : Fin 2 → Fin 2 → List Nat := fun q p => if q = p then [] else if q = 0 then [2] else [1]

theorem sample_described_of {cells : Fin 2 → Fin 2 → List Nat}
    (hc : ∀ q p c, c ∈ cells q p → q ≠ p ∧ c = if q = 0 then 2 else 1) : Described sampleTell defaultId cells := by
  have hb : ∀ p q c, receivedBytes sampleTell defaultId p q c = [16 * c + 1002, 16 * c + 1003, 16 * c + 1000] := by
    intro p q c
    simp [receivedBytes, sampleTell, Info.bytes]
    omega
  have hs : ∀ p q c, sentBytes sampleTell defaultId p q c = [16 * c + 2, 16 * c + 3, 16 * c] := by
    intro p q c
    simp [sentBytes, sampleTell, Info.bytes]
    omega
  refine ⟨?_, ?_, ?_⟩
  · intro p q c _
    rw [hb, hs]; rfl
  · intro q p p' c c' j j' x h1 h2 h3 h4
    obtain ⟨e1, e2⟩ := hc _ _ _ h1
    obtain ⟨e1', e2'⟩ := hc _ _ _ h2
    have ep : p = p' := by omega
    subst ep
    have ec : c = c' := by rw [e2, e2']
    subst ec
    rw [hb] at h3 h4
    refine ⟨rfl, rfl, ?_⟩
    match j, j', h3, h4 with
    | 0, 0, _, _ | 1, 1, _, _ | 2, 2, _, _ => rfl
    | 0, 1, h3, h4 | 0, 2, h3, h4 | 1, 0, h3, h4 | 1, 2, h3, h4 | 2, 0, h3, h4 | 2, 1, h3, h4 => simp at h3 h4; omega
    | 0, j + 3, h3, h4 | 1, j + 3, h3, h4 | 2, j + 3, h3, h4 => simp at h4
    | j + 3, _, h3, h4 => simp at h3
  · intro q p r c c' x h1 h2 h3 h4
    obtain ⟨e1, e2⟩ := hc _ _ _ h1
    obtain ⟨e1', e2'⟩ := hc _ _ _ h2
    rw [hb] at h3
    rw [hs] at h4
    have hc' : c' ≤ 2 := by rw [e2']; split <;> omega
    simp only [List.mem_cons, List.not_mem_nil, or_false] at h3 h4
    omega

theorem sample_described : Described sampleTell defaultId sampleCells := by
  apply sample_described_of
  intro q p c h
  unfold sampleCells at h
  split at h
  · cases h
  · rename_i hne
    refine ⟨hne, ?_⟩
    split at h
    · rename_i h0; rw [if_pos h0]; simpa using h
    · rename_i h0; rw [if_neg h0]; simpa using h

/-- Byte 3 of cell 2 arrives at process 0, byte 1 isn't sent. -/
example (single : Bool) (mem : Fin 2 → Nat → Nat) : ∃ (k : Nat) (b : Wire 2 Nat),
    Wire.Run k (startWire single defaultId (fun p q => sampleCells q p) sampleCells sampleTell mem) b ∧
    b.mem 0 1035 = mem 1 35 ∧ b.mem 0 1033 = mem 0 1033 ∧ b.mem 1 1035 = mem 1 1035 := by
  obtain ⟨k, b, h1, h2⟩ := C99_ends (single := single) (snd := fun p q => sampleCells q p) (mem := mem) (fun _ _ => rfl)
    sample_described
  obtain ⟨-, -, h⟩ := C99_transfer (fun _ _ => rfl) sample_described h1
  obtain ⟨-, -, h3, h4⟩ := h h2
  refine ⟨k, b, h1, ?_, ?_, ?_⟩
  · exact h3 1 0 2 (by decide) 1 35 1035 (by decide) (by decide)
  · apply h4 0 1033
    decide +revert
  · exact h4 1 1035 (by decide)

/-- The same with a grid. -/
example (single : Bool) (mem : Fin 2 → Nat → Nat) : ∃ (s : Sys 2 Nat Nat) (H : List (V3 Int)) (k : Nat) (b : Wire 2 Nat),
    Reachable tinyG 0 146 s ∧ (∀ i, hoodFor tinyG (s i) defaultId = some H) ∧
    Wire.Run k (startWire single defaultId (fun p q => sendList tinyG H p (s p).owner (s p).has q)
      (fun q p => recvList tinyG H q (s q).owner (s q).has p) sampleTell mem) b ∧ b.mem 0 1035 = mem 1 35 := by
  obtain ⟨s, h1, h2, h3, -, -, -, h4, h5⟩ := tiny_init
  have ho : ∀ i, (s i).owner = (createLevel0 2 2).2 := h3.sys.owner
  have hH : ∀ i, hoodFor tinyG (s i) defaultId = some (hoodOf tinyG) := fun i => by unfold hoodFor; rw [if_pos rfl]
  have hn : NbrOf tinyG (s 0) defaultId 1 2 :=
    (h3.nbrOf_iff tiny_wf (hH 0) (exist_of h4)).2 ⟨exist_of h5, tiny_linked.1⟩
  have hm : ∀ p q, sendList tinyG (hoodOf tinyG) p (s p).owner (s p).has q =
      recvList tinyG (hoodOf tinyG) q (s q).owner (s q).has p := fun p q => (C34_lists tiny_wf h2 p q (hH p)).2.1
  have hd : Described sampleTell defaultId fun q p => recvList tinyG (hoodOf tinyG) q (s q).owner (s q).has p := by
    apply sample_described_of
    intro q p c hc
    rw [← hm p q] at hc
    obtain ⟨e1, e2, -⟩ := ((C34_lists tiny_wf h2 p q (hH p)).2.2.2 c).1 hc
    rw [ho] at e2
    refine ⟨fun e => e1 e.symm, ?_⟩
    have hv : c ≤ 146 := by
      have := (h3.sys.tiled.valid c (exist_of e2)).2
      rw [tiny_last] at this
      exact this
    have hall : ∀ c, c < 147 → ∀ p q : Fin 2, p ≠ q → (createLevel0 2 2).2 c = some p → c = if q = 0 then 2 else 1 := by
      decide +kernel
    exact hall c (by omega) p q e1 e2
  obtain ⟨k, b, e1, e2⟩ := C99_ends (single := single) (mem := mem) hm hd
  obtain ⟨-, -, e3, -⟩ := C99_update tiny_wf h2 hH hd e1 e2
  exact ⟨s, hoodOf tinyG, k, b, h2, hH, e1, e3 0 1 1 2 (by rw [ho]; exact h4) hn (by rw [ho]; exact h5) (by decide) 1 35 1035
    (by decide) (by decide)⟩

/-! ## Messages that are shorter than what is described by the receiver -/

/-- The receiver expects two bytes for cell 1, others expect one byte. -/
def shortTell : Fin 2 → XferArgs → Info := fun _ a =>
  ⟨10 * a.cell + (if a.receiving then 100 else 0), if a.receiving ∧ a.cell = 1 then 2 else 1, ⟨[0], 1⟩⟩

/-- Process 0 sends cells 1 and 2 to process 1. -/
def shortCells : Fin 2 → Fin 2 → List Nat := fun q p => if q = 1 ∧ p = 0 then [1, 2] else []

/-- C99: `set_send_single_cells` has an effect on the result if less bytes are sent for a cell than the receiver
describes: with one message per cell the other cell is received correctly, with one message for all cells its data are
put in the place of data of the first cell. -/
theorem C99_single_false (mem : Fin 2 → Nat → Nat) (hne : mem 1 120 ≠ mem 0 20) :
    (∀ p q c, c ∈ shortCells q p →
      (sentBytes shortTell 0 p q c).length ≤ (receivedBytes shortTell 0 p q c).length) ∧
    (sentBytes shortTell 0 0 1 2).length = (receivedBytes shortTell 0 0 1 2).length ∧
    sentBytes shortTell 0 0 1 2 = [20] ∧ receivedBytes shortTell 0 0 1 2 = [120] ∧
    (∃ b, Wire.Run 2 (startWire true 0 (fun p q => shortCells q p) shortCells shortTell mem) b ∧ b.sends = [] ∧ b.recvs = [] ∧
      b.mem 1 120 = mem 0 20) ∧
    ∃ b, Wire.Run 1 (startWire false 0 (fun p q => shortCells q p) shortCells shortTell mem) b ∧ b.sends = [] ∧ b.recvs = [] ∧
      b.mem 1 120 ≠ mem 0 20 ∧ b.mem 1 111 = mem 0 20 := by
  refine ⟨by decide, by decide, by decide, by decide, ?_, ?_⟩
  · have e : startWire true 0 (fun p q => shortCells q p) shortCells shortTell mem =
        ⟨[] ++ (⟨0, 1, 1⟩, [10]) :: [(⟨0, 1, 2⟩, [20])], [] ++ (⟨0, 1, 1⟩, [110, 111]) :: [(⟨0, 1, 2⟩, [120])], mem⟩ := by
      unfold startWire
      congr 1 <;> decide
    rw [e]
    refine ⟨_, .step (.mk (by simp) (by simp) (by decide)) (.step (.mk (s1 := []) (s2 := []) (r1 := []) (r2 := []) (ch := ⟨0, 1, 2⟩)
      (as := [20]) (cs := [120]) (by simp) (by simp) (by decide)) (.refl _)), rfl, rfl, ?_⟩
    simp [putBytes]
  · have e : startWire false 0 (fun p q => shortCells q p) shortCells shortTell mem =
        ⟨[] ++ (⟨0, 1, 0⟩, [10, 20]) :: [], [] ++ (⟨0, 1, 0⟩, [110, 111, 120]) :: [], mem⟩ := by
      unfold startWire
      congr 1 <;> decide
    rw [e]
    refine ⟨_, .step (.mk (by simp) (by simp) (by decide)) (.refl _), rfl, rfl, ?_, ?_⟩
    · simpa [putBytes] using hne
    · simp [putBytes]

/-! ## C100 -/

section
variable {O : Type} {k : Members O} {o : O} {a : XferArgs}

/-- C100: if a class has one version of `get_mpi_datatype` it is the one used, with arguments of the transfer. -/
theorem C100_one (f : O → XferArgs → Info) (f' : O → Info) (b : Option (O → Info)) :
    (⟨some f, none, none, none, b⟩ : Members O).get o a = some (f o a) ∧
    (⟨none, some f, none, none, b⟩ : Members O).get o a = some (f o a) ∧
    (⟨none, none, some f', none, b⟩ : Members O).get o a = some (f' o) ∧
    (⟨none, none, none, some f', b⟩ : Members O).get o a = some (f' o) ∧
    (⟨none, none, none, none, some f'⟩ : Members O).get o a = some (f' o) ∧
    (⟨none, none, none, none, none⟩ : Members O).get o a = none :=
  ⟨rfl, rfl, rfl, rfl, rfl, rfl⟩

/-- C100: no combination of versions is ambiguous: if a class has `get_mpi_datatype`, one of its versions is used. -/
theorem C100_compiles (h : k.argsConst.isSome ∨ k.args.isSome ∨ k.bareConst.isSome ∨ k.bare.isSome) :
    ∃ x, k.get o a = some x ∧
      ((∃ f, k.argsConst = some f ∧ x = f o a) ∨ (∃ f, k.args = some f ∧ x = f o a) ∨
       (∃ f, k.bareConst = some f ∧ x = f o) ∨ ∃ f, k.bare = some f ∧ x = f o) := by
  obtain ⟨ac, ar, bc, ba, b⟩ := k
  cases ac <;> cases ar <;> cases bc <;> cases ba <;>
    first
    | (simp at h; done)
    | (refine ⟨_, rfl, ?_⟩; simp)

/-- C100: versions with arguments have precedence, unless the class has a version with arguments only as `const` and a
version without arguments that isn't `const`. Of two versions with arguments, the one that isn't `const` is used. -/
theorem C100_precedence_partial (h : k.argsConst.isSome ∨ k.args.isSome) (hn : k.args.isSome ∨ k.bare = none) :
    ∃ f, (k.args = some f ∨ k.args = none ∧ k.argsConst = some f) ∧ k.get o a = some (f o a) := by
  obtain ⟨ac, ar, bc, ba, b⟩ := k
  cases ac <;> cases ar <;> cases bc <;> cases ba <;>
    first
    | (simp at h; done)
    | (simp at hn; done)
    | (refine ⟨_, ?_, rfl⟩; simp)

/-- C100: versions with arguments don't always have precedence. -/
theorem C100_false (f : O → XferArgs → Info) (f' : O → Info) (hk : k.argsConst = some f) (hk' : k.args = none)
    (hb : k.bare = some f') : k.get o a = some (f' o) := by
  obtain ⟨ac, ar, bc, ba, b⟩ := k
  cases hk; cases hk'; cases hb
  cases bc <;> rfl

/-- Such a class: what is transferred without arguments is only the first byte. -/
example : ∃ k : Members Unit, k.argsConst = some (fun _ a => ⟨0, if a.hood = 1 then 8 else 4, ⟨[0], 1⟩⟩) ∧
    k.get () ⟨1, 0, 1, false, 1⟩ = some ⟨0, 1, ⟨[0], 1⟩⟩ :=
  ⟨⟨some fun _ a => ⟨0, if a.hood = 1 then 8 else 4, ⟨[0], 1⟩⟩, none, none, some fun _ => ⟨0, 1, ⟨[0], 1⟩⟩, none⟩, rfl, rfl⟩

/-- And one whose version with arguments has precedence. -/
example : ∃ k : Members Unit, k.bareConst.isSome ∧ k.argsConst.isSome ∧
    k.get () ⟨1, 0, 1, false, 1⟩ = some ⟨0, 8, ⟨[0], 1⟩⟩ :=
  ⟨⟨some fun _ a => ⟨0, if a.hood = 1 then 8 else 4, ⟨[0], 1⟩⟩, none, some fun _ => ⟨0, 1, ⟨[0], 1⟩⟩, none, none⟩, rfl, rfl, rfl⟩

end

/-- C100: all bytes of objects of basic types and of arrays of them are transferred, each once, in the order of memory. -/
theorem C100_basic (t : BasicType) (len addr : Nat) :
    (basicInfo t addr).bytes = List.range' addr t.size ∧
    (arrayInfo t len addr).bytes = List.range' addr (len * t.size) := by
  have hsize : t.named.size = t.size := by cases t <;> rfl
  have harr : ∀ len addr, (arrayInfo t len addr).bytes = List.range' addr (len * t.size) := by
    intro len addr
    unfold arrayInfo Info.bytes NamedType.type
    simp only [List.map_map, hsize]
    induction len with
    | zero => simp
    | succ len ih =>
      rw [List.range_succ, List.flatMap_append, ih, Nat.succ_mul, ← List.range'_append_1]
      congr 1
      rw [List.flatMap_singleton, List.range'_eq_map_range]
      apply List.map_congr_left
      intro d _
      simp only [Function.comp]
      rw [← Int.natCast_mul]
      omega
  refine ⟨?_, harr len addr⟩
  have := harr 1 addr
  rw [Nat.one_mul] at this
  exact this

example : (arrayInfo .double 3 100).bytes.length = 24 := by rw [(C100_basic .double 3 100).2]; rfl

end Dccrg
