import Verif.Transfer
/-!
# Split-phase updates of remote neighbors

Model of `start_remote_neighbor_copy_receives`, `start_remote_neighbor_copy_sends`,
`wait_remote_neighbor_copy_update_receives` and `wait_remote_neighbor_copy_update_sends`
(dccrg.hpp:5086-5468), from which `start_remote_neighbor_copy_updates` and
`wait_remote_neighbor_copy_updates` consist. Unlike in `Verif/Transfer.lean` processes don't proceed
together: each of them calls these functions at its own pace, calculates in between, and can have
several updates in progress.

MPI can copy the data of a message away from the sender at any time after `MPI_Isend`
(`Event.buffer`), possibly before the receive has been posted, or only when the message is matched
(`Event.deliver`). Messages with same source, destination and tag are matched in the order in which
they have been posted. Nothing else is assumed of the order.

An update is numbered by how many updates the process has started before it. Update `r` sends `S r p q`
from process `p` to process `q` and receives `R r q p`.
-/
namespace Dccrg
variable {n : Nat} {D : Type}

/-- Posted send or receive: source, destination and tag, number of update, cells. The number of update
is not visible to MPI. -/
structure Post (n : Nat) where
  ch : Chan n
  round : Nat
  cells : List Nat

/-- State of all processes and of MPI. -/
structure Async (n : Nat) (D : Type) where
  /-- `cell_data`, only meaningful for cells of the process. -/
  data : Fin n → Nat → D
  /-- `remote_neighbors`. -/
  copy : Fin n → Nat → Option D
  /-- Sends which haven't been matched yet, with values if they have been copied by MPI. -/
  sends : List (Post n × Option (List D))
  /-- Receives which haven't been matched yet. -/
  recvs : List (Post n)
  /-- Number of updates whose sends have been started. -/
  sendsStarted : Fin n → Nat
  /-- Number of updates whose sends have been waited for. -/
  sendsDone : Fin n → Nat
  /-- Number of updates whose receives have been started. -/
  recvsStarted : Fin n → Nat
  /-- Number of updates whose receives have been waited for. -/
  recvsDone : Fin n → Nat

/-- What happens next. -/
inductive Event (n : Nat) (D : Type)
  /-- Process calls `start_remote_neighbor_copy_receives`. -/
  | startRecvs (q : Fin n)
  /-- Process calls `start_remote_neighbor_copy_sends`. -/
  | startSends (p : Fin n)
  /-- `wait_remote_neighbor_copy_update_receives` returns. -/
  | waitRecvs (q : Fin n)
  /-- `wait_remote_neighbor_copy_update_sends` returns. -/
  | waitSends (p : Fin n)
  /-- User changes data of a cell. -/
  | write (p : Fin n) (c : Nat) (v : D)
  /-- MPI copies values of a message from the sender. -/
  | buffer (x : Post n)
  /-- MPI stores values of a message at the receiver. -/
  | deliver (x : Post n)

/-- Change one value of a function of processes. -/
def upd {α : Type} (f : Fin n → α) (i : Fin n) (x : α) : Fin n → α := fun j => if j = i then x else f j

/-- Receives posted by process `q` (dccrg.hpp:10787-10973). -/
def recvPosts (single : Bool) (R : Nat → Fin n → Fin n → List Nat) (q : Fin n) (r : Nat) : List (Post n) :=
  (List.finRange n).flatMap fun p => (posts single p q (R r q p)).map fun x => ⟨x.1, r, x.2⟩

/-- Sends posted by process `p` (dccrg.hpp:10978-11191). -/
def sendPosts (single : Bool) (S : Nat → Fin n → Fin n → List Nat) (p : Fin n) (r : Nat) : List (Post n) :=
  (List.finRange n).flatMap fun q => (posts single p q (S r p q)).map fun x => ⟨x.1, r, x.2⟩

/-- One event. The user follows the rules of MPI: cells that are being sent aren't changed until sends
have been waited for (`write`), and a cell isn't received by two updates at a time (`startRecvs`). -/
inductive Async.Step (single : Bool) (S R : Nat → Fin n → Fin n → List Nat) (dflt : D) :
    Event n D → Async n D → Async n D → Prop
  /-- dccrg.hpp:5134-5240, 10787-10973: copies are default constructed if they don't exist. -/
  | startRecvs {a : Async n D} (q : Fin n)
      (h : ∀ r p p' c, a.recvsDone q ≤ r → r < a.recvsStarted q → c ∈ R r q p →
        c ∉ R (a.recvsStarted q) q p') :
      Step single S R dflt (.startRecvs q) a { a with
        copy := upd a.copy q fun c =>
          if a.copy q c = none ∧ ∃ p, c ∈ R (a.recvsStarted q) q p then some dflt else a.copy q c
        recvs := a.recvs ++ recvPosts single R q (a.recvsStarted q)
        recvsStarted := upd a.recvsStarted q (a.recvsStarted q + 1) }
  /-- dccrg.hpp:5250-5344, 10978-11191 -/
  | startSends {a : Async n D} (p : Fin n) :
      Step single S R dflt (.startSends p) a { a with
        sends := a.sends ++ (sendPosts single S p (a.sendsStarted p)).map fun x => (x, none)
        sendsStarted := upd a.sendsStarted p (a.sendsStarted p + 1) }
  /-- dccrg.hpp:5424-5468, 11199-11230: all receives of the process have been matched. -/
  | waitRecvs {a : Async n D} (q : Fin n) (h : ∀ x ∈ a.recvs, x.ch.dst ≠ q) :
      Step single S R dflt (.waitRecvs q) a { a with recvsDone := upd a.recvsDone q (a.recvsStarted q) }
  /-- dccrg.hpp:5393-5416, 11236-11264: MPI doesn't need send buffers of the process any more. -/
  | waitSends {a : Async n D} (p : Fin n) (h : ∀ x ∈ a.sends, x.1.ch.src = p → x.2 ≠ none) :
      Step single S R dflt (.waitSends p) a { a with sendsDone := upd a.sendsDone p (a.sendsStarted p) }
  | write {a : Async n D} (p : Fin n) (c : Nat) (v : D)
      (h : ∀ r q, a.sendsDone p ≤ r → r < a.sendsStarted p → c ∉ S r p q) :
      Step single S R dflt (.write p c v) a { a with
        data := upd a.data p fun x => if x = c then v else a.data p x }
  | buffer {a : Async n D} {x : Post n} {s1 s2 : List (Post n × Option (List D))}
      (h : a.sends = s1 ++ (x, none) :: s2) :
      Step single S R dflt (.buffer x) a { a with
        sends := s1 ++ (x, some (x.cells.map (a.data x.ch.src))) :: s2 }
  | deliver {a : Async n D} {x y : Post n} {b : Option (List D)} {s1 s2 : List (Post n × Option (List D))}
      {r1 r2 : List (Post n)} (hs : a.sends = s1 ++ (x, b) :: s2) (hr : a.recvs = r1 ++ y :: r2)
      (hc : y.ch = x.ch) (hs1 : ∀ z ∈ s1, z.1.ch ≠ x.ch) (hr1 : ∀ z ∈ r1, z.ch ≠ x.ch) :
      Step single S R dflt (.deliver x) a { a with
        sends := s1 ++ s2
        recvs := r1 ++ r2
        copy := upd a.copy x.ch.dst
          (store (a.copy x.ch.dst) y.cells (b.getD (x.cells.map (a.data x.ch.src)))) }

/-- Some number of events. -/
inductive Async.Run (single : Bool) (S R : Nat → Fin n → Fin n → List Nat) (dflt : D) :
    List (Event n D) → Async n D → Async n D → Prop
  | refl (a : Async n D) : Run single S R dflt [] a a
  | step {e : Event n D} {es : List (Event n D)} {a b c : Async n D} : Run single S R dflt es a b →
      Step single S R dflt e b c → Run single S R dflt (e :: es) a c

/-- No update has been started. -/
structure Async.Idle (a : Async n D) : Prop where
  sends : a.sends = []
  recvs : a.recvs = []
  sendsStarted : ∀ p, a.sendsStarted p = 0
  sendsDone : ∀ p, a.sendsDone p = 0
  recvsStarted : ∀ q, a.recvsStarted q = 0
  recvsDone : ∀ q, a.recvsDone q = 0

/-! ## Queues of posted messages -/

/-- Posts that haven't been matched: of each channel those from update `m` on. -/
structure Queued (single : Bool) (L : Nat → Fin n → Fin n → List Nat) (m st : Chan n → Nat)
    (l : List (Post n)) : Prop where
  mem : ∀ x ∈ l, (x.ch, x.cells) ∈ posts single x.ch.src x.ch.dst (L x.round x.ch.src x.ch.dst) ∧
    m x.ch ≤ x.round ∧ x.round < st x.ch
  all : ∀ ch cs r, (ch, cs) ∈ posts single ch.src ch.dst (L r ch.src ch.dst) → m ch ≤ r → r < st ch →
    ∃ x ∈ l, x.ch = ch ∧ x.round = r
  order : l.Pairwise fun x y => x.ch = y.ch → x.round < y.round

theorem Queued.post {single : Bool} {L : Nat → Fin n → Fin n → List Nat} {m st st' : Chan n → Nat}
    {l e : List (Post n)} (h : Queued single L m st l) (hm : ∀ ch, m ch ≤ st ch)
    (hst : ∀ ch, st ch ≤ st' ch ∧ st' ch ≤ st ch + 1)
    (he : ∀ x, x ∈ e ↔ st' x.ch = st x.ch + 1 ∧ x.round = st x.ch ∧
      (x.ch, x.cells) ∈ posts single x.ch.src x.ch.dst (L x.round x.ch.src x.ch.dst))
    (hn : (e.map (·.ch)).Nodup) : Queued single L m st' (l ++ e) := by
  refine ⟨fun x hx => ?_, fun ch cs r h1 h2 h3 => ?_, ?_⟩
  · rcases List.mem_append.1 hx with hx | hx
    · obtain ⟨h1, h2, h3⟩ := h.mem x hx
      exact ⟨h1, h2, Nat.lt_of_lt_of_le h3 (hst _).1⟩
    · obtain ⟨h1, h2, h3⟩ := (he x).1 hx
      exact ⟨h3, by rw [h2]; exact hm _, by omega⟩
  · by_cases hr : r < st ch
    · obtain ⟨x, hx, h4⟩ := h.all ch cs r h1 h2 hr
      exact ⟨x, List.mem_append_left _ hx, h4⟩
    · have := (hst ch).2
      have h5 : r = st ch := by omega
      exact ⟨⟨ch, r, cs⟩, List.mem_append_right _ ((he _).2 ⟨by show st' ch = st ch + 1; omega, h5, h1⟩), rfl, rfl⟩
  · rw [List.pairwise_append]
    refine ⟨h.order, ?_, fun x hx y hy hxy => ?_⟩
    · unfold List.Nodup at hn
      rw [List.pairwise_map] at hn
      exact hn.imp fun h h' => absurd h' h
    · obtain ⟨-, -, h3⟩ := h.mem x hx
      obtain ⟨-, h2, -⟩ := (he y).1 hy
      rw [h2, ← hxy]; exact h3

/-- The first post of a channel is the oldest one, and is removed. -/
theorem Queued.take {single : Bool} {L : Nat → Fin n → Fin n → List Nat} {m st : Chan n → Nat}
    {l1 l2 : List (Post n)} {x : Post n} (h : Queued single L m st (l1 ++ x :: l2))
    (h1 : ∀ z ∈ l1, z.ch ≠ x.ch) :
    (∀ cs r, (x.ch, cs) ∈ posts single x.ch.src x.ch.dst (L r x.ch.src x.ch.dst) → m x.ch ≤ r →
      r < st x.ch → x.round ≤ r) ∧
    Queued single L (fun ch => if ch = x.ch then x.round + 1 else m ch) st (l1 ++ l2) := by
  have ho := h.order
  rw [List.pairwise_append, List.pairwise_cons] at ho
  obtain ⟨o1, ⟨o2, o3⟩, o4⟩ := ho
  have key : ∀ z ∈ l1 ++ x :: l2, z.ch = x.ch → z = x ∨ x.round < z.round := by
    intro z hz hzc
    rcases List.mem_append.1 hz with hz | hz
    · exact absurd hzc (h1 z hz)
    · rcases List.mem_cons.1 hz with rfl | hz
      · exact Or.inl rfl
      · exact Or.inr (o2 z hz hzc.symm)
  have hsub : ∀ z ∈ l1 ++ l2, z ∈ l1 ++ x :: l2 := by
    intro z hz
    rcases List.mem_append.1 hz with hz | hz
    · exact List.mem_append_left _ hz
    · exact List.mem_append_right _ (List.mem_cons_of_mem _ hz)
  refine ⟨fun cs r hp hm hst => ?_, ⟨fun z hz => ?_, fun ch cs r hp hm hst => ?_, ?_⟩⟩
  · obtain ⟨z, hz, e1, e2⟩ := h.all x.ch cs r hp hm hst
    rcases key z hz e1 with rfl | hlt
    · omega
    · omega
  · obtain ⟨p1, p2, p3⟩ := h.mem z (hsub z hz)
    refine ⟨p1, ?_, p3⟩
    show (if z.ch = x.ch then x.round + 1 else m z.ch) ≤ z.round
    by_cases hzc : z.ch = x.ch
    · rw [if_pos hzc]
      rcases List.mem_append.1 hz with hz | hz
      · exact absurd hzc (h1 z hz)
      · exact o2 z hz hzc.symm
    · rw [if_neg hzc]; exact p2
  · have hm' : (if ch = x.ch then x.round + 1 else m ch) ≤ r := hm
    have hge : m ch ≤ r := by
      by_cases hc : ch = x.ch
      · rw [if_pos hc] at hm'
        have := (h.mem x (by simp)).2.1
        rw [hc]; omega
      · rw [if_neg hc] at hm'; exact hm'
    obtain ⟨z, hz, e1, e2⟩ := h.all ch cs r hp hge hst
    refine ⟨z, ?_, e1, e2⟩
    have hne : z ≠ x := by
      rintro rfl
      rw [if_pos e1.symm] at hm'
      omega
    rcases List.mem_append.1 hz with hz | hz
    · exact List.mem_append_left _ hz
    · rcases List.mem_cons.1 hz with e | hz
      · exact absurd e hne
      · exact List.mem_append_right _ hz
  · rw [List.pairwise_append]
    exact ⟨o1, o3, fun a ha b hb => o4 a ha b (List.mem_cons_of_mem _ hb)⟩

theorem mem_recvPosts {single : Bool} {R : Nat → Fin n → Fin n → List Nat} {q : Fin n} {r : Nat}
    {x : Post n} : x ∈ recvPosts single R q r ↔ x.ch.dst = q ∧ x.round = r ∧
      (x.ch, x.cells) ∈ posts single x.ch.src x.ch.dst (R r x.ch.dst x.ch.src) := by
  unfold recvPosts
  simp only [List.mem_flatMap, List.mem_map]
  constructor
  · rintro ⟨p, -, y, hy, rfl⟩
    obtain ⟨ch, cs⟩ := y
    have := mem_posts.1 hy
    refine ⟨this.2.1, rfl, ?_⟩
    show (ch, cs) ∈ posts single ch.src ch.dst (R r ch.dst ch.src)
    rw [this.1, this.2.1]; exact hy
  · rintro ⟨rfl, rfl, h⟩
    exact ⟨_, List.mem_finRange _, _, h, rfl⟩

theorem mem_sendPosts {single : Bool} {S : Nat → Fin n → Fin n → List Nat} {p : Fin n} {r : Nat}
    {x : Post n} : x ∈ sendPosts single S p r ↔ x.ch.src = p ∧ x.round = r ∧
      (x.ch, x.cells) ∈ posts single x.ch.src x.ch.dst (S r x.ch.src x.ch.dst) := by
  unfold sendPosts
  simp only [List.mem_flatMap, List.mem_map]
  constructor
  · rintro ⟨q, -, y, hy, rfl⟩
    obtain ⟨ch, cs⟩ := y
    have := mem_posts.1 hy
    refine ⟨this.1, rfl, ?_⟩
    show (ch, cs) ∈ posts single ch.src ch.dst (S r ch.src ch.dst)
    rw [this.1, this.2.1]; exact hy
  · rintro ⟨rfl, rfl, h⟩
    exact ⟨_, List.mem_finRange _, _, h, rfl⟩

theorem flatMap_posts_nodup (single : Bool) (f : Fin n → List (Chan n × List Nat)) (r : Nat)
    (hf : ∀ i, ((f i).map (·.1)).Nodup) (key : Chan n → Fin n) (hk : ∀ i, ∀ x ∈ f i, key x.1 = i) :
    (((List.finRange n).flatMap fun i => (f i).map fun x => (⟨x.1, r, x.2⟩ : Post n)).map (·.ch)).Nodup := by
  rw [List.map_flatMap]
  unfold List.Nodup
  rw [List.pairwise_flatMap]
  constructor
  · intro i _
    rw [List.map_map]
    exact hf i
  · apply List.Pairwise.imp _ (List.nodup_finRange n)
    intro i j hne x hx y hy e
    subst e
    rw [List.map_map] at hx hy
    obtain ⟨x', hx', rfl⟩ := List.mem_map.1 hx
    obtain ⟨y', hy', e⟩ := List.mem_map.1 hy
    have e : y'.1 = x'.1 := e
    exact hne (by rw [← hk i x' hx', ← hk j y' hy', e])

theorem recvPosts_nodup {single : Bool} {R : Nat → Fin n → Fin n → List Nat} {q : Fin n} {r : Nat} :
    ((recvPosts single R q r).map (·.ch)).Nodup :=
  flatMap_posts_nodup single _ r (fun _ => posts_nodup _) (·.src)
    (fun i x hx => by obtain ⟨ch, cs⟩ := x; exact (mem_posts.1 hx).1)

theorem sendPosts_nodup {single : Bool} {S : Nat → Fin n → Fin n → List Nat} {p : Fin n} {r : Nat} :
    ((sendPosts single S p r).map (·.ch)).Nodup :=
  flatMap_posts_nodup single _ r (fun _ => posts_nodup _) (·.dst)
    (fun i x hx => by obtain ⟨ch, cs⟩ := x; exact (mem_posts.1 hx).2.1)

/-- Every cell of a list is in some message. -/
theorem posts_cover {single : Bool} {p q : Fin n} {l : List Nat} {c : Nat} (h : c ∈ l) :
    ∃ ch cs, (ch, cs) ∈ posts single p q l ∧ c ∈ cs := by
  obtain ⟨k, hk⟩ := List.getElem?_of_mem h
  cases single with
  | true =>
    refine ⟨⟨p, q, k + 1⟩, [c], mem_posts.2 ⟨rfl, rfl, ?_⟩, by simp⟩
    simp only [if_true]; exact ⟨k, rfl, c, hk, rfl⟩
  | false =>
    refine ⟨⟨p, q, 0⟩, l, mem_posts.2 ⟨rfl, rfl, ?_⟩, h⟩
    simp only [Bool.false_eq_true, if_false, true_and, and_true]
    intro e; rw [e] at h; cases h

theorem posts_sub {single : Bool} {p q : Fin n} {l : List Nat} {ch : Chan n} {cs : List Nat} {c : Nat}
    (h : (ch, cs) ∈ posts single p q l) (hc : c ∈ cs) : c ∈ l := by
  obtain ⟨-, -, h⟩ := mem_posts.1 h
  cases single with
  | true =>
    simp only [if_true] at h
    obtain ⟨k, -, y, hy, rfl⟩ := h
    rw [List.mem_singleton] at hc
    subst hc
    exact List.mem_of_getElem? hy
  | false =>
    simp only [Bool.false_eq_true, if_false] at h
    obtain ⟨-, -, rfl⟩ := h
    exact hc

/-- A channel has at most one message in an update. -/
theorem posts_unique {single : Bool} {p q : Fin n} {l : List Nat} {ch : Chan n} {cs cs' : List Nat}
    (h : (ch, cs) ∈ posts single p q l) (h' : (ch, cs') ∈ posts single p q l) : cs = cs' := by
  obtain ⟨-, -, h⟩ := mem_posts.1 h
  obtain ⟨-, -, h'⟩ := mem_posts.1 h'
  cases single with
  | true =>
    simp only [if_true] at h h'
    obtain ⟨k, hk, y, hy, rfl⟩ := h
    obtain ⟨k', hk', y', hy', rfl⟩ := h'
    have : k' = k := by omega
    subst this
    rw [hy] at hy'
    injection hy' with e
    rw [e]
  | false =>
    simp only [Bool.false_eq_true, if_false] at h h'
    rw [h.2.2, h'.2.2]

theorem store_map (f : Nat → D) (g : Nat → Option D) (cs : List Nat) (c : Nat) :
    store g cs (cs.map f) c = if c ∈ cs then some (f c) else g c := by
  apply store_spec (fun c => some (f c)) cs _ g (by simp)
  intro k c v h1 h2
  rw [List.getElem?_map, h1] at h2
  exact h2

/-! ## Invariant -/

/-- Lists of every update agree, and every cell is received from one process. -/
structure RoundsMatch (S R : Nat → Fin n → Fin n → List Nat) : Prop where
  eq : ∀ r p q, S r p q = R r q p
  once : ∀ r r' q p p' c, c ∈ R r q p → c ∈ R r' q p' → p = p'

/-- Invariant of split-phase updates: `m` is the number of the first update that hasn't been matched on a
channel, `snap r p` is the data of process `p` when it started to send in its update `r`. -/
structure Async.Good (single : Bool) (S R : Nat → Fin n → Fin n → List Nat) (snap : Nat → Fin n → Nat → D)
    (m : Chan n → Nat) (a : Async n D) : Prop where
  sendQ : Queued single S m (fun ch => a.sendsStarted ch.src) (a.sends.map (·.1))
  recvQ : Queued single S m (fun ch => a.recvsStarted ch.dst) a.recvs
  sendLe : ∀ ch, m ch ≤ a.sendsStarted ch.src
  recvLe : ∀ ch, m ch ≤ a.recvsStarted ch.dst
  doneS : ∀ p, a.sendsDone p ≤ a.sendsStarted p
  doneR : ∀ q, a.recvsDone q ≤ a.recvsStarted q
  buffered : ∀ x vs, (x, some vs) ∈ a.sends → vs = x.cells.map (snap x.round x.ch.src)
  open_ : ∀ x, (x, none) ∈ a.sends → a.sendsDone x.ch.src ≤ x.round
  frozen : ∀ p q r c, a.sendsDone p ≤ r → r < a.sendsStarted p → c ∈ S r p q → a.data p c = snap r p c
  got : ∀ ch cs r, r < a.recvsDone ch.dst → (ch, cs) ∈ posts single ch.src ch.dst (S r ch.src ch.dst) →
    r < m ch
  disjoint : ∀ q p p' r r' c, a.recvsDone q ≤ r → r < r' → r' < a.recvsStarted q → c ∈ R r q p →
    c ∉ R r' q p'
  copies : ∀ q p r c ch cs, r < m ch → (ch, cs) ∈ posts single p q (S r p q) → c ∈ cs →
    (∀ r' p', r < r' → r' < a.recvsStarted q → c ∉ R r' q p') → a.copy q c = some (snap r p c)

theorem Async.Idle.good {single : Bool} {S R : Nat → Fin n → Fin n → List Nat}
    {snap : Nat → Fin n → Nat → D} {a : Async n D} (h : a.Idle) : a.Good single S R snap fun _ => 0 where
  sendQ := by
    rw [h.sends]
    exact ⟨by simp, fun ch cs r _ _ h3 => by rw [h.sendsStarted] at h3; omega, .nil⟩
  recvQ := by
    rw [h.recvs]
    exact ⟨by simp, fun ch cs r _ _ h3 => by rw [h.recvsStarted] at h3; omega, .nil⟩
  sendLe _ := Nat.zero_le _
  recvLe _ := Nat.zero_le _
  doneS p := by rw [h.sendsDone]; exact Nat.zero_le _
  doneR p := by rw [h.recvsDone]; exact Nat.zero_le _
  buffered x vs hx := by rw [h.sends] at hx; cases hx
  open_ x hx := by rw [h.sends] at hx; cases hx
  frozen p q r c _ h2 := by rw [h.sendsStarted] at h2; omega
  got ch cs r h1 := by rw [h.recvsDone] at h1; omega
  disjoint q p p' r r' c _ _ h3 := by rw [h.recvsStarted] at h3; omega
  copies q p r c ch cs h1 := by omega

variable {single : Bool} {S R : Nat → Fin n → Fin n → List Nat} {dflt : D}

/-- What `snap` becomes in an event. -/
def Event.snap (a : Async n D) (snap : Nat → Fin n → Nat → D) : Event n D → Nat → Fin n → Nat → D
  | .startSends p => fun r i c => if i = p ∧ r = a.sendsStarted p then a.data p c else snap r i c
  | _ => snap

theorem upd_self {α : Type} (f : Fin n → α) (i : Fin n) (x : α) : upd f i x i = x := if_pos rfl

theorem upd_other {α : Type} (f : Fin n → α) {i j : Fin n} (x : α) (h : j ≠ i) : upd f i x j = f j := if_neg h

theorem Async.Good.step {snap : Nat → Fin n → Nat → D} {m : Chan n → Nat} {a b : Async n D}
    {e : Event n D} (hR : RoundsMatch S R) (ha : a.Good single S R snap m)
    (h : Async.Step single S R dflt e a b) : ∃ m', b.Good single S R (e.snap a snap) m' := by
  cases h with
  | startRecvs q hq =>
    refine ⟨m, ?_⟩
    have hge : ∀ i, a.recvsStarted i ≤ upd a.recvsStarted q (a.recvsStarted q + 1) i ∧
        upd a.recvsStarted q (a.recvsStarted q + 1) i ≤ a.recvsStarted i + 1 := by
      intro i; unfold upd; split
      · subst i; omega
      · omega
    refine ⟨ha.sendQ, ?_, ha.sendLe, fun ch => Nat.le_trans (ha.recvLe ch) (hge _).1, ha.doneS,
      fun i => Nat.le_trans (ha.doneR i) (hge i).1, ha.buffered, ha.open_, ha.frozen, ha.got, ?_, ?_⟩
    · refine ha.recvQ.post ha.recvLe (fun ch => hge ch.dst) (fun x => ?_) recvPosts_nodup
      rw [mem_recvPosts]
      show _ ↔ upd a.recvsStarted q (a.recvsStarted q + 1) x.ch.dst = _ ∧ _
      constructor
      · rintro ⟨rfl, h2, h3⟩
        refine ⟨upd_self _ _ _, h2, ?_⟩
        rw [hR.eq, h2]; exact h3
      · rintro ⟨h1, h2, h3⟩
        have hd : x.ch.dst = q := by
          apply Classical.byContradiction
          intro hne
          rw [upd_other _ _ hne] at h1; omega
        subst hd
        refine ⟨rfl, h2, ?_⟩
        rw [hR.eq, h2] at h3; exact h3
    · intro q' p p' r r' c h1 h2 h3 h4
      by_cases hqq : q' = q
      · subst hqq
        have h3 : r' < upd a.recvsStarted q' (a.recvsStarted q' + 1) q' := h3
        rw [upd_self] at h3
        by_cases hr' : r' < a.recvsStarted q'
        · exact ha.disjoint q' p p' r r' c h1 h2 hr' h4
        · have : r' = a.recvsStarted q' := by omega
          subst this
          exact hq r p p' c h1 h2 h4
      · have h3 : r' < upd a.recvsStarted q (a.recvsStarted q + 1) q' := h3
        rw [upd_other _ _ hqq] at h3
        exact ha.disjoint q' p p' r r' c h1 h2 h3 h4
    · intro q' p r c ch cs h1 h2 h3 h4
      have hold := ha.copies q' p r c ch cs h1 h2 h3
        (fun r' p' h5 h6 => h4 r' p' h5 (Nat.lt_of_lt_of_le h6 (hge q').1))
      show upd a.copy q _ q' c = _
      by_cases hqq : q' = q
      · subst hqq
        rw [upd_self, if_neg (by rw [hold]; rintro ⟨h, -⟩; cases h)]
        exact hold
      · rw [upd_other _ _ hqq]; exact hold
  | startSends p =>
    refine ⟨m, ?_⟩
    have hge : ∀ i, a.sendsStarted i ≤ upd a.sendsStarted p (a.sendsStarted p + 1) i ∧
        upd a.sendsStarted p (a.sendsStarted p + 1) i ≤ a.sendsStarted i + 1 := by
      intro i; unfold upd; split
      · subst i; omega
      · omega
    have hsn : ∀ r i c, ¬ (i = p ∧ r = a.sendsStarted p) →
        Event.snap a snap (.startSends p) r i c = snap r i c := fun r i c h => if_neg h
    have hold : ∀ x : Post n, ∀ o, (x, o) ∈ a.sends → ∀ c,
        Event.snap a snap (.startSends p) x.round x.ch.src c = snap x.round x.ch.src c := by
      intro x o hx c
      apply hsn
      rintro ⟨h1, h2⟩
      have := (ha.sendQ.mem x (List.mem_map.2 ⟨_, hx, rfl⟩)).2.2
      have : x.round < a.sendsStarted x.ch.src := this
      rw [h1] at this; omega
    have hnew : ∀ x (o : Option (List D)), (x, o) ∈ (sendPosts single S p (a.sendsStarted p)).map
        (fun x => (x, (none : Option (List D)))) → o = none ∧ x.ch.src = p ∧ x.round = a.sendsStarted p := by
      intro x o hx
      obtain ⟨y, hy, e⟩ := List.mem_map.1 hx
      injection e with e1 e2
      subst e1
      have := mem_sendPosts.1 hy
      exact ⟨e2.symm, this.1, this.2.1⟩
    refine ⟨?_, ha.recvQ, fun ch => Nat.le_trans (ha.sendLe ch) (hge _).1, ha.recvLe,
      fun i => Nat.le_trans (ha.doneS i) (hge i).1, ha.doneR, ?_, ?_, ?_, ha.got, ha.disjoint, ?_⟩
    · show Queued single S m _ ((a.sends ++ _).map (·.1))
      rw [List.map_append, List.map_map]
      have : ((fun (x : Post n × Option (List D)) => x.1) ∘ fun x => (x, none)) = id := rfl
      rw [this, List.map_id]
      refine ha.sendQ.post ha.sendLe (fun ch => hge ch.src) (fun x => ?_) sendPosts_nodup
      rw [mem_sendPosts]
      show _ ↔ upd a.sendsStarted p (a.sendsStarted p + 1) x.ch.src = _ ∧ _
      constructor
      · rintro ⟨rfl, h2, h3⟩
        refine ⟨upd_self _ _ _, h2, ?_⟩
        rw [h2]; exact h3
      · rintro ⟨h1, h2, h3⟩
        have hd : x.ch.src = p := by
          apply Classical.byContradiction
          intro hne
          rw [upd_other _ _ hne] at h1; omega
        subst hd
        refine ⟨rfl, h2, ?_⟩
        rw [h2] at h3; exact h3
    · intro x vs hx
      rcases List.mem_append.1 hx with hx | hx
      · rw [ha.buffered x vs hx]
        apply List.map_congr_left
        intro c _
        exact (hold x _ hx c).symm
      · cases (hnew x _ hx).1
    · intro x hx
      rcases List.mem_append.1 hx with hx | hx
      · exact ha.open_ x hx
      · obtain ⟨-, h1, h2⟩ := hnew x _ hx
        rw [h1, h2]; exact ha.doneS p
    · intro i q r c h1 h2 h3
      by_cases hi : i = p ∧ r = a.sendsStarted p
      · show _ = (if i = p ∧ r = a.sendsStarted p then a.data p c else snap r i c)
        rw [if_pos hi, hi.1]
      · rw [hsn r i c hi]
        apply ha.frozen i q r c h1 _ h3
        have h2 : r < upd a.sendsStarted p (a.sendsStarted p + 1) i := h2
        by_cases hip : i = p
        · subst hip
          rw [upd_self] at h2
          have : r ≠ a.sendsStarted i := fun e => hi ⟨rfl, e⟩
          omega
        · rw [upd_other _ _ hip] at h2; exact h2
    · intro q i r c ch cs h1 h2 h3 h4
      rw [hsn]
      · exact ha.copies q i r c ch cs h1 h2 h3 h4
      · rintro ⟨rfl, rfl⟩
        have := ha.sendLe ch
        rw [(mem_posts.1 h2).1] at this
        omega
  | waitRecvs q hq =>
    refine ⟨m, ?_⟩
    have hge : ∀ i, a.recvsDone i ≤ upd a.recvsDone q (a.recvsStarted q) i := by
      intro i; unfold upd; split
      · subst i; exact ha.doneR q
      · omega
    refine ⟨ha.sendQ, ha.recvQ, ha.sendLe, ha.recvLe, ha.doneS, ?_, ha.buffered, ha.open_, ha.frozen, ?_,
      fun q' p p' r r' c h1 => ha.disjoint q' p p' r r' c (Nat.le_trans (hge q') h1), ha.copies⟩
    · intro i
      show upd a.recvsDone q (a.recvsStarted q) i ≤ _
      unfold upd; split
      · subst i; exact Nat.le_refl _
      · exact ha.doneR i
    · intro ch cs r h1 h2
      have h1 : r < upd a.recvsDone q (a.recvsStarted q) ch.dst := h1
      by_cases hd : ch.dst = q
      · rw [hd, upd_self] at h1
        apply Classical.byContradiction
        intro hlt
        obtain ⟨x, hx, e1, e2⟩ := ha.recvQ.all ch cs r h2 (by omega)
          (by show r < a.recvsStarted ch.dst; rw [hd]; exact h1)
        exact hq x hx (by rw [e1, hd])
      · rw [upd_other _ _ hd] at h1
        exact ha.got ch cs r h1 h2
  | waitSends p hp =>
    refine ⟨m, ?_⟩
    have hge : ∀ i, a.sendsDone i ≤ upd a.sendsDone p (a.sendsStarted p) i := by
      intro i; unfold upd; split
      · subst i; exact ha.doneS p
      · omega
    refine ⟨ha.sendQ, ha.recvQ, ha.sendLe, ha.recvLe, ?_, ha.doneR, ha.buffered, ?_,
      fun i q r c h1 => ha.frozen i q r c (Nat.le_trans (hge i) h1), ha.got, ha.disjoint, ha.copies⟩
    · intro i
      show upd a.sendsDone p (a.sendsStarted p) i ≤ _
      unfold upd; split
      · subst i; exact Nat.le_refl _
      · exact ha.doneS i
    · intro x hx
      have hne : x.ch.src ≠ p := fun e => hp _ hx e rfl
      show upd a.sendsDone p (a.sendsStarted p) x.ch.src ≤ _
      rw [upd_other _ _ hne]
      exact ha.open_ x hx
  | write p c v hc =>
    refine ⟨m, ⟨ha.sendQ, ha.recvQ, ha.sendLe, ha.recvLe, ha.doneS, ha.doneR, ha.buffered, ha.open_, ?_, ha.got,
      ha.disjoint, ha.copies⟩⟩
    intro i q r x h1 h2 h3
    rw [show Event.snap a snap (.write p c v) r i x = snap r i x from rfl, ← ha.frozen i q r x h1 h2 h3]
    show upd a.data p _ i x = _
    by_cases hi : i = p
    · subst hi
      rw [upd_self, if_neg]
      rintro rfl
      exact hc r q h1 h2 h3
    · rw [upd_other _ _ hi]
  | @buffer _ x s1 s2 hs =>
    have hin : (x, none) ∈ a.sends := by rw [hs]; simp
    have hmem : ∀ y o, (y, o) ∈ s1 ++ (x, some (x.cells.map (a.data x.ch.src))) :: s2 →
        (y, o) ∈ a.sends ∨ (y = x ∧ o = some (x.cells.map (a.data x.ch.src))) := by
      intro y o hy
      rw [hs]
      simp only [List.mem_append, List.mem_cons, Prod.mk.injEq] at hy ⊢
      rcases hy with h | h | h
      · exact Or.inl (Or.inl h)
      · exact Or.inr h
      · exact Or.inl (Or.inr (Or.inr h))
    refine ⟨m, ⟨?_, ha.recvQ, ha.sendLe, ha.recvLe, ha.doneS, ha.doneR, ?_, ?_, ha.frozen, ha.got, ha.disjoint,
      ha.copies⟩⟩
    · have := ha.sendQ
      rw [hs] at this
      simpa using this
    · intro y vs hy
      rcases hmem y _ hy with h | ⟨rfl, h⟩
      · exact ha.buffered y vs h
      · injection h with h
        rw [h]
        apply List.map_congr_left
        intro c hc
        obtain ⟨h1, -, h3⟩ := ha.sendQ.mem y (List.mem_map.2 ⟨_, hin, rfl⟩)
        exact ha.frozen _ y.ch.dst _ _ (ha.open_ y hin) h3 (posts_sub h1 hc)
    · intro y hy
      rcases hmem y _ hy with h | ⟨-, h⟩
      · exact ha.open_ y h
      · cases h
  | @deliver _ x y b s1 s2 r1 r2 hs hr hc hs1 hr1 =>
    have hin : (x, b) ∈ a.sends := by rw [hs]; simp
    have hiny : y ∈ a.recvs := by rw [hr]; simp
    have hsq := ha.sendQ
    rw [hs, List.map_append, List.map_cons] at hsq
    have hrq := ha.recvQ
    rw [hr] at hrq
    obtain ⟨xp, xm, xs⟩ := ha.sendQ.mem x (List.mem_map.2 ⟨_, hin, rfl⟩)
    obtain ⟨yp, ym, ys⟩ := ha.recvQ.mem y hiny
    obtain ⟨s3, s4⟩ := hsq.take (x := x) (fun z hz => by
      obtain ⟨w, hw, rfl⟩ := List.mem_map.1 hz
      exact hs1 w hw)
    obtain ⟨r3, r4⟩ := hrq.take (by rw [hc]; exact hr1)
    rw [hc] at yp ym ys r3 r4
    have hround : y.round = x.round := by
      have e : y.round ≤ x.round ∨ x.round ≤ y.round := Nat.le_total _ _
      rcases e with e | e
      · have : y.round < a.sendsStarted x.ch.src := Nat.lt_of_le_of_lt e xs
        exact Nat.le_antisymm e (s3 _ _ yp ym this)
      · have : x.round < a.recvsStarted x.ch.dst := Nat.lt_of_le_of_lt e ys
        exact Nat.le_antisymm (r3 _ _ xp xm this) e
    rw [hround] at yp r4 ys
    have hcells : y.cells = x.cells := posts_unique yp xp
    have hvals : b.getD (x.cells.map (a.data x.ch.src)) = x.cells.map (snap x.round x.ch.src) := by
      cases b with
      | some vs => exact ha.buffered x vs hin
      | none =>
        apply List.map_congr_left
        intro c hc
        exact ha.frozen _ x.ch.dst _ _ (ha.open_ x hin) xs (posts_sub xp hc)
    have hsub : ∀ z ∈ s1 ++ s2, z ∈ a.sends := by
      intro z hz
      rw [hs]
      rcases List.mem_append.1 hz with hz | hz
      · exact List.mem_append_left _ hz
      · exact List.mem_append_right _ (List.mem_cons_of_mem _ hz)
    refine ⟨fun ch => if ch = x.ch then x.round + 1 else m ch, ⟨?_, r4, ?_, ?_, ha.doneS, ha.doneR,
      fun z vs hz => ha.buffered z vs (hsub _ hz), fun z hz => ha.open_ z (hsub _ hz), ha.frozen, ?_,
      ha.disjoint, ?_⟩⟩
    · show Queued single S _ _ ((s1 ++ s2).map (·.1))
      rw [List.map_append]; exact s4
    · intro ch
      show (if ch = x.ch then x.round + 1 else m ch) ≤ a.sendsStarted ch.src
      split
      · next h => rw [h]; exact xs
      · exact ha.sendLe ch
    · intro ch
      show (if ch = x.ch then x.round + 1 else m ch) ≤ a.recvsStarted ch.dst
      split
      · next h => rw [h]; exact ys
      · exact ha.recvLe ch
    · intro ch cs r h1 h2
      have := ha.got ch cs r h1 h2
      show r < (if ch = x.ch then x.round + 1 else m ch)
      split
      · next h => rw [h] at this; omega
      · exact this
    · intro q p r c ch cs h1 h2 h3 h4
      have h1 : r < (if ch = x.ch then x.round + 1 else m ch) := h1
      show upd a.copy x.ch.dst (store (a.copy x.ch.dst) y.cells
        (b.getD (x.cells.map (a.data x.ch.src)))) q c = some (snap r p c)
      rw [hvals, hcells]
      have hcR : c ∈ R r q p := by rw [← hR.eq]; exact posts_sub h2 h3
      by_cases hq : q = x.ch.dst
      · subst hq
        rw [upd_self, store_map]
        by_cases hcx : c ∈ x.cells
        · rw [if_pos hcx]
          have hcx' : c ∈ R x.round x.ch.dst x.ch.src := by rw [← hR.eq]; exact posts_sub xp hcx
          have hp := hR.once _ _ _ _ _ _ hcR hcx'
          subst hp
          have hrr : r = x.round := by
            apply Nat.le_antisymm
            · apply Nat.le_of_not_lt
              intro hlt
              have hr : r < a.recvsStarted x.ch.dst := by
                have := ha.recvLe ch
                rw [(mem_posts.1 h2).2.1] at this
                split at h1
                · next h => omega
                · omega
              have hd : a.recvsDone x.ch.dst ≤ x.round := by
                apply Nat.le_of_not_lt
                intro h
                have := ha.got x.ch _ _ h xp
                omega
              exact ha.disjoint _ _ _ _ _ _ hd hlt hr hcx' hcR
            · apply Nat.le_of_not_lt
              intro hlt
              exact h4 x.round x.ch.src hlt ys hcx'
          rw [hrr]
        · rw [if_neg hcx]
          apply ha.copies _ p r c ch cs _ h2 h3 h4
          by_cases hch : ch = x.ch
          · rw [if_pos hch] at h1
            have hne : r ≠ x.round := by
              rintro rfl
              subst hch
              have e1 := (mem_posts.1 h2).1
              subst e1
              exact hcx (posts_unique h2 xp ▸ h3)
            apply Nat.lt_of_not_le
            intro hle
            have hle : m x.ch ≤ r := by rw [← hch]; exact hle
            have e1 := (mem_posts.1 h2).1
            subst e1
            subst hch
            have := s3 cs r h2 hle (by show r < a.sendsStarted x.ch.src; have : x.round < a.sendsStarted x.ch.src := xs; omega)
            omega
          · rw [if_neg hch] at h1; exact h1
      · rw [upd_other _ _ hq]
        apply ha.copies _ p r c ch cs _ h2 h3 h4
        rw [if_neg] at h1
        · exact h1
        · intro e
          apply hq
          rw [← (mem_posts.1 h2).2.1, e]

end Dccrg
