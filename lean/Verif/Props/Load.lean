import Verif.Books
/-!
# C30, C31, C32, C54: load balancing, pins and weights
-/
namespace Dccrg
open Cfg
variable {n : Nat} {D W : Type} {g : Cfg} {w : Owner n} {s s' : Sys n D W} {dflt : D} {maxTag : Nat}
  {L : Ledger n W} {z : Fin n → Moves n}

theorem Reachable.balancedLoad (hw : g.WF) (hn : 0 < n) (h : Reachable g dflt maxTag s)
    (ho : (Op.balance z : Op n D W).Ok s) (hs : Dccrg.step g dflt maxTag s (.balance z) = .ok s') :
    ∃ w, Inv g w s ∧ MovesOk w z ∧ ∀ i, Rehomed g w (newHome w (pinned w s) z) dflt s i (s' i) := by
  obtain ⟨w, hi⟩ := h.inv hw hn
  have hz : MovesOk w z := by have := ho ⟨0, hn⟩; rwa [hi.sys.owner] at this
  exact ⟨w, hi, hz, fun i => balanceLoad_sound hw hz hi.sys hs i⟩

/-- C30: balancing load with any result of the partitioner does not change existing cells nor their data, and
all processes agree about new owners. -/
theorem C30_cells_and_data (hw : g.WF) (h : Reachable g dflt maxTag s)
    (ho : (Op.balance z : Op n D W).Ok s) (hs : step g dflt maxTag s (.balance z) = .ok s') (i j : Fin n) (c : Nat) :
    exist (s' i).owner c = exist (s j).owner c ∧ (s' i).owner = (s' j).owner ∧
    ∀ p q, (s i).owner c = some p → (s' j).owner c = some q →
      (s' q).data c = (s p).data c ∧ access (s' q) c = access (s p) c ∧
      ∀ k, k ≠ q → (s' k).data c = none := by
  obtain ⟨w, hi, hz, hx⟩ := h.balancedLoad hw (by have := i.2; omega) ho hs
  refine ⟨?_, ?_, ?_⟩
  · rw [(hx i).owner, hi.sys.owner, exist_newHome]
  · rw [(hx i).owner, (hx j).owner]
  · intro p q hp hq
    rw [hi.sys.owner] at hp
    rw [(hx j).owner] at hq
    have hd := (hx q).data c p hp hq
    refine ⟨hd, ?_, fun k hk => ?_⟩
    · have h1 := (hi.sys.placed p c).2 hp
      unfold access
      rw [hd]
      cases hdc : (s p).data c with
      | none => rw [hdc] at h1; cases h1
      | some v => rfl
    · apply Option.not_isSome_iff_eq_none.1
      rw [(hx k).placed c, hq]
      intro e; injection e with e; exact hk e.symm

/-- C30, C31: where every cell goes. A pinned cell goes to the process to which it has been pinned, other cells
to the process to which their process has been told to send them, if any. -/
theorem C31_owners (hw : g.WF) (h : Booked g dflt maxTag L s)
    (ho : (Op.balance z : Op n D W).Ok s) (hs : step g dflt maxTag s (.balance z) = .ok s') (i j : Fin n) {c : Nat}
    {p : Fin n} (hp : (s j).owner c = some p) :
    (∀ q, L.pin c = some q → (s' i).owner c = some q) ∧
    (L.pin c = none → ∀ q, (c, q) ∈ (z p).send → (s' i).owner c = some q) ∧
    (L.pin c = none → (∀ q, (c, q) ∉ (z p).send) → (s' i).owner c = some p) := by
  have hn : 0 < n := by have := i.2; omega
  obtain ⟨w, hi, hz, hx⟩ := h.reachable.balancedLoad hw hn ho hs
  obtain ⟨w1, hi1, hk⟩ := h.books hw hn
  have e0 : w1 = w := by rw [← hi.sys.owner i, ← hi1.sys.owner i]
  subst e0
  rw [hi.sys.owner] at hp
  have hpin : pinned w1 s c = L.pin c := by
    unfold pinned; rw [hp]; exact hk.pin p c hp
  rw [(hx i).owner]
  unfold newHome
  rw [hp, hpin]
  refine ⟨fun q hq => by rw [hq], fun hq q hm => ?_, fun hq hm => ?_⟩
  · rw [hq]
    simp only
    rw [find_of_mem (hz.send p) hm]
  · rw [hq]
    simp only
    split
    · rename_i m hf
      have h1 := List.mem_of_find?_eq_some hf
      have h2 := List.find?_some hf
      simp only [beq_iff_eq] at h2
      subst h2
      exact absurd h1 (hm m.2)
    · rfl

/-- C31: pinning succeeds for cells of the process and existing processes. -/
theorem C31_accepted (hw : g.WF) (h : Reachable g dflt maxTag s) (i : Fin n) (c : Nat) (q : Int) :
    ((pin g i (s i) c q).1 = true ↔ (s i).owner c = some i ∧ 0 ≤ q ∧ q < n) ∧
    ((pin g i (s i) c q).1 = false → (pin g i (s i) c q).2 = s i) ∧
    ((unpin g i (s i) c).1 = true ↔ (s i).owner c = some i) ∧
    ((unpin g i (s i) c).1 = false → (unpin g i (s i) c).2 = s i) := by
  obtain ⟨w, hi⟩ := h.inv hw (by have := i.2; omega)
  have hl := ownLeaf_iff hw hi i c
  rw [← hi.sys.owner i] at hl
  cases h1 : ownLeaf g i (s i) c with
  | false =>
    have hc : (s i).owner c ≠ some i := fun e => by rw [← hl, h1] at e; cases e
    unfold pin unpin
    rw [if_pos h1, if_pos h1]
    exact ⟨⟨fun e => (by cases e), fun e => absurd e.1 hc⟩, fun _ => rfl,
      ⟨fun e => (by cases e), fun e => absurd e hc⟩, fun _ => rfl⟩
  | true =>
    have hc := hl.1 h1
    unfold pin unpin
    rw [if_neg (by rw [h1]; decide), if_neg (by rw [h1]; decide)]
    refine ⟨⟨?_, ?_⟩, ?_, ⟨fun _ => hc, fun _ => ?_⟩, ?_⟩
    · intro h2
      split at h2
      · exact ⟨hc, by omega, by omega⟩
      · cases h2
    · rintro ⟨-, h2, h3⟩
      rw [dif_pos ⟨h2, by omega⟩]
      split <;> rfl
    · intro h2
      by_cases h3 : 0 ≤ q ∧ q.toNat < n
      · rw [dif_pos h3] at h2
        split at h2 <;> cases h2
      · rw [dif_neg h3]
    · split <;> rfl
    · intro h2
      split at h2 <;> cases h2

/-- C31: cells stay pinned in later load balancing. -/
theorem C31_stay_pinned (hw : g.WF) (h : Booked g dflt maxTag L s)
    (ho : (Op.balance z : Op n D W).Ok s) (hs : step g dflt maxTag s (.balance z) = .ok s')
    {z' : Fin n → Moves n} {s'' : Sys n D W}
    (ho' : (Op.balance z' : Op n D W).Ok s') (hs' : step g dflt maxTag s' (.balance z') = .ok s'')
    (i j : Fin n) {c : Nat} (hc : exist (s j).owner c = true) {q : Fin n} (hq : L.pin c = some q) :
    (s'' i).owner c = some q := by
  unfold exist at hc
  obtain ⟨p, hp⟩ := Option.isSome_iff_exists.1 hc
  have h1 := (C31_owners hw h ho hs j j hp).1 q hq
  exact (C31_owners hw (.step _ h ho hs) ho' hs' i j h1).1 q hq

/-- Operations other than refinement, load balancing and those which change the pin of given cell. -/
def Op.NoPin (c : Nat) : Op n D W → Prop
  | .pin _ x _ => x ≠ c
  | .unpin _ x => x ≠ c
  | .unpinLocal _ => False
  | .unpinAll => False
  | .stop _ => False
  | .balance _ => False
  | _ => True

theorem Booked.noPin (h : Booked g dflt maxTag L s) {c : Nat}
    (hr : Runs g dflt maxTag (Op.NoPin c) s s') : ∃ L', Booked g dflt maxTag L' s' ∧ L'.pin c = L.pin c ∧
      ∀ i, (s' i).owner = (s i).owner := by
  induction hr with
  | refl => exact ⟨L, h, rfl, fun _ => rfl⟩
  | @step s1 s2 op hr hk ho hs ih =>
    obtain ⟨L', h1, h2, h3⟩ := ih
    refine ⟨_, .step op h1 ho hs, ?_, fun i => ?_⟩
    · rw [← h2]
      cases op with
      | pin i x q => exact if_neg fun e => hk e.1.symm
      | unpin i x => exact if_neg fun e => hk e.1.symm
      | unpinLocal i => exact hk.elim
      | unpinAll => exact hk.elim
      | stop b => exact hk.elim
      | balance z => exact hk.elim
      | _ => rfl
    · rw [← h3 i]
      refine (step_quiet op ?_ hs i).1
      cases op with
      | stop b => exact hk.elim
      | balance z => exact hk.elim
      | _ => trivial

/-- C32, what holds: when `pin(c, q)` has returned true and `c` is not pinned or unpinned later, `c` is on process
`q` after next load balancing, unless the pin of `c` in previous load balancing was `q` but has been
changed since. The missing case is false. -/
theorem C32_pin_partial (hw : g.WF) (h : Booked g dflt maxTag L s) {i : Fin n} {c : Nat} {q : Int}
    (hp : (pin g i (s i) c q).1 = true) (hq : L.eff c = rank n q → L.pin c = rank n q)
    {s1 s2 s3 : Sys n D W} (h1 : step g dflt maxTag s (.pin i c q) = .ok s1)
    (h2 : Runs g dflt maxTag (Op.NoPin c) s1 s2) (ho : (Op.balance z : Op n D W).Ok s2)
    (h3 : step g dflt maxTag s2 (.balance z) = .ok s3) (j : Fin n) :
    (s3 j).owner c = rank n q ∧ rank n q ≠ none := by
  obtain ⟨hc, hq1, hq2⟩ := (C31_accepted hw h.reachable i c q).1.1 hp
  have hb := Booked.step (.pin i c q) h trivial h1
  obtain ⟨L', f1, f2, f3⟩ := hb.noPin h2
  have hr : rank n q = some ⟨q.toNat, by omega⟩ := by unfold rank; rw [dif_pos ⟨hq1, by omega⟩]
  have hL : L'.pin c = rank n q := by
    rw [f2]
    show (if _ then _ else _) = _
    by_cases he : L.eff c = rank n q
    · rw [if_neg (fun e => e.2.2 he)]; exact hq he
    · rw [if_pos ⟨rfl, hp, he⟩]
  have ho2 : (s2 i).owner c = some i := by
    rw [f3 i, (step_quiet (.pin i c q) trivial h1 i).1]; exact hc
  refine ⟨?_, by rw [hr]; intro e; cases e⟩
  rw [hr]
  exact (C31_owners hw f1 ho h3 j i ho2).1 _ (hL.trans hr)

/-- C32 for `unpin`: the cell goes where the partitioner tells it to go. -/
theorem C32_unpin (hw : g.WF) (h : Booked g dflt maxTag L s) {i : Fin n} {c : Nat}
    (hp : (unpin g i (s i) c).1 = true)
    {s1 s2 s3 : Sys n D W} (h1 : step g dflt maxTag s (.unpin i c) = .ok s1)
    (h2 : Runs g dflt maxTag (Op.NoPin c) s1 s2) (ho : (Op.balance z : Op n D W).Ok s2)
    (h3 : step g dflt maxTag s2 (.balance z) = .ok s3) (j : Fin n) :
    (∀ q, (c, q) ∈ (z i).send → (s3 j).owner c = some q) ∧
    ((∀ q, (c, q) ∉ (z i).send) → (s3 j).owner c = some i) := by
  have hc := (C31_accepted hw h.reachable i c 0).2.2.1.1 hp
  have hb := Booked.step (.unpin i c) h trivial h1
  obtain ⟨L', f1, f2, f3⟩ := hb.noPin h2
  have hL : L'.pin c = none := by
    rw [f2]
    exact if_pos ⟨rfl, hp⟩
  have ho2 : (s2 i).owner c = some i := by
    rw [f3 i, (step_quiet (.unpin i c) trivial h1 i).1]; exact hc
  have h4 := C31_owners hw f1 ho h3 j i ho2
  exact ⟨h4.2.1 hL, h4.2.2 hL⟩

/-! ## Demo -/

/-- Nothing is moved. -/
def stay : Fin 2 → Moves 2 := fun _ => ⟨[], []⟩

/-- Cell 1 is moved from process 0 to process 1. -/
def move1 : Fin 2 → Moves 2 := fun i => if i = 0 then ⟨[], [(1, 1)]⟩ else ⟨[(1, 0)], []⟩

theorem stay_ok (w : Owner 2) : MovesOk w stay :=
  ⟨fun _ _ _ _ => ⟨fun h => (by cases h), fun h => (by cases h)⟩, fun _ _ _ _ h => (by cases h),
    fun _ => List.nodup_nil, fun _ => List.nodup_nil⟩

theorem move1_ok {w : Owner 2} (h : w 1 = some 0) : MovesOk w move1 := by
  have h2 : ∀ i : Fin 2, i = 0 ∨ i = 1 := by omega
  constructor
  · intro p q c hpq
    rcases h2 p with rfl | rfl <;> rcases h2 q with rfl | rfl <;> simp_all [move1]
  · intro p q c hpq hm
    rcases h2 p with rfl | rfl
    · simp only [move1, if_true, List.mem_singleton, Prod.mk.injEq] at hm
      rw [hm.1]; exact h
    · simp [move1] at hm
  · intro p
    rcases h2 p with rfl | rfl <;> simp [move1]
  · intro p
    rcases h2 p with rfl | rfl <;> simp [move1]

/-- The demo: cell 1 pinned to process 1. -/
theorem tiny_pinned : ∃ (L : Ledger 2 Nat) (s s' : Sys 2 Nat Nat), Booked tinyG 0 146 L s ∧
    (Op.balance stay : Op 2 Nat Nat).Ok s ∧ step tinyG 0 146 s (.balance stay) = .ok s' ∧
    L.pin 1 = some 1 ∧ ∀ i, (s i).owner 1 = some 0 := by
  obtain ⟨s, h1, h2, h3, -, -, -, h4, -⟩ := tiny_init
  obtain ⟨s1, e1, e2⟩ := tiny_step h2 (.pin 0 1 1) trivial trivial
  have ho : (Op.balance stay : Op 2 Nat Nat).Ok s1 := fun i => stay_ok _
  obtain ⟨s2, e3, e4⟩ := tiny_step e2 (.balance stay) ho trivial
  refine ⟨_, s1, s2, .step (.pin 0 1 1) (.init h1) trivial e1, ho, e3, ?_, fun i => ?_⟩
  · refine (if_pos ⟨rfl, ?_, ?_⟩).trans rfl
    · exact (C31_accepted tiny_wf h2 0 1 1).1.2 ⟨by rw [h3.sys.owner]; exact h4, by decide, by decide⟩
    · intro e; cases e
  · rw [(step_quiet (.pin 0 1 1) trivial e1 i).1, h3.sys.owner]; exact h4

/-- The demo meets hypotheses of the theorems about load balancing, cell 1 moves. -/
example : ∃ (s s' : Sys 2 Nat Nat), Reachable tinyG 0 146 s ∧ (Op.balance stay : Op 2 Nat Nat).Ok s ∧
    step tinyG 0 146 s (.balance stay) = .ok s' ∧ (s 0).owner 1 = some 0 ∧ (s' 0).owner 1 = some 1 := by
  obtain ⟨L, s, s', h1, h2, h3, h4, h5⟩ := tiny_pinned
  exact ⟨s, s', h1.reachable, h2, h3, h5 0, (C31_owners tiny_wf h1 h2 h3 0 0 (h5 0)).1 1 h4⟩

/-- C32 is false of the code: a cell of process 0 has been pinned to process 0, load has been balanced, the cell has
been unpinned and now `pin` to process 0 returns true, but in load balancing the cell goes to
process 1. -/
theorem C32_false : ∃ (s s1 s2 : Sys 2 Nat Nat) (z : Fin 2 → Moves 2), Reachable tinyG 0 146 s ∧
    (pin tinyG 0 (s 0) 1 0).1 = true ∧ step tinyG 0 146 s (.pin 0 1 0) = .ok s1 ∧
    (Op.balance z : Op 2 Nat Nat).Ok s1 ∧ step tinyG 0 146 s1 (.balance z) = .ok s2 ∧
    ∀ i, (s2 i).owner 1 = some 1 := by
  obtain ⟨s, h1, h2, h3, -, -, -, h4, -⟩ := tiny_init
  have hb := Booked.init h1
  obtain ⟨s1, e1, e2⟩ := tiny_step h2 (.pin 0 1 0) trivial trivial
  have hp1 : (pin tinyG 0 (s 0) 1 0).1 = true :=
    (C31_accepted tiny_wf h2 0 1 0).1.2 ⟨by rw [h3.sys.owner]; exact h4, by decide, by decide⟩
  have hb1 := Booked.step (.pin 0 1 0) hb trivial e1
  have ho1 : ∀ i, (s1 i).owner 1 = some 0 := fun i => by
    rw [(step_quiet (.pin 0 1 0) trivial e1 i).1, h3.sys.owner]; exact h4
  have hL1 : ((Ledger.empty : Ledger 2 Nat).after tinyG s (.pin 0 1 0)).pin 1 = some 0 := by
    refine (if_pos ⟨rfl, hp1, ?_⟩).trans rfl
    intro e; cases e
  have hst : (Op.balance stay : Op 2 Nat Nat).Ok s1 := fun i => stay_ok _
  obtain ⟨s2, e3, e4⟩ := tiny_step e2 (.balance stay) hst trivial
  have hb2 := Booked.step (.balance stay) hb1 hst e3
  have ho2 : ∀ i, (s2 i).owner 1 = some 0 := fun i => (C31_owners tiny_wf hb1 hst e3 i i (ho1 i)).1 0 hL1
  obtain ⟨s3, e5, e6⟩ := tiny_step e4 (.unpin 0 1) trivial trivial
  have hu : (unpin tinyG 0 (s2 0) 1).1 = true := (C31_accepted tiny_wf e4 0 1 0).2.2.1.2 (ho2 0)
  have hb3 := Booked.step (.unpin 0 1) hb2 trivial e5
  have ho3 : ∀ i, (s3 i).owner 1 = some 0 := fun i => by
    rw [(step_quiet (.unpin 0 1) trivial e5 i).1]; exact ho2 i
  obtain ⟨s4, e7, e8⟩ := tiny_step e6 (.pin 0 1 0) trivial trivial
  have hp4 : (pin tinyG 0 (s3 0) 1 0).1 = true :=
    (C31_accepted tiny_wf e6 0 1 0).1.2 ⟨ho3 0, by decide, by decide⟩
  have hb4 := Booked.step (.pin 0 1 0) hb3 trivial e7
  have ho4 : ∀ i, (s4 i).owner 1 = some 0 := fun i => by
    rw [(step_quiet (.pin 0 1 0) trivial e7 i).1]; exact ho3 i
  have hmv : (Op.balance move1 : Op 2 Nat Nat).Ok s4 := fun i => move1_ok (ho4 i)
  obtain ⟨s5, e9, e10⟩ := tiny_step e8 (.balance move1) hmv trivial
  refine ⟨s3, s4, s5, move1, e6, hp4, e7, hmv, e9, fun i => ?_⟩
  refine (C31_owners tiny_wf hb4 hmv e9 i i (ho4 i)).2.1 ?_ 1 (by simp [move1])
  refine (if_neg ?_).trans ?_
  · rintro ⟨-, -, h5⟩
    exact h5 (hL1.trans rfl)
  · exact if_pos ⟨rfl, hu⟩

/-- The demo of a pin and an unpin that are honored. -/
example : ∃ (L : Ledger 2 Nat) (s s1 s2 : Sys 2 Nat Nat) (z : Fin 2 → Moves 2), Booked tinyG 0 146 L s ∧
    (pin tinyG 0 (s 0) 1 0).1 = true ∧ (L.eff 1 = rank 2 0 → L.pin 1 = rank 2 0) ∧
    step tinyG 0 146 s (.pin 0 1 0) = .ok s1 ∧ Runs tinyG 0 146 (Op.NoPin 1) s1 s1 ∧
    (Op.balance z : Op 2 Nat Nat).Ok s1 ∧ step tinyG 0 146 s1 (.balance z) = .ok s2 ∧ (1, 1) ∈ (z 0).send := by
  obtain ⟨s, h1, h2, h3, -, -, -, h4, -⟩ := tiny_init
  obtain ⟨s1, e1, e2⟩ := tiny_step h2 (.pin 0 1 0) trivial trivial
  have ho1 : ∀ i, (s1 i).owner 1 = some 0 := fun i => by
    rw [(step_quiet (.pin 0 1 0) trivial e1 i).1, h3.sys.owner]; exact h4
  have hmv : (Op.balance move1 : Op 2 Nat Nat).Ok s1 := fun i => move1_ok (ho1 i)
  obtain ⟨s2, e3, e4⟩ := tiny_step e2 (.balance move1) hmv trivial
  exact ⟨_, s, s1, s2, move1, .init h1,
    (C31_accepted tiny_wf h2 0 1 0).1.2 ⟨by rw [h3.sys.owner]; exact h4, by decide, by decide⟩,
    fun e => (by cases e), e1, .refl _, hmv, e3, by simp [move1]⟩

example : ∃ (L : Ledger 2 Nat) (s s1 s2 : Sys 2 Nat Nat) (z : Fin 2 → Moves 2), Booked tinyG 0 146 L s ∧
    (unpin tinyG 0 (s 0) 1).1 = true ∧ L.pin 1 = some 1 ∧
    step tinyG 0 146 s (.unpin 0 1) = .ok s1 ∧ Runs tinyG 0 146 (Op.NoPin 1) s1 s1 ∧
    (Op.balance z : Op 2 Nat Nat).Ok s1 ∧ step tinyG 0 146 s1 (.balance z) = .ok s2 := by
  obtain ⟨L, s, s', h1, h2, h3, h4, h5⟩ := tiny_pinned
  obtain ⟨s1, e1, e2⟩ := tiny_step h1.reachable (.unpin 0 1) trivial trivial
  have ho : (Op.balance stay : Op 2 Nat Nat).Ok s1 := fun i => stay_ok _
  obtain ⟨s2, e3, e4⟩ := tiny_step e2 (.balance stay) ho trivial
  exact ⟨L, s, s1, s2, stay, h1, (C31_accepted tiny_wf h1.reachable 0 1 0).2.2.1.2 (h5 0), h4, e1, .refl _, ho, e3⟩

/-! ## Weights -/

/-- C54: `get_cell_weight` returns last weight that was set, one by default, and NaN (`none`) for cells that are not
on the process. `L.weight` is the record of successfully set weights: inherited by children of refined
cells, forgotten when cells are unrefined or load is balanced. -/
theorem C54_get_weight (hw : g.WF) (h : Booked g dflt maxTag L s) (one : W) (i : Fin n) (c : Nat) :
    getWeight g one i (s i) c = if (s i).owner c = some i then some ((L.weight c).getD one) else none := by
  obtain ⟨w, hi, hk⟩ := h.books hw (by have := i.2; omega)
  have hl := ownLeaf_iff hw hi i c
  unfold getWeight
  rw [hi.sys.owner]
  by_cases hc : w c = some i
  · rw [if_neg (by rw [hl.2 hc]; decide), if_pos hc, hk.weight i c hc]
  · rw [if_pos (by cases h1 : ownLeaf g i (s i) c with
      | false => rfl
      | true => exact absurd (hl.1 h1) hc), if_neg hc]

/-- C54: `set_cell_weight` succeeds for cells of the process and otherwise has no effect. -/
theorem C54_set_weight (hw : g.WF) (h : Reachable g dflt maxTag s) (i : Fin n) (c : Nat) (x : W) :
    ((setWeight g i (s i) c x).1 = true ↔ (s i).owner c = some i) ∧
    ((setWeight g i (s i) c x).1 = false → (setWeight g i (s i) c x).2 = s i) := by
  obtain ⟨w, hi⟩ := h.inv hw (by have := i.2; omega)
  have hl := ownLeaf_iff hw hi i c
  rw [← hi.sys.owner i] at hl
  unfold setWeight
  cases h1 : ownLeaf g i (s i) c with
  | false =>
    rw [if_pos rfl]
    exact ⟨⟨fun e => (by cases e), fun e => by rw [← hl, h1] at e; cases e⟩, fun _ => rfl⟩
  | true => exact ⟨⟨fun _ => hl.1 h1, fun _ => rfl⟩, fun e => (by cases e)⟩

/-- C54 for children of a refined cell: they have the weight of the parent. -/
theorem C54_children (hw : g.WF) (h : Reachable g dflt maxTag s) {sorted : Bool}
    {res : Fin n → Proc n D W × List Nat} (hr : stopRefining g dflt maxTag sorted s = .ok res) (one : W) (i : Fin n)
    {c x : Nat} (hc : (s i).owner c = some i) (hf : Finer g (exist (res i).1.owner) c) (hx : x ∈ g.children c) :
    getWeight g one i (res i).1 x = getWeight g one i (s i) c := by
  have hst : step g dflt maxTag s (.stop sorted) = .ok fun i => (res i).1 := by
    show (stopRefining g dflt maxTag sorted s).bind _ = _
    rw [hr]; rfl
  have hn : 0 < n := by have := i.2; omega
  obtain ⟨w, hi⟩ := h.inv hw hn
  obtain ⟨w', hi'⟩ := (Reachable.step (.stop sorted) h trivial hst).inv hw hn
  have h1 := (C27_owners hw h hr i (exist_of hc)).1 hf x hx
  have h2 := ((C29_pins_and_weights hw h hr i (exist_of hc)).1 hf x hx).2.2 hc
  have h3 : (res i).1.owner = w' := hi'.sys.owner i
  rw [hc, h3] at h1
  rw [hi.sys.owner] at hc
  have h4 : ownLeaf g i (res i).1 x = true := (ownLeaf_iff hw hi' i x).2 h1
  unfold getWeight
  rw [(ownLeaf_iff hw hi i c).2 hc, h4, h2]

/-- C54: weights are forgotten in load balancing. -/
theorem C54_balance (hw : g.WF) (h : Reachable g dflt maxTag s)
    (ho : (Op.balance z : Op n D W).Ok s) (hs : step g dflt maxTag s (.balance z) = .ok s') (one : W) (i : Fin n)
    {c : Nat} (hc : (s' i).owner c = some i) : getWeight g one i (s' i) c = some one := by
  obtain ⟨L, hL⟩ := h.booked
  rw [C54_get_weight hw (.step (.balance z) hL ho hs) one i c, if_pos hc]
  rfl

/-- The demo: cell 1 has weight 5 and is refined. -/
example : ∃ (L : Ledger 2 Nat) (s : Sys 2 Nat Nat) (res : Fin 2 → Proc 2 Nat Nat × List Nat),
    Booked tinyG 0 146 L s ∧ L.weight 1 = some 5 ∧ (s 0).owner 1 = some 0 ∧
    stopRefining tinyG 0 146 true s = .ok res ∧ Finer tinyG (exist (res 0).1.owner) 1 := by
  obtain ⟨s, h1, h2, h3, hrq, -, -, h4, -⟩ := tiny_init
  obtain ⟨s1, e1, e2⟩ := tiny_step h2 (.setWeight 0 1 5) trivial trivial
  obtain ⟨s2, e3, e4⟩ := tiny_step e2 (.refine 0 1) trivial trivial
  obtain ⟨s3, e5, e6⟩ := tiny_step e4 (.stop true) trivial trivial
  obtain ⟨res, e7, -⟩ := Out.bind_inv e5
  have ho1 : ∀ i, (s1 i).owner = (s i).owner := fun i => (step_quiet (.setWeight 0 1 5) trivial e1 i).1
  have ho2 : ∀ i, (s2 i).owner = (s i).owner := fun i =>
    ((step_quiet (.refine 0 1) trivial e3 i).1).trans (ho1 i)
  refine ⟨_, s2, res, .step (.refine 0 1) (.step (.setWeight 0 1 5) (.init h1) trivial e1) trivial e3, ?_, ?_, e7, ?_⟩
  · exact if_pos ⟨rfl, (C54_set_weight tiny_wf h2 0 1 5).1.2 (by rw [h3.sys.owner]; exact h4)⟩
  · rw [ho2, h3.sys.owner]; exact h4
  · have hh : History tinyG 0 146 _ s2 :=
      .call (.refine 0 1) (.call (.setWeight 0 1 5) (.init h1) trivial e1) trivial e3
    refine ((C24_least tiny_wf hh e7 0).1 1 ?_ (by decide) (Veto.none ?_)).2
    · refine Or.inr ⟨0, rfl, ?_⟩
      obtain ⟨w, hi⟩ := e2.inv tiny_wf (by decide)
      have hc : w 1 = some 0 := by rw [← hi.sys.owner 0, ho1, h3.sys.owner]; exact h4
      have hq : (s1 0).req = (s 0).req := by
        injection e1 with e1
        subst e1
        rw [Sys.set_same]
        unfold setWeight
        split <;> rfl
      exact ⟨_, by
        rw [hi.sys.owner]
        exact refineCompletely_ok tiny_wf hi.sys.tiled hi.sys.balanced (hi.sys.placed 0) hc (by decide) (by
          rw [hq, hrq]
          rintro (h | ⟨b, -, -, -, h⟩) <;> cases h)⟩
    · rintro c ((h | ⟨i, h, -⟩) | ⟨i, h, -⟩)
      · exact h
      · cases h
      · cases h

end Dccrg
