import Verif.Overlap
import Verif.Props.Solver
import Verif.Props.Iter
/-!
# C116: calculating while data of remote neighbors is on its way
-/
namespace Dccrg
open Cfg
variable {n : Nat} {D W K : Type} {g : Cfg} {s t : Sys n D W} {dflt : D} {maxTag : Nat} {id : Int} {H : List (V3 Int)}
  {k : Fin n → Cache} {single : Bool} {count : Nat → List ((Nat × V3 Int) × Option D) → K} {rule : Nat → D → K → D}
  {T : Nat} {x y : Game n D K}

/-- The loop of `Verif/Overlap.lean` in a grid: neighborhood `id` with items `H`, inner and outer cells given by iterators `k`. -/
def loopOf (g : Cfg) (s : Sys n D W) (id : Int) (H : List (V3 Int)) (k : Fin n → Cache) (single : Bool) (dflt : D)
    (count : Nat → List ((Nat × V3 Int) × Option D) → K) (rule : Nat → D → K → D) : Loop n D K where
  single := single
  sends := sendsIn g s fun _ => H
  recvs := recvsIn g s fun _ => H
  dflt := dflt
  mine i c := (s i).owner c = some i
  nbrs i c := (getNeighborsOf g (s i) c id).getD []
  inner i := (range (k i).cells (k i).inner).map (·.id)
  outer i := (range (k i).cells (k i).outer).map (·.id)
  count := count
  rule := rule

/-- The same calculation without overlap, see C115. -/
def sweepOf (dflt : D) (count : Nat → List ((Nat × V3 Int) × Option D) → K) (rule : Nat → D → K → D) (c : Nat)
    (d : Option D) (l : List ((Nat × V3 Int) × Option D)) : D :=
  rule c (d.getD dflt) (count c l)

/-- The loop after any number of steps of processes and MPI. -/
def Overlaps (g : Cfg) (s : Sys n D W) (id : Int) (H : List (V3 Int)) (k : Fin n → Cache) (single : Bool) (dflt : D)
    (count : Nat → List ((Nat × V3 Int) × Option D) → K) (rule : Nat → D → K → D) (T : Nat) (x : Game n D K) : Prop :=
  ∃ kept, (loopOf g s id H k single dflt count rule).Run
    ((loopOf g s id H k single dflt count rule).start (beforeUpdates s dflt) kept T) x

/-! ## Data after every turn -/

noncomputable def turnField (g : Cfg) (H : List (V3 Int)) (f : Nat → Option D → List ((Nat × V3 Int) × Option D) → D)
    (u : Nat → Option D) : Nat → Nat → Option D
  | 0 => u
  | r + 1 => sweptField g H f (turnField g H f u r)

theorem turnField_shift {f : Nat → Option D → List ((Nat × V3 Int) × Option D) → D} {u : Nat → Option D} (T : Nat) :
    turnField g H f (sweptField g H f u) T = turnField g H f u (T + 1) := by
  induction T with
  | zero => rfl
  | succ T ih => show sweptField g H f _ = sweptField g H f _; rw [ih]

theorem foldl_turns {f : Nat → Option D → List ((Nat × V3 Int) × Option D) → D} (u : Nat → Option D) (T : Nat) :
    (List.replicate T (SimStage.sweep id H f)).foldl (fun u x => x.field g u) u = turnField g H f u T := by
  induction T generalizing u with
  | zero => rfl
  | succ T ih =>
    rw [List.replicate_succ, List.foldl_cons, ih]
    exact turnField_shift T

theorem turnField_next (hw : g.WF) {w : Owner n} (hi : Inv g w s) (hH : ∀ i, hoodFor g (s i) id = some H)
    {f : Nat → Option D → List ((Nat × V3 Int) × Option D) → D} {u : Nat → Option D}
    (hu : ∀ c, (u c).isSome = exist w c) (r : Nat) :
    (∀ c, (turnField g H f u r c).isSome = exist w c) ∧
    ∀ i c d, exist w c = true → turnField g H f u r c = some d →
      turnField g H f u (r + 1) c = some (f c (some d) (((getNeighborsOf g (s i) c id).getD []).map
        fun x => (x, turnField g H f u r x.1))) := by
  have key : ∀ r, (∀ c, (turnField g H f u r c).isSome = exist w c) → ∀ i c d, exist w c = true →
      turnField g H f u r c = some d →
      turnField g H f u (r + 1) c = some (f c (some d) (((getNeighborsOf g (s i) c id).getD []).map
        fun x => (x, turnField g H f u r x.1))) := by
    intro r hr i c d hc hd
    obtain ⟨F, g1, -, -⟩ := hi.neighborsOf hw (hH i) hc
    have g2 : findNeighborsOf g (exist w) c H = .ok (H.flatMap F) := by
      unfold getNeighborsOf at g1
      rw [hi.sys.owner, if_pos hc, hH] at g1
      cases h3 : findNeighborsOf g (exist w) c H with
      | ok l => simp only [h3] at g1; injection g1 with g1; rw [g1]
      | _ => simp only [h3] at g1; cases g1
    show sweptField g H f _ c = _
    unfold sweptField
    rw [hd, show (fun c => (turnField g H f u r c).isSome) = exist w from funext hr, g1]
    simp only [g2]
    rfl
  have all : ∀ r c, (turnField g H f u r c).isSome = exist w c := by
    intro r
    induction r with
    | zero => exact hu
    | succ r ih =>
      intro c
      cases hc : exist w c with
      | false =>
        have := ih c
        rw [hc] at this
        show (sweptField g H f _ c).isSome = _
        unfold sweptField
        rw [Option.isSome_eq_false_iff, Option.isNone_iff_eq_none] at this
        rw [this]
        rfl
      | true =>
        have := ih c
        rw [hc, Option.isSome_iff_exists] at this
        obtain ⟨d, hd⟩ := this
        obtain ⟨i, -⟩ := exist_iff.1 hc
        rw [key r ih i c d hc hd]
        rfl
  exact ⟨all r, key r (all r)⟩

/-- Requirements of the loop are met in grids. -/
theorem loopOf_ok (hw : g.WF) (h : Reachable g dflt maxTag s) (hH : ∀ i, hoodFor g (s i) id = some H)
    (hk : ∀ i, updatePointers g i (s i) id = .ok (k i)) {u : Nat → Option D} (hu : Holds s u) :
    (loopOf g s id H k single dflt count rule).Ok (turnField g H (sweepOf dflt count rule) u) := by
  have hin : ∀ i, Enumerates (k i) (k i).inner (fun c => (s i).owner c = some i ∧ ¬ OnBoundary g i (s i) id c) ∧
      Enumerates (k i) (k i).outer (OnBoundary g i (s i) id) := by
    intro i
    obtain ⟨k', e1, e2, e3, -⟩ := C38_ranges (id := id) hw h i (by rw [hH]; rfl)
    rw [hk] at e1
    injection e1 with e1
    subst e1
    exact ⟨e2, e3⟩
  obtain ⟨hR, hr⟩ := rounds_match (ids := fun _ => id) (H := fun _ => H) hw h (fun _ i => hH i)
  have hnb : ∀ (i : Fin n) (c : Nat), (s i).owner c = some i → ∀ x ∈ (getNeighborsOf g (s i) c id).getD [],
      NbrOf g (s i) id c x.1 ∧ exist (s i).owner x.1 = true := by
    rintro i c hc ⟨b, off⟩ hx
    obtain ⟨w, hi⟩ := h.inv hw (by have := i.2; omega)
    have hc' : exist w c = true := by rw [hi.sys.owner] at hc; exact exist_of hc
    obtain ⟨F, g1, -, g3⟩ := hi.neighborsOf hw (hH i) hc'
    rw [g1] at hx
    have hx : (b, off) ∈ H.flatMap F := hx
    exact ⟨⟨_, off, g1, hx⟩, by rw [hi.sys.owner]; exact ((g3 b).1 ⟨off, hx⟩).1⟩
  refine ⟨hR, fun i c hc => ?_, fun i c hc => ?_, fun i c hc => ?_, fun i => (hin i).1.1, fun i => (hin i).2.1, ?_⟩
  · obtain ⟨h1, h2⟩ := ((hin i).1.2 c).1 hc
    refine ⟨decide_eq_true h1, fun x hx => ?_, fun r q hs => ?_⟩
    · obtain ⟨e1, e2⟩ := hnb i c h1 x hx
      obtain ⟨j, hj⟩ := exist_iff.1 e2
      refine decide_eq_true ?_
      by_cases hji : j = i
      · rw [hj, hji]
      · exact absurd ⟨h1, x.1, j, hj, hji, Or.inl e1⟩ h2
    · have hs : c ∈ sendsIn g s (fun _ => H) r i q := hs
      rw [hR.eq, hr] at hs
      obtain ⟨e1, e2, b, e3, e4⟩ := hs
      obtain ⟨w, hi⟩ := h.inv hw (by have := i.2; omega)
      refine h2 ⟨h1, b, q, ?_, fun h => e1 h.symm, Or.inr ?_⟩
      · rw [hi.sys.owner] at e3 ⊢; exact e3
      · rw [hi.sys.owner] at e3 h1
        have e4' := (hi.nbrOf_iff hw (hH q) (exist_of e3)).1 e4
        exact (hi.nbrTo_iff hw (hH i) (exist_of h1)).2 ⟨exist_of e3, e4'.2⟩
  · have hb := ((hin i).2.2 c).1 hc
    refine ⟨decide_eq_true hb.1, fun h' => ((((hin i).1.2 c).1 h').2) hb, fun x hx => ?_⟩
    obtain ⟨e1, e2⟩ := hnb i c hb.1 x hx
    obtain ⟨j, hj⟩ := exist_iff.1 e2
    obtain ⟨w, hi⟩ := h.inv hw (by have := i.2; omega)
    by_cases hji : j = i
    · exact Or.inl (decide_eq_true (by rw [hj, hji]))
    · refine Or.inr ⟨decide_eq_false ?_, j, ?_, fun r => ?_⟩
      · rw [hj]; intro h; injection h with h; exact hji h
      · refine decide_eq_true ?_
        rw [hi.sys.owner] at hj ⊢; exact hj
      · show x.1 ∈ recvsIn g s (fun _ => H) r i j
        rw [hr]
        exact ⟨hji, by rw [hi.sys.owner] at hj ⊢; exact hj, c, hb.1, e1⟩
  · have hc : (s i).owner c = some i := of_decide_eq_true hc
    by_cases hb : OnBoundary g i (s i) id c
    · exact Or.inr (((hin i).2.2 c).2 hb)
    · exact Or.inl (((hin i).1.2 c).2 ⟨hc, hb⟩)
  · intro i c r d hc hd
    have hc : (s i).owner c = some i := of_decide_eq_true hc
    obtain ⟨w, hi⟩ := h.inv hw (by have := i.2; omega)
    exact (turnField_next hw hi hH (fun c => by
      have := congrFun (isSome_eq_exist hu i) c
      rw [hi.sys.owner] at this
      exact this) r).2 i c d (by rw [hi.sys.owner] at hc; exact exist_of hc) hd

theorem Overlaps.inv (hw : g.WF) (h : Reachable g dflt maxTag s) (hH : ∀ i, hoodFor g (s i) id = some H)
    (hk : ∀ i, updatePointers g i (s i) id = .ok (k i)) {u : Nat → Option D} (hu : Holds s u)
    (hx : Overlaps g s id H k single dflt count rule T x) :
    (loopOf g s id H k single dflt count rule).Inv (turnField g H (sweepOf dflt count rule) u) T x := by
  obtain ⟨kept, hx⟩ := hx
  refine hx.inv (loopOf_ok hw h hH hk hu) (Loop.start_inv beforeUpdates_idle (fun i c hc => ?_) kept T)
  have hc : (s i).owner c = some i := of_decide_eq_true hc
  have := ((hu i c).1 i hc).2
  show some (((s i).data c).getD dflt) = u c
  rw [this]
  cases hc' : u c with
  | none => exact absurd hc' (((hu i c).2).1 (exist_of hc))
  | some d => rfl

/-! ## The property -/

/-- C116: however processes and messages proceed, when a process has finished its turns its cells have the data that they
have if every turn is an update of remote neighbors followed by a calculation, on any number of processes, see C115. -/
theorem C116_results {n' : Nat} {W' : Type} {dflt' : D} {maxTag' : Nat} {s' t : Sys n' D W'} (hw : g.WF) (hn' : 0 < n')
    (h : Reachable g dflt maxTag s) (hH : ∀ i, hoodFor g (s i) id = some H)
    (hk : ∀ i, updatePointers g i (s i) id = .ok (k i)) (hx : Overlaps g s id H k single dflt count rule T x)
    (h' : Idle g dflt' maxTag' s') (hss : SameData s s')
    (ht : Simulates g dflt' maxTag' (List.replicate T (.sweep id H (sweepOf dflt count rule))) s' t)
    {i : Fin n} (hi : x.todo i = []) {c : Nat} (hc : (s i).owner c = some i) (j : Fin n') :
    exist (t j).owner c = true ∧ ((t j).owner c = some j → access (t j) c = some (x.a.data i c)) := by
  have hn : 0 < n := by have := i.2; omega
  obtain ⟨w, hI⟩ := h.inv hw hn
  obtain ⟨v, hJ⟩ := h'.reachable.inv hw hn'
  obtain ⟨u, hu, hv⟩ := hss.holds hI hJ hn hn'
  have hG := hx.inv hw h hH hk hu
  have hO := loopOf_ok (single := single) (count := count) (rule := rule) hw h hH hk hu
  have hd := ((hG.2 i).counts.2.2 hi).2 c (decide_eq_true hc) (hO.all i c)
  have hT := (ht.holds hw hn' h' hv).2
  rw [foldl_turns] at hT
  refine ⟨((hT j c).2).2 ?_, fun e => ?_⟩
  · rw [← hd]; simp
  · rw [((hT j c).1 j e).1, hd]

/-- C116: no call fails or waits for ever: until all processes have finished, some process or MPI can proceed. -/
theorem C116_no_deadlock (hw : g.WF) (h : Reachable g dflt maxTag s) (hH : ∀ i, hoodFor g (s i) id = some H)
    (hk : ∀ i, updatePointers g i (s i) id = .ok (k i)) (hx : Overlaps g s id H k single dflt count rule T x)
    {i : Fin n} (hi : x.todo i ≠ []) : ∃ y, (loopOf g s id H k single dflt count rule).Step x y := by
  have hn : 0 < n := by have := i.2; omega
  obtain ⟨w, hI⟩ := h.inv hw hn
  obtain ⟨u, hu⟩ := hI.holds
  exact (hx.inv hw h hH hk hu).progress (loopOf_ok hw h hH hk hu) hi

/-- C116: it doesn't go on for ever either. -/
theorem C116_finite (f : Nat → Game n D K) :
    ¬ ∀ r, (loopOf g s id H k single dflt count rule).Step (f r) (f (r + 1)) := fun h => Loop.finite f h

/-- C116: rules of MPI are followed: data of a cell is not changed while it is being sent, and copies of remote neighbors are
not looked at while they are being received. -/
theorem C116_no_race (hw : g.WF) (h : Reachable g dflt maxTag s) (hH : ∀ i, hoodFor g (s i) id = some H)
    (hk : ∀ i, updatePointers g i (s i) id = .ok (k i)) (hx : Overlaps g s id H k single dflt count rule T x)
    {i : Fin n} {c : Nat} {l : List Instr} :
    (x.todo i = .change c :: l → ∀ r q, x.a.sendsDone i ≤ r → r < x.a.sendsStarted i → c ∉ sendsIn g s (fun _ => H) r i q) ∧
    (x.todo i = .count c :: l → ∀ y ∈ (getNeighborsOf g (s i) c id).getD [],
      (s i).owner y.1 = some i ∨ x.a.recvsDone i = x.a.recvsStarted i) := by
  have hn : 0 < n := by have := i.2; omega
  obtain ⟨w, hI⟩ := h.inv hw hn
  obtain ⟨u, hu⟩ := hI.holds
  have hO := loopOf_ok (single := single) (count := count) (rule := rule) hw h hH hk hu
  have hW := (hx.inv hw h hH hk hu).2 i
  refine ⟨fun ht => hW.ready hO ht, fun ht y hy => ?_⟩
  rcases (hW.ready hO ht).2 with e | e
  · exact Or.inl (of_decide_eq_true (e y hy))
  · exact Or.inr e

/-- C116: all processes can finish from every state. -/
theorem C116_finishes (hw : g.WF) (hn : 0 < n) (h : Reachable g dflt maxTag s) (hH : ∀ i, hoodFor g (s i) id = some H)
    (hk : ∀ i, updatePointers g i (s i) id = .ok (k i)) (hx : Overlaps g s id H k single dflt count rule T x) :
    ∃ y, Overlaps g s id H k single dflt count rule T y ∧ (loopOf g s id H k single dflt count rule).Run x y ∧
      ∀ i, y.todo i = [] := by
  obtain ⟨w, hI⟩ := h.inv hw hn
  obtain ⟨u, hu⟩ := hI.holds
  obtain ⟨y, h1, h2⟩ := (hx.inv hw h hH hk hu).finishes (loopOf_ok hw h hH hk hu)
  obtain ⟨kept, hx⟩ := hx
  refine ⟨y, ⟨kept, ?_⟩, h1, h2⟩
  clear h2
  induction h1 with
  | refl => exact hx
  | step _ hs ih => exact .step (ih) hs

/-- Iterators of all processes. -/
theorem iterators (hw : g.WF) (h : Reachable g dflt maxTag s) (hH : ∀ i, hoodFor g (s i) id = some H) :
    ∃ k : Fin n → Cache, ∀ i, updatePointers g i (s i) id = .ok (k i) := by
  have : ∀ i, ∃ k, updatePointers g i (s i) id = .ok k := fun i => by
    obtain ⟨k, e, -⟩ := C38_ranges (id := id) hw h i (by rw [hH]; rfl)
    exact ⟨k, e⟩
  exact ⟨fun i => Classical.choose (this i), fun i => Classical.choose_spec (this i)⟩

/-- The demo plays three turns on two processes, also on one process without overlap. -/
theorem tiny_overlap : ∃ (s : Sys 2 Nat Nat) (s' t : Sys 1 Nat Nat) (k : Fin 2 → Cache) (x y : Game 2 Nat Nat)
    (count : Nat → List ((Nat × V3 Int) × Option Nat) → Nat) (rule : Nat → Nat → Nat → Nat),
    Reachable tinyG 0 146 s ∧ (∀ i, hoodFor tinyG (s i) defaultId = some (hoodOf tinyG)) ∧
    (∀ i, updatePointers tinyG i (s i) defaultId = .ok (k i)) ∧ (s 0).owner 1 = some 0 ∧
    Overlaps tinyG s defaultId (hoodOf tinyG) k true 0 count rule 3 x ∧ (∀ i, x.todo i ≠ []) ∧
    Overlaps tinyG s defaultId (hoodOf tinyG) k true 0 count rule 3 y ∧ (∀ i, y.todo i = []) ∧
    Idle tinyG 0 146 s' ∧ SameData s s' ∧
    Simulates tinyG 0 146 (List.replicate 3 (.sweep defaultId (hoodOf tinyG) (sweepOf 0 count rule))) s' t := by
  obtain ⟨s, h1, h2, h3, h4, h5, h6, h7, h8⟩ := tiny_init
  obtain ⟨s', h1', -⟩ := createGrid_spec (n := 1) (W := Nat) (maxTag := 146) tiny_wf (by omega) (0 : Nat)
    (fitsTags_mono (by rw [tiny_last]; exact Nat.le_refl _)
      (fitsTags_last (createLevel0_tiled tiny_wf (by omega)).valid))
  obtain ⟨a, b, c⟩ := C115_initialize tiny_wf h1 h1'
  have hH : ∀ i, hoodFor tinyG (s i) defaultId = some (hoodOf tinyG) := fun i => rfl
  obtain ⟨k, hk⟩ := iterators tiny_wf h2 hH
  let count : Nat → List ((Nat × V3 Int) × Option Nat) → Nat := fun c l => c + (l.map fun x => x.2.getD 0).sum
  let rule : Nat → Nat → Nat → Nat := fun _ d v => d + v
  have hx : Overlaps tinyG s defaultId (hoodOf tinyG) k true 0 count rule 3 _ := ⟨fun _ _ => 0, .refl _⟩
  obtain ⟨y, hy, -, hf⟩ := C116_finishes tiny_wf (by omega) h2 hH hk hx
  obtain ⟨t, ht, -⟩ := C115_possible_all tiny_wf (by omega) (by rw [tiny_last]; exact Nat.le_refl _) b
    (List.replicate 3 (.sweep defaultId (hoodOf tinyG) (sweepOf 0 count rule)))
    (fun id H f e => by
      have := List.eq_of_mem_replicate e
      injection this with e1 e2 _
      exact ⟨e1, e2⟩)
  refine ⟨s, s', t, k, _, y, count, rule, h2, hH, hk, by rw [h3.sys.owner]; exact h7, hx, fun i h => ?_, hy, hf, b, c, ht⟩
  have h : turnsOf _ _ 3 = [] := h
  rw [turnsOf_succ] at h
  cases h

/-- Hypotheses of `C116_results` are met. -/
example : ∃ (s : Sys 2 Nat Nat) (s' t : Sys 1 Nat Nat) (k : Fin 2 → Cache) (x : Game 2 Nat Nat)
    (count : Nat → List ((Nat × V3 Int) × Option Nat) → Nat) (rule : Nat → Nat → Nat → Nat), tinyG.WF ∧
    Reachable tinyG 0 146 s ∧ (∀ i, hoodFor tinyG (s i) defaultId = some (hoodOf tinyG)) ∧
    (∀ i, updatePointers tinyG i (s i) defaultId = .ok (k i)) ∧
    Overlaps tinyG s defaultId (hoodOf tinyG) k true 0 count rule 3 x ∧ Idle tinyG 0 146 s' ∧ SameData s s' ∧
    Simulates tinyG 0 146 (List.replicate 3 (.sweep defaultId (hoodOf tinyG) (sweepOf 0 count rule))) s' t ∧
    x.todo 0 = [] ∧ (s 0).owner 1 = some 0 := by
  obtain ⟨s, s', t, k, x, y, count, rule, a, b, c, d, e, f, p, q, u, v, z⟩ := tiny_overlap
  exact ⟨s, s', t, k, y, count, rule, tiny_wf, a, b, c, p, u, v, z, q 0, d⟩

/-- Hypotheses of `C116_no_deadlock`, `C116_no_race` and `C116_finishes` are met. -/
example : ∃ (s : Sys 2 Nat Nat) (k : Fin 2 → Cache) (x : Game 2 Nat Nat)
    (count : Nat → List ((Nat × V3 Int) × Option Nat) → Nat) (rule : Nat → Nat → Nat → Nat), tinyG.WF ∧
    Reachable tinyG 0 146 s ∧ (∀ i, hoodFor tinyG (s i) defaultId = some (hoodOf tinyG)) ∧
    (∀ i, updatePointers tinyG i (s i) defaultId = .ok (k i)) ∧
    Overlaps tinyG s defaultId (hoodOf tinyG) k true 0 count rule 3 x ∧ x.todo 0 ≠ [] := by
  obtain ⟨s, s', t, k, x, y, count, rule, a, b, c, d, e, f, -⟩ := tiny_overlap
  exact ⟨s, k, x, count, rule, tiny_wf, a, b, c, e, f 0⟩

end Dccrg
