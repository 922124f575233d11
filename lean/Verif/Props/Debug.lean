import Verif.DebugLoad
import Verif.Props.Stored
/-!
# C87: checks of debug builds

If `DEBUG` is defined the code checks neighbor lists, remote neighbor info, user data, pin requests and equality of the
grid on all processes, and ends the program if one of these is wrong. The model of the code with these checks has functions whose
names end in `D`.
-/
namespace Dccrg
open Cfg
variable {n : Nat} {D W : Type} {g : Cfg} {dflt : D} {maxTag : Nat} {s s' : Sys n D W} {σ σ' : Fin n → Store n} {b : Bool}

/-- No check fails in any operation after any history: with checks an operation has the same result, and leaves the same
things stored on every process, as without. This includes not returning at all, so checks don't hide other failures either. -/
theorem C87_operations (hw : g.WF) (hn : 0 < n) (h : WithStore g dflt maxTag s σ b) {op : Op n D W} (ho : op.Ok s) :
    stepStoredD g dflt maxTag s σ op = stepStored g dflt maxTag s σ op := by
  obtain ⟨hr, hc⟩ := h.coherent hw
  exact stepStoredD_eq hw hn hr (Or.inl rfl) hc ho

/-- No check fails when a grid is created. -/
theorem C87_initialize (hw : g.WF) (hs : createGrid g n dflt maxTag = .ok s) (i : Fin n) :
    initStoreD g maxTag i (s i) = initStore g maxTag i (s i) := by
  have hr : Reachable g dflt maxTag s := .init hs
  have hn : 0 < n := by have := i.2; omega
  obtain ⟨w, hg⟩ := hr.good hw i
  have hM : maxTag ≤ max maxTag g.last := Nat.le_max_left _ _
  have hM' : g.last ≤ max maxTag g.last := Nat.le_max_right _ _
  obtain ⟨s', h1, h2, h3⟩ := createGrid_spec (W := W) hw hn dflt
    (fitsTags_mono hM' (fitsTags_last (createLevel0_tiled hw hn).valid))
  rw [createGrid_mono hM hs] at h1
  injection h1 with h1
  subst h1
  exact initStoreD_eq hw hg (h3 i).2.1

/-- No check fails when a grid is copied. -/
theorem C87_copy (hw : g.WF) (h : WithStore g dflt maxTag s σ b) {D' : Type} (dflt' : D') (i : Fin n) :
    copyStoreD g (copyProc g dflt' i (s i)) (σ i) = copyStore g (copyProc g dflt' i (s i)) (σ i) := by
  obtain ⟨hr, hc⟩ := h.coherent hw
  have hr' : Reachable g dflt' maxTag (copyGrid g dflt' s) := .copy hr
  obtain ⟨w, hg⟩ := hr'.good hw i
  exact copyStoreD_eq hw (hc i) hg

/-- Debug builds have the same histories as release builds. -/
theorem C87_histories (hw : g.WF) (hn : 0 < n) :
    WithStoreD g dflt maxTag s σ ↔ ∃ b, WithStore g dflt maxTag s σ b := by
  constructor
  · intro h
    induction h with
    | @init D dflt maxTag s σ hs hc =>
      rw [show (fun i => initStoreD g maxTag i (s i)) = fun i => initStore g maxTag i (s i) from
        funext fun i => C87_initialize hw hs i] at hc
      exact ⟨true, .init hs hc⟩
    | @step D dflt maxTag s s' σ σ' op hst ho hs ih =>
      obtain ⟨b, hb⟩ := ih
      rw [C87_operations hw hn hb ho] at hs
      exact ⟨_, .step op hb ho hs⟩
    | @copy D D0 dflt dflt0 maxTag s σ σ' hst hs ih =>
      obtain ⟨b, hb⟩ := ih
      rw [show (fun i => copyStoreD g (copyProc g dflt i (s i)) (σ i)) = fun i => copyStore g (copyProc g dflt i (s i)) (σ i) from
        funext fun i => C87_copy hw hb dflt i] at hs
      exact ⟨_, .copy hb hs⟩
  · rintro ⟨b, h⟩
    induction h with
    | @init D dflt maxTag s σ hs hc =>
      rw [show (fun i => initStore g maxTag i (s i)) = fun i => initStoreD g maxTag i (s i) from
        funext fun i => (C87_initialize hw hs i).symm] at hc
      exact .init hs hc
    | @step D dflt maxTag s s' σ σ' b op hst ho hs ih =>
      rw [← C87_operations hw hn hst ho] at hs
      exact .step op ih ho hs
    | @copy D D0 dflt dflt0 maxTag s σ σ' b hst hs ih =>
      rw [show (fun i => copyStore g (copyProc g dflt i (s i)) (σ i)) = fun i => copyStoreD g (copyProc g dflt i (s i)) (σ i) from
        funext fun i => (C87_copy hw hst dflt i).symm] at hs
      exact .copy ih hs

/-- All functions that verify succeed after every operation, also after those that don't call them. -/
theorem C87_verify (hw : g.WF) (hn : 0 < n) (h : WithStore g dflt maxTag s σ b) :
    dbgConsistent g s = true ∧ ∀ i, dbgNeighbors g i (s i) (σ i) = .ok true ∧ dbgInfo g i (s i) (σ i) = .ok true ∧
      dbgData g i (s i) = true := by
  obtain ⟨hr, hc⟩ := h.coherent hw
  obtain ⟨w, hi⟩ := hr.inv hw hn
  refine ⟨dbgConsistent_true hi.sys.owner, fun i => ?_⟩
  obtain ⟨w', hg⟩ := hr.good hw i
  have ew : w' = w := by rw [← hg.owner, hi.sys.owner]
  subst ew
  have ho := hg.owner
  have h := hc i
  exact ⟨dbgNeighbors_true hw hg (ho ▸ h.six) (ho ▸ h.of) (ho ▸ h.to) (ho ▸ h.userOf) (ho ▸ h.userTo) (h.levels hw hg),
    dbgInfo_true hw hg.tiled hg.balanced ho hg.placed (ho ▸ h.six) h.loc h.rem, dbgData_true ho hg.placed⟩

/-! ## What is_consistent says -/

theorem stdEqual_prefix {α : Type} [BEq α] [LawfulBEq α] : ∀ {l m : List α}, stdEqual l m = true ↔ l <+: m := by
  intro l
  induction l with
  | nil => intro m; simp [stdEqual]
  | cons a l ih =>
    intro m
    cases m with
    | nil => simp [stdEqual]
    | cons b m =>
      unfold stdEqual
      rw [Bool.and_eq_true, beq_iff_eq, ih, List.cons_prefix_cons]

/-- If `is_consistent` returns true and no process knows more or fewer cells than others, all processes know the same owner for every
possible cell. -/
theorem C88_consistent_partial (hn : 0 < n) (h : dbgConsistent g s = true)
    (hl : ∀ i j, (cellsIn g (s i).owner).length = (cellsIn g (s j).owner).length) (i j : Fin n) {c : Nat} (hc : c ≤ g.last) :
    (s i).owner c = (s j).owner c := by
  unfold dbgConsistent at h
  rw [decide_eq_true_eq] at h
  have key : ∀ p : Fin n, (s p).owner c = (s ⟨0, hn⟩).owner c := by
    intro p
    obtain ⟨h1, h2⟩ := h p ⟨0, hn⟩ rfl
    rw [stdEqual_prefix] at h1 h2
    have e1 := h1.eq_of_length (hl _ _)
    have e2 := h2.eq_of_length (by rw [List.length_map, List.length_map]; exact hl _ _)
    rw [← e1] at e2
    have hm : ∀ q : Fin n, c ∈ cellsIn g (s q).owner ↔ exist (s q).owner c = true := by
      intro q
      unfold cellsIn
      rw [List.mem_filter, mem_ids]
      exact ⟨fun h => h.2, fun h => ⟨hc, h⟩⟩
    by_cases hx : c ∈ cellsIn g (s p).owner
    · exact List.map_inj_left.1 e2 c hx
    · have h3 : exist (s p).owner c = false := by
        cases hy : exist (s p).owner c with
        | false => rfl
        | true => exact absurd ((hm p).2 hy) hx
      have h4 : exist (s ⟨0, hn⟩).owner c = false := by
        cases hy : exist (s ⟨0, hn⟩).owner c with
        | false => rfl
        | true => rw [e1] at hx; exact absurd ((hm _).2 hy) hx
      unfold exist at h3 h4
      cases h5 : (s p).owner c with
      | some o => rw [h5] at h3; cases h3
      | none =>
        cases h6 : (s ⟨0, hn⟩).owner c with
        | some o => rw [h6] at h4; cases h4
        | none => rfl
  rw [key i, key j]

/-- It also returns true if a process doesn't know the last cells of process 0: "returns false if the same cells don't exist on the
same process for all processes" (dccrg.hpp:12417) is not true. -/
theorem C88_consistent_false : ∃ s : Sys 2 Nat Nat, dbgConsistent tinyG s = true ∧ exist (s 0).owner 8 = true ∧
    exist (s 1).owner 8 = false := by
  let w : Fin 2 → Owner 2 := fun i c => if 1 ≤ c ∧ c ≤ (if i = 0 then 8 else 7) then some 0 else none
  let s : Sys 2 Nat Nat := fun i => ⟨w i, fun _ => none, fun _ => none, ⟨[], [], [], []⟩, fun _ => none, fun _ => none, fun _ => none,
    fun _ => none, fun _ => none, []⟩
  exact ⟨s, by decide +kernel, rfl, rfl⟩

/-! ## Examples -/

/-- Demo grid with a neighborhood, in which refinement passes all checks. -/
example : ∃ (s s' : Sys 2 Nat Nat) (σ σ' : Fin 2 → Store 2), WithStoreD tinyG 0 146 s σ ∧
    (∀ i, (s i).hoods = [(5, [v3 (-1) 0 0])]) ∧ stepStoredD tinyG 0 146 s σ (.stop true) = .ok (s', σ') := by
  obtain ⟨s, σ, h1, h2⟩ := tiny_hood
  obtain ⟨hr, -⟩ := h1.coherent tiny_wf
  obtain ⟨s1, e1, e2⟩ := tiny_step hr (.stop true) trivial trivial
  obtain ⟨σ', hσ⟩ := (C80_histories tiny_wf).2 h1 (.stop true) trivial e1
  exact ⟨s, s1, σ, σ', (C87_histories tiny_wf (by omega)).2 ⟨_, h1⟩, h2,
    (C87_operations tiny_wf (by omega) h1 (op := .stop true) trivial).trans hσ⟩

/-- Checks notice data of a cell on another process. -/
example : ∃ p : Proc 2 Nat Nat, dbgData tinyG 0 p = false :=
  ⟨⟨fun c => if c = 1 then some 1 else none, fun c => if c = 1 then some 0 else none, fun _ => none, ⟨[], [], [], []⟩, fun _ => none,
    fun _ => none, fun _ => none, fun _ => none, fun _ => none, []⟩, by decide +kernel⟩

end Dccrg
