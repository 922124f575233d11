import Verif.Rounds
/-!
# A small distributed grid used in examples

Two level 0 cells on two processes, periodic in one dimension. Cell data and weights are numbers.
-/
namespace Dccrg
open Cfg

def tinyG : Cfg := { len := v3 2 1 1, maxLvl := 2, periodic := v3 false false true, hood := 1 }

theorem tiny_wf : tinyG.WF := by unfold Cfg.WF; rw [forall_fin3]; decide

theorem tiny_last : tinyG.last = 146 := by decide

/-- The grid after `initialize`: cell 1 on process 0, cell 2 on process 1. -/
theorem tiny_init : ∃ s : Sys 2 Nat Nat, createGrid tinyG 2 0 146 = .ok s ∧ Reachable tinyG 0 146 s ∧
    Inv tinyG (createLevel0 2 2).2 s ∧ (∀ i, (s i).req = ⟨[], [], [], []⟩) ∧ (∀ i, (s i).hoods = []) ∧
    (∀ i c, (s i).pins c = none ∧ (s i).newPins c = none ∧ (s i).weights c = none) ∧
    (createLevel0 2 2).2 1 = some 0 ∧ (createLevel0 2 2).2 2 = some 1 := by
  obtain ⟨s, h1, h2, h3⟩ := createGrid_spec (n := 2) (W := Nat) (maxTag := 146) tiny_wf (by omega) (0 : Nat)
    (fitsTags_mono (by rw [tiny_last]; exact Nat.le_refl _)
      (fitsTags_last (createLevel0_tiled tiny_wf (by omega)).valid))
  refine ⟨s, h1, .init h1, ⟨h2, fun i => ?_, fun i j => ?_⟩, fun i => (h3 i).1, fun i => (h3 i).2.1, ?_,
    by decide, by decide⟩
  · rw [(h3 i).1]
    exact ⟨fun c hc => (by cases hc), fun c hc => (by cases hc)⟩
  · rw [(h3 i).2.1, (h3 j).2.1]
  · intro i c
    have := (h3 i).2.2.2.2 c
    exact ⟨this.2.2.1, this.2.2.2.1, this.2.2.2.2⟩

/-- Any operation can follow. -/
theorem tiny_step {s : Sys 2 Nat Nat} (h : Reachable tinyG 0 146 s) (op : Op 2 Nat Nat) (ho : op.Ok s)
    (hk : op.Known tinyG s) : ∃ s', step tinyG 0 146 s op = .ok s' ∧ Reachable tinyG 0 146 s' := by
  obtain ⟨w, hi⟩ := h.inv tiny_wf (by omega)
  obtain ⟨s', h1⟩ := step_ok tiny_wf (by omega) 0 hi (by rw [tiny_last]; exact Nat.le_refl _) op ho hk
  exact ⟨s', h1, .step op h ho h1⟩

/-- Process 0 has requested refinement of cell 1. -/
theorem tiny_asked : ∃ s s' : Sys 2 Nat Nat, createGrid tinyG 2 0 146 = .ok s ∧
    step tinyG 0 146 s (.refine 0 1) = .ok s' ∧
    Reachable tinyG 0 146 s' ∧ Inv tinyG (createLevel0 2 2).2 s' ∧ (s' 0).req = ⟨[1], [], [], []⟩ ∧
    (s' 1).req = ⟨[], [], [], []⟩ := by
  obtain ⟨s, h1, h2, h3, h4, -, -, h5, h6⟩ := tiny_init
  have hr := refineCompletely_ok (i := (0 : Fin 2)) (c := 1) (r := (s 0).req) tiny_wf h3.sys.tiled h3.sys.balanced
    (h3.sys.placed 0) h5 (by decide) (by
      rw [h4]
      rintro (h | ⟨b, -, -, -, h⟩) <;> cases h)
  have hst : step tinyG 0 146 s (.refine 0 1) = .ok (s.set 0 { s 0 with req := ⟨[1], [], [], []⟩ }) := by
    show s.ask 0 _ = _
    rw [h3.sys.owner, hr, h4]
    rfl
  refine ⟨s, _, h1, hst, .step (.refine 0 1) h2 trivial hst, ?_, ?_, ?_⟩
  · refine h3.set ((h3.local 0).ask ⟨?_, fun u hu => (by cases hu)⟩)
    intro c hc
    rw [List.mem_singleton.1 hc]
    exact ⟨exist_of h5, by decide⟩
  · rw [Sys.set_same]
  · rw [Sys.set_other _ (by decide)]; exact h4 1

/-- Refining cell 1. -/
theorem tiny_stop {s : Sys 2 Nat Nat} (h4 : Inv tinyG (createLevel0 2 2).2 s)
    (h5 : (s 0).req = ⟨[1], [], [], []⟩) (h6 : (s 1).req = ⟨[], [], [], []⟩)
    {res : Fin 2 → Proc 2 Nat Nat × List Nat} (e1 : stopRefining tinyG 0 146 true s = .ok res) :
    ∀ i, (∀ k ∈ tinyG.children 1, (res i).1.owner k = some 0) ∧ (res i).1.owner 1 = none ∧
      (res i).1.owner 2 = some 1 ∧ ∀ c, exist (res i).1.owner c = true → c = 2 ∨ c ∈ tinyG.children 1 := by
  have hst := (stopRefining_sound tiny_wf h4.sys.core h4.req e1).1
  have hN : ∀ c, ¬ Vetoed tinyG (createLevel0 2 2).2 s c := by
    intro c hc
    have : ∀ j, (s j).req.notRefine = [] := by
      intro j
      have : j = 0 ∨ j = 1 := by omega
      rcases this with rfl | rfl
      · rw [h5]
      · rw [h6]
    induction hc with
    | base h => obtain ⟨j, hj⟩ := h; rw [this] at hj; cases hj
    | step _ _ _ _ _ ih => exact ih
  have hR : Refines tinyG (createLevel0 2 2).2 s 1 :=
    .base ⟨⟨0, by rw [h5]; exact List.mem_cons_self⟩, hN 1⟩
  have hU : ∀ u, ¬ Unrefines tinyG (createLevel0 2 2).2 s u := by
    rintro u ⟨⟨j, hj⟩, -⟩
    have : j = 0 ∨ j = 1 := by omega
    rcases this with rfl | rfl
    · rw [h5] at hj; cases hj
    · rw [h6] at hj; cases hj
  have hR2 : ∀ c, Refines tinyG (createLevel0 2 2).2 s c → c = 1 := by
    intro c hc
    have hlv : ∀ c, exist (createLevel0 2 2).2 c = true → tinyG.lvl c = 0 := by
      intro c hc
      rw [createLevel0_exist (by omega)] at hc
      exact (lvl_level0 (g := tinyG) hc.1 hc.2).2
    induction hc with
    | base h =>
      obtain ⟨⟨j, hj⟩, -⟩ := h
      have : j = 0 ∨ j = 1 := by omega
      rcases this with rfl | rfl
      · rw [h5] at hj; exact List.mem_singleton.1 hj
      · rw [h6] at hj; cases hj
    | step _ _ _ hl ih =>
      rw [ih] at hl
      exact absurd hl (by rw [show tinyG.lvl 1 = 0 by decide]; omega)
  intro i
  rw [(hst.exec i).owner]
  refine ⟨fun k hk => ?_, ?_, ?_, ?_⟩
  · rw [newOwner_new tiny_wf h4.sys.tiled hst.plan ⟨1, hR, hk⟩]
    have : ∀ k ∈ tinyG.children 1, tinyG.parent k = 1 := by decide
    rw [this k hk]
    decide
  · exact newOwner_gone tiny_wf h4.sys.tiled hst.plan (Or.inl hR)
  · rw [newOwner_same tiny_wf h4.sys.tiled hst.plan (by decide) (fun h => absurd (hR2 2 h) (by decide))
      (by rintro ⟨u, hu, -⟩; exact hU u hu)]
    decide
  · intro c hc
    rcases (newOwner_exist tiny_wf h4.sys.tiled hst.plan c).1 hc with ⟨a1, a2, -⟩ | ⟨r, a1, a2⟩ | ⟨u, a1, -⟩
    · rw [createLevel0_exist (by omega)] at a1
      have : c ≠ 1 := fun e => a2 (by rw [e]; exact hR)
      left; omega
    · right; rw [← hR2 r a1]; exact a2
    · exact absurd a1 (hU u)

/-- Cell 1 has been refined. -/
theorem tiny_refined : ∃ (s : Sys 2 Nat Nat) (res : Fin 2 → Proc 2 Nat Nat × List Nat),
    Reachable tinyG 0 146 s ∧ (s 0).req = ⟨[1], [], [], []⟩ ∧ stopRefining tinyG 0 146 true s = .ok res ∧
    Reachable tinyG 0 146 (fun i => (res i).1) ∧
    ∀ i, (∀ k ∈ tinyG.children 1, (res i).1.owner k = some 0) ∧ (res i).1.owner 1 = none ∧
      (res i).1.owner 2 = some 1 ∧ ∀ c, exist (res i).1.owner c = true → c = 2 ∨ c ∈ tinyG.children 1 := by
  obtain ⟨s0, s, h1, h2, h3, h4, h5, h6⟩ := tiny_asked
  obtain ⟨s', h7, h8⟩ := tiny_step h3 (.stop true) trivial trivial
  obtain ⟨res, e1, e2⟩ := Out.bind_inv h7
  injection e2 with e2
  subst e2
  exact ⟨s, res, h3, h5, e1, h8, tiny_stop h4 h5 h6 e1⟩

end Dccrg
