import Verif.Recorded
import Verif.Demo
/-!
# C19 - C24, C27 - C29, C50, C53, C56: refinement

* `History g dflt maxTag k s`: state `s` of all processes is reachable from `initialize` by any operations
  and calls `k` returned true since the last `stop_refining` or load balancing (Verif/History.lean);
* `stopRefining g dflt maxTag sorted s = .ok res`: `stop_refining` returned, `(res j).1` is the state and
  `(res j).2` the list of new cells it returned on process `j`;
* `Finer g E c`, `Coarser g E c`: existing cells `E` that overlap cell `c` are smaller or larger than it,
  i.e. `c` has been refined or unrefined (Verif/Rounds.lean);
* `Meets g b o c`: cell `c` is at item `o` of the neighborhood of cell `b`.
-/
namespace Dccrg
open Cfg
variable {n : Nat} {D W : Type} {g : Cfg} {w : Owner n} {s s' : Sys n D W} {dflt : D} {maxTag : Nat} {k : Calls}
  {sorted : Bool} {res : Fin n → Proc n D W × List Nat}

/-- What is known after `stop_refining`. -/
theorem History.stopped (hw : g.WF) (h : History g dflt maxTag k s)
    (hr : stopRefining g dflt maxTag sorted s = .ok res) (j : Fin n) :
    ∃ w, Inv g w s ∧ Stored g w k s ∧ Stopped g w dflt s res ∧
      (∀ i, exist (res i).1.owner = exist (newOwner g w (Refines g w s) (Unrefines g w s))) ∧
      ∀ x, exist (newOwner g w (Refines g w s) (Unrefines g w s)) x = true ↔
        After g (exist w) (Refines g w s) (Unrefines g w s) x := by
  obtain ⟨w, hi, hst⟩ := h.stored hw (by have := j.2; omega)
  have h3 := (stopRefining_sound hw hi.sys.core hi.req hr).1
  exact ⟨w, hi, hst, h3, fun i => by rw [(h3.exec i).owner], newOwner_exist hw hi.sys.tiled h3.plan⟩

/-- C24: cells refined by `stop_refining` are those that have to be. -/
theorem C24_refined_cells (hw : g.WF) (h : History g dflt maxTag k s)
    (hr : stopRefining g dflt maxTag sorted s = .ok res) (j : Fin n) {c : Nat}
    (hc : exist (s j).owner c = true) :
    Finer g (exist (res j).1.owner) c ↔ Forced g (exist (s j).owner) k c :=
  (h.recorded hw j).refined_cells hw hr j hc

/-- C24: they are the least set closed under refining larger cells that have a refined cell in their
neighborhood. -/
theorem C24_least (hw : g.WF) (h : History g dflt maxTag k s)
    (hr : stopRefining g dflt maxTag sorted s = .ok res) (j : Fin n) :
    let E := exist (s j).owner
    let Refined := fun c => E c = true ∧ Finer g (exist (res j).1.owner) c
    (∀ c, k.refine c → g.lvl c < g.maxLvl → ¬ Veto g E k.dontRefine c → Refined c) ∧
    (∀ b c, ∀ o ∈ hoodOf g, Refined c → E b = true → Meets g b o c → g.lvl b < g.lvl c → Refined b) ∧
    ∀ X : Nat → Prop, (∀ c, k.refine c → g.lvl c < g.maxLvl → ¬ Veto g E k.dontRefine c → X c) →
      (∀ b c, ∀ o ∈ hoodOf g, X c → E b = true → Meets g b o c → g.lvl b < g.lvl c → X b) →
      ∀ c, Refined c → X c :=
  (h.recorded hw j).refined_least hw hr j

/-- C24: the same cells are refined with the same requests for every distribution of the same cells to any
number of processes, and every process sees the same result. -/
theorem C24_distribution {n' : Nat} {D' W' : Type} {t : Sys n' D' W'} {dflt' : D'} {maxTag' : Nat} {k' : Calls}
    {sorted' : Bool} {res' : Fin n' → Proc n' D' W' × List Nat}
    (hw : g.WF) (h : History g dflt maxTag k s) (h' : History g dflt' maxTag' k' t)
    (hr : stopRefining g dflt maxTag sorted s = .ok res)
    (hr' : stopRefining g dflt' maxTag' sorted' t = .ok res') (j : Fin n) (j' : Fin n')
    (hE : ∀ c, exist (s j).owner c = exist (t j').owner c) (hR : ∀ c, k.refine c ↔ k'.refine c)
    (hN : ∀ c, k.dontRefine c ↔ k'.dontRefine c) {c : Nat} (hc : exist (s j).owner c = true) :
    Finer g (exist (res j).1.owner) c ↔ Finer g (exist (res' j').1.owner) c := by
  rw [C24_refined_cells hw h hr j hc, C24_refined_cells hw h' hr' j' (by rw [← hE]; exact hc)]
  have e1 : exist (s j).owner = exist (t j').owner := funext hE
  have e2 : k.dontRefine = k'.dontRefine := funext fun c => propext (hN c)
  rw [e1]
  clear hc
  constructor
  · intro hf
    induction hf with
    | base h1 h2 h3 => exact .base ((hR _).1 h1) h2 (by rw [← e2]; exact h3)
    | step _ h1 h2 h3 h4 ih => exact .step ih h1 h2 h3 h4
  · intro hf
    induction hf with
    | base h1 h2 h3 => exact .base ((hR _).2 h1) h2 (by rw [e2]; exact h3)
    | step _ h1 h2 h3 h4 ih => exact .step ih h1 h2 h3 h4

/-- C24: a refined cell is replaced by its eight children. -/
theorem C24_children (hw : g.WF) (h : History g dflt maxTag k s)
    (hr : stopRefining g dflt maxTag sorted s = .ok res) (j : Fin n) {c : Nat}
    (hc : exist (s j).owner c = true) (hf : Finer g (exist (res j).1.owner) c) :
    exist (res j).1.owner c = false ∧ ∀ x ∈ g.children c, exist (res j).1.owner x = true :=
  (h.recorded hw j).refined_children hw hr j hc hf

/-- The demo: cell 1 has been requested on process 0, no other calls. -/
theorem tiny_history : ∃ (k : Calls) (s : Sys 2 Nat Nat) (res : Fin 2 → Proc 2 Nat Nat × List Nat),
    History tinyG 0 146 k s ∧ k.refine 1 ∧ (∀ c, ¬ k.dontRefine c) ∧
    stopRefining tinyG 0 146 true s = .ok res ∧ (s 0).owner 1 = some 0 ∧ (s 1).owner 2 = some 1 ∧
    Inv tinyG (createLevel0 2 2).2 s ∧ (s 0).req = ⟨[1], [], [], []⟩ ∧ (s 1).req = ⟨[], [], [], []⟩ := by
  obtain ⟨s0, s, h1, h2, h3, h4, h5, h6⟩ := tiny_asked
  obtain ⟨s', h7, h8⟩ := tiny_step h3 (.stop true) trivial trivial
  obtain ⟨res, e1, -⟩ := Out.bind_inv h7
  have h9 : SaysRefine tinyG (s0 0) 1 := by
    obtain ⟨b, r, e2, e3⟩ := ask_inv h2
    obtain ⟨w0, hi0⟩ := (Reachable.init h1).inv tiny_wf (by omega)
    have e2' := e2
    rw [hi0.sys.owner] at e2'
    have hch := refine_change tiny_wf hi0.sys.tiled hi0.sys.balanced (hi0.sys.placed 0) e2'
    cases b with
    | true => exact ⟨r, e2⟩
    | false =>
      have : (s0 0).req = ⟨[1], [], [], []⟩ := by
        rw [← hch.1 rfl, ← h5, e3, Sys.set_same]
      obtain ⟨s1, g1, -, -, g4, -⟩ := tiny_init
      rw [g1] at h1
      injection h1 with h1
      subst h1
      rw [g4] at this
      cases this
  refine ⟨_, s, res, .call (.refine 0 1) (.init h1) trivial h2, Or.inr ⟨0, rfl, h9⟩, ?_, e1, ?_, ?_, h4, h5, h6⟩
  · rintro c (h | ⟨i, h, -⟩)
    · exact h
    · cases h
  · rw [h4.sys.owner]; decide
  · rw [h4.sys.owner]; decide

/-- C23: a requested refinement happens if there are no don't-requests. -/
theorem C23_requested_refinement (hw : g.WF) (h : History g dflt maxTag k s) {c : Nat} (hc : k.refine c)
    (hl : g.lvl c < g.maxLvl) (hn : ∀ x, ¬ k.dontRefine x)
    (hr : stopRefining g dflt maxTag sorted s = .ok res) (j : Fin n) :
    exist (res j).1.owner c = false ∧ ∀ x ∈ g.children c, exist (res j).1.owner x = true := by
  have h1 := (C24_least hw h hr j).1 c hc hl (Veto.none hn)
  exact C24_children hw h hr j h1.1 h1.2

example : ∃ (k : Calls) (s : Sys 2 Nat Nat) (res : Fin 2 → Proc 2 Nat Nat × List Nat),
    tinyG.WF ∧ History tinyG 0 146 k s ∧ k.refine 1 ∧ tinyG.lvl 1 < tinyG.maxLvl ∧ (∀ c, ¬ k.dontRefine c) ∧
    stopRefining tinyG 0 146 true s = .ok res := by
  obtain ⟨k, s, res, h1, h2, h3, h4, -⟩ := tiny_history
  exact ⟨k, s, res, tiny_wf, h1, h2, by decide, h3, h4⟩

/-- C19: a cell for which `dont_refine` returned true on any process is not refined. -/
theorem C19_dont_refine (hw : g.WF) (h : History g dflt maxTag k s) {c : Nat} (hc : k.dontRefine c)
    (hr : stopRefining g dflt maxTag sorted s = .ok res) (j : Fin n) (he : exist (s j).owner c = true) :
    ¬ Finer g (exist (res j).1.owner) c :=
  (h.recorded hw j).dont_refine hw hc hr j he

/-- C19, smaller cells in the neighborhood of such a cell are not refined either. -/
theorem C19_vetoed (hw : g.WF) (h : History g dflt maxTag k s) {c : Nat} 
    (hr : stopRefining g dflt maxTag sorted s = .ok res) (j : Fin n) (he : exist (s j).owner c = true)
    (hc : Veto g (exist (s j).owner) k.dontRefine c) : ¬ Finer g (exist (res j).1.owner) c :=
  (h.recorded hw j).vetoed hw hr j he hc

/-- The demo: `dont_refine(1)` returned true on process 0 after `refine_completely(1)`. -/
example : ∃ (k : Calls) (s : Sys 2 Nat Nat) (res : Fin 2 → Proc 2 Nat Nat × List Nat),
    tinyG.WF ∧ History tinyG 0 146 k s ∧ k.dontRefine 1 ∧ k.refine 1 ∧
    stopRefining tinyG 0 146 true s = .ok res ∧ exist (s 0).owner 1 = true := by
  obtain ⟨k, s, res, h1, h2, h3, -, h4, -⟩ := tiny_history
  obtain ⟨s1, e1, e2⟩ := tiny_step h1.reachable (.dontRefine 0 1) trivial trivial
  obtain ⟨s2, e3, -⟩ := tiny_step e2 (.stop true) trivial trivial
  obtain ⟨res, e4, -⟩ := Out.bind_inv e3
  obtain ⟨w, hi⟩ := h1.reachable.inv tiny_wf (by omega)
  have hE : exist (s 0).owner 1 = true := exist_of h4
  have hq := (step_quiet (.dontRefine 0 1) trivial e1 0).1
  refine ⟨_, s1, res, tiny_wf, .call (.dontRefine 0 1) h1 trivial e1, Or.inr ⟨0, rfl, ?_⟩, Or.inl h2, e4, by rw [hq]; exact hE⟩
  obtain ⟨b, r, f1, f2, -⟩ := dontRefine_spec (r := (s 0).req) (c := 1) hi.sys.tiled
  rw [hi.sys.owner] at hE
  rw [f2.2 hE] at f1
  exact ⟨r, by rw [hi.sys.owner]; exact f1⟩

/-- The demo after refining cell 1, without new calls. -/
theorem tiny_family : ∃ (k : Calls) (s : Sys 2 Nat Nat), History tinyG 0 146 k s ∧
    (∀ c, ¬ k.refine c ∧ ¬ k.unrefine c ∧ ¬ k.dontRefine c ∧ ¬ k.dontUnrefine c) ∧
    (∀ i, ∀ x ∈ tinyG.children 1, (s i).owner x = some 0) ∧
    ∀ i c, exist (s i).owner c = true → c = 2 ∨ c ∈ tinyG.children 1 := by
  obtain ⟨k, s, res, h1, h2, h3, h4, h5, h6, h7, h8, h9⟩ := tiny_history
  have f5 := tiny_stop h7 h8 h9 h4
  refine ⟨_, _, .stop true h1 (show (stopRefining tinyG 0 146 true s).bind _ = _ by rw [h4]; rfl), ?_,
    fun i => (f5 i).1, fun i => (f5 i).2.2.2⟩
  intro c
  refine ⟨id, id, ?_, id⟩
  rintro ⟨i, hi⟩
  induction hi with
  | base h => exact h3 _ h
  | step _ _ _ _ _ _ ih => exact ih

/-- The demo: `refine_completely(3)` returns true for a child of cell 1. -/
theorem tiny_family_refine : ∃ (k : Calls) (s : Sys 2 Nat Nat) (res : Fin 2 → Proc 2 Nat Nat × List Nat),
    History tinyG 0 146 k s ∧ k.refine 3 ∧ (∀ c, ¬ k.dontRefine c) ∧
    (∀ i, ∀ x ∈ tinyG.children 1, (s i).owner x = some 0) ∧ stopRefining tinyG 0 146 true s = .ok res ∧
    (∀ c, k.refine c → c = 3) ∧ (∀ c, ¬ k.unrefine c) := by
  obtain ⟨k, s, h1, h2, h3, h4⟩ := tiny_family
  obtain ⟨s1, e1, e2⟩ := tiny_step h1.reachable (.refine 0 3) trivial trivial
  obtain ⟨s2, e3, -⟩ := tiny_step e2 (.stop true) trivial trivial
  obtain ⟨res, e4, -⟩ := Out.bind_inv e3
  obtain ⟨w, hi, hst⟩ := h1.stored tiny_wf (by omega)
  have hn : ∀ i, (s i).req.notRefine = [] := by
    intro i
    apply List.eq_nil_iff_forall_not_mem.2
    intro c hc
    exact (h2 c).2.2.1 (hst.dontRefine' i c hc)
  refine ⟨_, s1, res, .call (.refine 0 3) h1 trivial e1, Or.inr ⟨0, rfl, ?_⟩, ?_, ?_, e4, ?_, ?_⟩
  · have hw3 : w 3 = some 0 := by rw [← hi.sys.owner 0]; exact h3 0 3 (by decide)
    have := refineCompletely_ok (r := (s 0).req) tiny_wf hi.sys.tiled hi.sys.balanced (hi.sys.placed 0) hw3
      (by decide) (by
        rintro (h | ⟨b, -, -, -, h⟩)
        · rw [hn] at h; cases h
        · rw [hn] at h; cases h)
    exact ⟨_, by rw [hi.sys.owner]; exact this⟩
  · rintro c (h | ⟨i, h, -⟩)
    · exact (h2 c).2.2.1 h
    · cases h
  · intro i x hx
    rw [(step_quiet (.refine 0 3) trivial e1 i).1]
    exact h3 i x hx
  · rintro c (h | ⟨i, h, -⟩)
    · exact absurd h (h2 c).1
    · injection h with _ h; exact h.symm
  · rintro c (h | ⟨i, h, -⟩)
    · exact (h2 c).2.1 h
    · cases h

/-- C22: refined and unrefined cells do not belong to the same family. -/
theorem C22_precedence (hw : g.WF) (h : History g dflt maxTag k s)
    (hr : stopRefining g dflt maxTag sorted s = .ok res) (j : Fin n) {c c' : Nat}
    (hc : exist (s j).owner c = true) (hc' : exist (s j).owner c' = true) (hp : g.parent c = g.parent c')
    (hl : 0 < g.lvl c) (hf : Finer g (exist (res j).1.owner) c) : ¬ Coarser g (exist (res j).1.owner) c' :=
  (h.recorded hw j).precedence hw hr j hc hc' hp hl hf

/-- The demo: cell 3 and the larger cell 2 are refined, cell 4 has the same parent as cell 3. -/
example : ∃ (k : Calls) (s : Sys 2 Nat Nat) (res : Fin 2 → Proc 2 Nat Nat × List Nat),
    tinyG.WF ∧ History tinyG 0 146 k s ∧ stopRefining tinyG 0 146 true s = .ok res ∧
    exist (s 0).owner 3 = true ∧ exist (s 0).owner 4 = true ∧ tinyG.parent 3 = tinyG.parent 4 ∧
    0 < tinyG.lvl 3 ∧ Finer tinyG (exist (res 0).1.owner) 3 := by
  obtain ⟨k, s, res, h1, h2, h3, h4, h5, -⟩ := tiny_family_refine
  have he := exist_of (h4 0 3 (by decide))
  refine ⟨k, s, res, tiny_wf, h1, h5, he, exist_of (h4 0 4 (by decide)), by decide, by decide, ?_⟩
  exact ((C24_least tiny_wf h1 h5 0).1 3 h2 (by decide) (Veto.none h3)).2

/-- C21: a cell for which `dont_unrefine` returned true on any process is not unrefined. -/
theorem C21_dont_unrefine (hw : g.WF) (h : History g dflt maxTag k s) {c : Nat} (hc : k.dontUnrefine c)
    (hr : stopRefining g dflt maxTag sorted s = .ok res) (j : Fin n) :
    ¬ Coarser g (exist (res j).1.owner) c :=
  (h.recorded hw j).dont_unrefine hw hc hr j

/-- The demo: `dont_unrefine(3)` returns true for a child of cell 1 after `unrefine_completely(4)`. -/
example : ∃ (k : Calls) (s : Sys 2 Nat Nat) (res : Fin 2 → Proc 2 Nat Nat × List Nat),
    tinyG.WF ∧ History tinyG 0 146 k s ∧ k.dontUnrefine 3 ∧ 0 < tinyG.lvl 3 ∧
    stopRefining tinyG 0 146 true s = .ok res := by
  obtain ⟨k, s, h1, h2, h3, h4⟩ := tiny_family
  obtain ⟨s0, e0, e00⟩ := tiny_step h1.reachable (.unrefine 0 4) trivial trivial
  obtain ⟨s1, e1, e2⟩ := tiny_step e00 (.dontUnrefine 0 3) trivial trivial
  obtain ⟨s2, e3, -⟩ := tiny_step e2 (.stop true) trivial trivial
  obtain ⟨res, e4, -⟩ := Out.bind_inv e3
  have h1' := History.call (.unrefine 0 4) h1 trivial e0
  refine ⟨_, s1, res, tiny_wf, .call (.dontUnrefine 0 3) h1' trivial e1, Or.inr ⟨0, rfl, ?_⟩, by decide, e4⟩
  obtain ⟨w, hi⟩ := e00.inv tiny_wf (by omega)
  obtain ⟨b, r, f1, f2, -⟩ := dontUnrefine_spec (r := (s0 0).req) (c := 3) tiny_wf hi.sys.tiled
  have hE : exist (s0 0).owner 3 = true := by
    rw [(step_quiet (.unrefine 0 4) trivial e0 0).1]; exact exist_of (h3 0 3 (by decide))
  rw [hi.sys.owner] at hE
  rw [f2.2 hE] at f1
  exact ⟨r, by rw [hi.sys.owner]; exact f1⟩

/-- C56: cells are unrefined only if `unrefine_completely` returned true for one of the family. -/
theorem C56_only_requested (hw : g.WF) (h : History g dflt maxTag k s)
    (hr : stopRefining g dflt maxTag sorted s = .ok res) (j : Fin n) {c : Nat}
    (hc : exist (s j).owner c = true) (hco : Coarser g (exist (res j).1.owner) c) :
    ∃ u, k.unrefine u ∧ g.parent u = g.parent c ∧ exist (s j).owner u = true ∧
      exist (res j).1.owner (g.parent c) = true ∧
      ∀ x ∈ g.children (g.parent c), exist (s j).owner x = true ∧ exist (res j).1.owner x = false :=
  (h.recorded hw j).only_requested hw hr j hc hco

/-- C56: a requested unrefinement happens if there are no requests to refine or not to unrefine and no cell
in the neighborhood of the parent is smaller than the cell. -/
theorem C56_requested_unrefinement (hw : g.WF) (h : History g dflt maxTag k s) {c : Nat} (hc : k.unrefine c)
    (hl : 0 < g.lvl c) (h1 : ∀ x, ¬ k.refine x) (h2 : ∀ x, ¬ k.dontUnrefine x)
    (hr : stopRefining g dflt maxTag sorted s = .ok res) (j : Fin n)
    (hn : ∀ b, exist (s j).owner b = true → ∀ o ∈ hoodOf g, Meets g (g.parent c) o b → g.lvl b ≤ g.lvl c) :
    exist (res j).1.owner (g.parent c) = true ∧
      ∀ x ∈ g.children (g.parent c), exist (s j).owner x = true ∧ exist (res j).1.owner x = false :=
  (h.recorded hw j).requested_unrefinement hw hc hl h1 h2 hr j hn

/-- The demo: `unrefine_completely(3)` returns true for a child of cell 1. -/
theorem tiny_family_unrefine : ∃ (k : Calls) (s : Sys 2 Nat Nat) (res : Fin 2 → Proc 2 Nat Nat × List Nat),
    History tinyG 0 146 k s ∧ k.unrefine 3 ∧ (∀ x, ¬ k.refine x) ∧ (∀ x, ¬ k.dontUnrefine x) ∧ (∀ x, ¬ k.dontRefine x) ∧
    stopRefining tinyG 0 146 true s = .ok res ∧ ∀ i b, exist (s i).owner b = true → tinyG.lvl b ≤ 1 := by
  obtain ⟨k, s, h1, h2, h3, h4⟩ := tiny_family
  obtain ⟨s1, e1, e2⟩ := tiny_step h1.reachable (.unrefine 0 3) trivial trivial
  obtain ⟨s2, e3, -⟩ := tiny_step e2 (.stop true) trivial trivial
  obtain ⟨res, e4, -⟩ := Out.bind_inv e3
  obtain ⟨w, hi⟩ := h1.reachable.inv tiny_wf (by omega)
  refine ⟨_, s1, res, .call (.unrefine 0 3) h1 trivial e1, Or.inr ⟨0, rfl, ?_⟩, ?_, ?_, ?_, e4, ?_⟩
  · have hw3 : w 3 = some 0 := by rw [← hi.sys.owner 0]; exact h3 0 3 (by decide)
    obtain ⟨b, r, f1, f2, -⟩ := unrefineCompletely_spec (r := (s 0).req) tiny_wf hi.sys.tiled hi.sys.balanced
      (hi.sys.placed 0) hw3
    cases b with
    | true => exact ⟨r, by rw [hi.sys.owner]; exact f1⟩
    | false =>
      obtain ⟨-, -, x, hx, hx'⟩ := f2 rfl
      rw [show tinyG.parent 3 = 1 by decide] at hx
      have := exist_of (h3 0 x hx)
      rw [hi.sys.owner, hx'] at this
      cases this
  · rintro c (h | ⟨i, h, -⟩)
    · exact (h2 c).1 h
    · cases h
  · rintro c (h | ⟨i, h, -⟩)
    · exact (h2 c).2.2.2 h
    · cases h
  · rintro c (h | ⟨i, h, -⟩)
    · exact (h2 c).2.2.1 h
    · cases h
  · intro i b hb
    rw [(step_quiet (.unrefine 0 3) trivial e1 i).1] at hb
    have hb' := h4 i b hb
    clear hb
    rcases hb' with rfl | hb
    · decide
    · revert b; decide

example : ∃ (k : Calls) (s : Sys 2 Nat Nat) (res : Fin 2 → Proc 2 Nat Nat × List Nat),
    tinyG.WF ∧ History tinyG 0 146 k s ∧ k.unrefine 3 ∧ 0 < tinyG.lvl 3 ∧ (∀ x, ¬ k.refine x) ∧
    (∀ x, ¬ k.dontUnrefine x) ∧ stopRefining tinyG 0 146 true s = .ok res ∧
    ∀ b, exist (s 0).owner b = true → ∀ o ∈ hoodOf tinyG, Meets tinyG (tinyG.parent 3) o b →
      tinyG.lvl b ≤ tinyG.lvl 3 := by
  obtain ⟨k, s, res, h1, h2, h3, h4, -, h5, h6⟩ := tiny_family_unrefine
  exact ⟨k, s, res, tiny_wf, h1, h2, by decide, h3, h4, h5, fun b hb _ _ _ => h6 0 b hb⟩

/-- C56: if `dont_refine` has not been used, an existing cell is unrefined exactly if `unrefine_completely` returned
true for one of its family, the whole family exists, none of the family is refined or had `refine_completely` or
`dont_unrefine` return true, and no cell in the neighborhood of the parent is smaller than the cell or will be. -/
theorem C56_unrefined_cells (hw : g.WF) (h : History g dflt maxTag k s) (hk : ∀ x, ¬ k.dontRefine x)
    (hr : stopRefining g dflt maxTag sorted s = .ok res) (j : Fin n) {c : Nat}
    (hc : exist (s j).owner c = true) :
    Coarser g (exist (res j).1.owner) c ↔
      0 < g.lvl c ∧ (∃ u ∈ g.children (g.parent c), k.unrefine u) ∧
      (∀ x ∈ g.children (g.parent c), exist (s j).owner x = true ∧ ¬ k.refine x ∧ ¬ k.dontUnrefine x ∧
        ¬ Forced g (exist (s j).owner) k x) ∧
      ∀ b, exist (s j).owner b = true → ∀ o ∈ hoodOf g, Meets g (g.parent c) o b →
        g.lvl b ≤ g.lvl c ∧ (g.lvl b = g.lvl c → ¬ Forced g (exist (s j).owner) k b) :=
  (h.recorded hw j).unrefined_cells hw hk hr j hc

/-- C56: which cells are unrefined does not depend on the number of processes, on owners of cells, on data, on
which processes called nor on the order of calls, if `dont_refine` has not been used. -/
theorem C56_distribution {n' : Nat} {D' W' : Type} {t : Sys n' D' W'} {dflt' : D'} {maxTag' : Nat} {k' : Calls}
    {sorted' : Bool} {res' : Fin n' → Proc n' D' W' × List Nat}
    (hw : g.WF) (h : History g dflt maxTag k s) (h' : History g dflt' maxTag' k' t)
    (hr : stopRefining g dflt maxTag sorted s = .ok res)
    (hr' : stopRefining g dflt' maxTag' sorted' t = .ok res') (j : Fin n) (j' : Fin n')
    (hE : ∀ c, exist (s j).owner c = exist (t j').owner c) (hR : ∀ c, k.refine c ↔ k'.refine c)
    (hU : ∀ c, k.unrefine c ↔ k'.unrefine c) (hD : ∀ c, k.dontUnrefine c ↔ k'.dontUnrefine c)
    (hN : ∀ c, ¬ k.dontRefine c) (hN' : ∀ c, ¬ k'.dontRefine c) {c : Nat} (hc : exist (s j).owner c = true) :
    Coarser g (exist (res j).1.owner) c ↔ Coarser g (exist (res' j').1.owner) c := by
  have hE' : exist (s j).owner = exist (t j').owner := funext hE
  have hF : ∀ x, Forced g (exist (s j).owner) k x ↔ Forced g (exist (t j').owner) k' x := by
    intro x
    rw [hE']
    constructor
    · intro hx
      induction hx with
      | base h1 h2 _ => exact .base ((hR _).1 h1) h2 (Veto.none hN')
      | step _ h1 h2 h3 h4 ih => exact .step ih h1 h2 h3 h4
    · intro hx
      induction hx with
      | base h1 h2 _ => exact .base ((hR _).2 h1) h2 (Veto.none hN)
      | step _ h1 h2 h3 h4 ih => exact .step ih h1 h2 h3 h4
  rw [C56_unrefined_cells hw h hN hr j hc, C56_unrefined_cells hw h' hN' hr' j' (by rw [← hE]; exact hc)]
  simp only [hF, hR, hU, hD, hE]

/-- The demo: cell 3 is unrefined. -/
example : ∃ (k : Calls) (s : Sys 2 Nat Nat) (res : Fin 2 → Proc 2 Nat Nat × List Nat),
    tinyG.WF ∧ History tinyG 0 146 k s ∧ (∀ x, ¬ k.dontRefine x) ∧ stopRefining tinyG 0 146 true s = .ok res ∧
    exist (s 0).owner 3 = true ∧ Coarser tinyG (exist (res 0).1.owner) 3 := by
  obtain ⟨k, s, res, h1, h2, h3, h4, h6, h5, h7⟩ := tiny_family_unrefine
  obtain ⟨w, hi⟩ := h1.reachable.inv tiny_wf (by omega)
  have h8 := C56_requested_unrefinement tiny_wf h1 h2 (by decide) h3 h4 h5 0 (fun b hb _ _ _ => h7 0 b hb)
  have h9 := (h8.2 3 (by decide)).1
  exact ⟨k, s, res, tiny_wf, h1, h6, h5, h9,
    ⟨1, tinyG.idx 3, h8.1, by unfold Cfg.Mem; decide, by unfold Cfg.Mem; decide, by decide⟩⟩

end Dccrg
