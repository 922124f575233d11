import Verif.LoadLevels
import Verif.Demo
/-!
# C43: loading a list of cells creates exactly that grid

`X` are the cells that should exist; they tile the grid (`Tiled`, Verif/Grid.lean) and are balanced (`BalancedFor`,
Verif/NbrSix.lean), as cells of every grid are (C13, C14). Requests of earlier calls have not been made (`Calls.Only`),
processes iterate their sets of cells in any order `ord`.
-/
namespace Dccrg
open Cfg
variable {n : Nat} {D W : Type} {g : Cfg} {dflt : D} {maxTag : Nat} {X : Nat → Bool}

/-- The unrefined grid as the first step. -/
theorem atLevel_zero (hw : g.WF) (hn : 0 < n) {k : Calls} {s : Sys n D W}
    (h : History g dflt maxTag k s) (hk : k.Only fun _ => False)
    (h0 : ∀ j c, exist (s j).owner c = true → g.lvl c = 0) (hX : Tiled g X) (i : Fin n) :
    AtLevel g dflt maxTag X (s i).owner (fun j => (s j).data) 0 s := by
  obtain ⟨w, hi, -⟩ := h.stored hw hn
  have ho := hi.sys.owner
  refine ⟨⟨k, h, hk⟩, fun j c => ?_, fun j c hc => ?_, ⟨_, fun j => hi.hoods j i⟩, fun j c hc => ?_⟩
  · constructor
    · intro hc
      have hl := h0 j c hc
      rw [ho] at hc
      have hv := hi.sys.tiled.valid c hc
      refine ⟨hv, ?_⟩
      obtain ⟨y, y1, y2⟩ := hX.cover _ (idx_inGrid hw hv)
      rcases or_split hw hX hv y1 (by omega) (mem_idx c) y2 with h | h
      · exact Or.inl ⟨h, by omega⟩
      · exact Or.inr ⟨hl, h⟩
    · rintro ⟨h1, h2⟩
      have hl : g.lvl c = 0 := by
        rcases h2 with ⟨-, h2⟩ | ⟨h2, -⟩ <;> omega
      rw [ho]
      obtain ⟨y, y1, y2⟩ := hi.sys.tiled.cover _ (idx_inGrid hw h1)
      have hy := h0 j y (by rw [ho]; exact y1)
      rw [eq_of_mem_lvl hw h1 (hi.sys.tiled.valid y y1) (by omega) (mem_idx c) y2]
      exact y1
  · have hl := h0 j c hc
    rw [ho] at hc ⊢
    rw [ho, root_self hw (hi.sys.tiled.valid c hc) hl]
  · rw [if_pos (h0 j c (exist_of hc))]

/-- Cells and data after `load_cells`, and there are no requests. -/
theorem loadCells_unasked (hw : g.WF) (hn : 0 < n) (hm : g.last ≤ maxTag) {k : Calls} {s : Sys n D W}
    (h : History g dflt maxTag k s) (hk : k.Only fun _ => False)
    (h0 : ∀ j c, exist (s j).owner c = true → g.lvl c = 0) (hX : Tiled g X) (hb : BalancedFor g X (hoodOf g))
    {ord : Fin n → List Nat → List Nat} (hord : ∀ i l x, x ∈ ord i l ↔ x ∈ l) {given : Fin n → List Nat}
    (hgiven : ∀ i c, (s i).owner (g.root c) = some i → (c ∈ given i ↔ X c = true)) :
    ∃ s', loadCells g dflt maxTag ord s given = .ok s' ∧ Unasked g dflt maxTag s' ∧
      ∀ j c, exist (s' j).owner c = X c ∧ (X c = true → (s' j).owner c = (s j).owner (g.root c)) ∧
        ((s' j).owner c = some j → (s' j).data c = if g.lvl c = 0 then (s j).data c else some dflt) := by
  obtain ⟨w, hi, -⟩ := h.stored hw hn
  have ho := hi.sys.owner
  have hroot : ∀ c, g.Valid c → ∃ i, w (g.root c) = some i := by
    intro c hc
    obtain ⟨r1, r2, r3⟩ := root_spec hw hc
    obtain ⟨y, y1, y2⟩ := hi.sys.tiled.cover _ (idx_inGrid hw r1)
    have hy := h0 ⟨0, hn⟩ y (by rw [ho]; exact y1)
    rw [eq_of_mem_lvl hw r1 (hi.sys.tiled.valid y y1) (by omega) (mem_idx _) y2]
    exact Option.isSome_iff_exists.1 y1
  have hover : ∀ i c, c ∈ overlappingLocal g i (s i).owner (given i) ↔ X c = true ∧ w (g.root c) = some i := by
    intro i c
    unfold overlappingLocal
    rw [List.mem_filter]
    unfold overlapsLocal
    rw [decide_eq_true_eq, ho]
    constructor
    · rintro ⟨h1, h2⟩; exact ⟨(hgiven i c (by rw [ho]; exact h2)).1 h1, h2⟩
    · rintro ⟨h1, h2⟩; exact ⟨(hgiven i c (by rw [ho]; exact h2)).2 h1, h2⟩
  have hall : ∀ m, ∃ s', run g dflt maxTag s ((List.range m).flatMap fun l => loadLevel fun i =>
      ord i (cellsAndParents g (overlappingLocal g i (s i).owner (given i)) l)) = .ok s' ∧
      AtLevel g dflt maxTag X w (fun j => (s j).data) m s' := by
    intro m
    induction m with
    | zero =>
      refine ⟨s, rfl, ?_⟩
      have := atLevel_zero hw hn h hk h0 hX ⟨0, hn⟩
      rwa [ho] at this
    | succ m ih =>
      obtain ⟨s1, e1, e2⟩ := ih
      obtain ⟨s2, e3, e4⟩ := e2.next hw hn hm hX hb (par := fun i =>
          ord i (cellsAndParents g (overlappingLocal g i (s i).owner (given i)) m)) (by
        intro i c
        rw [hord, mem_cellsAndParents hw (fun c hc => hX.valid c ((hover i c).1 hc).1)]
        constructor
        · rintro ⟨b1, b2, x, b3, b4, b5⟩
          obtain ⟨c1, c2⟩ := (hover i x).1 b3
          refine ⟨b1, b2, ⟨x, c1, by omega, b5⟩, ?_⟩
          rw [← root_eq hw b1 (hX.valid x c1) (by omega) b5]; exact c2
        · rintro ⟨b1, b2, ⟨x, b3, b4, b5⟩, b6⟩
          refine ⟨b1, b2, x, (hover i x).2 ⟨b3, ?_⟩, by omega, b5⟩
          rw [root_eq hw b1 (hX.valid x b3) (by omega) b5]; exact b6)
      refine ⟨s2, ?_, e4⟩
      rw [List.range_succ, List.flatMap_append, run_append, e1, List.flatMap_singleton]
      exact e3
  obtain ⟨s', e1, e2⟩ := hall (maxOver fun i => maxLvlOf g (overlappingLocal g i (s i).owner (given i)))
  refine ⟨s', e1, ?_, fun j c => ?_⟩
  · exact e2.history
  · have hle : ∀ x, X x = true → g.lvl x ≤ maxOver fun i => maxLvlOf g (overlappingLocal g i (s i).owner (given i)) := by
      intro x hx
      obtain ⟨i, hr⟩ := hroot x (hX.valid x hx)
      exact Nat.le_trans (le_maxLvlOf ((hover i x).2 ⟨hx, hr⟩))
        (le_maxOver (fun i => maxLvlOf g (overlappingLocal g i (s i).owner (given i))) i)
    have hiff : exist (s' j).owner c = true ↔ X c = true := by
      rw [e2.cells]
      constructor
      · rintro ⟨b1, ⟨b2, -⟩ | ⟨b2, x, b3, b4, -⟩⟩
        · exact b2
        · have := hle x b3; omega
      · intro hc
        exact ⟨hX.valid c hc, Or.inl ⟨hc, hle c hc⟩⟩
    refine ⟨Bool.eq_iff_iff.2 hiff, fun hc => ?_, e2.data j c⟩
    rw [e2.owner j c (hiff.2 hc), ho]

/-- C43: `load_cells` makes exactly cells `X` exist. Each process has been given those cells of `X` that are inside of its
(level 0) cells, and any other cells. Cells are created where the cells containing them were, with default constructed data; data of cells that are not refined do
not change. -/
theorem C43_load_cells (hw : g.WF) (hn : 0 < n) (hm : g.last ≤ maxTag) {k : Calls} {s : Sys n D W}
    (h : History g dflt maxTag k s) (hk : k.Only fun _ => False)
    (h0 : ∀ j c, exist (s j).owner c = true → g.lvl c = 0) (hX : Tiled g X) (hb : BalancedFor g X (hoodOf g))
    {ord : Fin n → List Nat → List Nat} (hord : ∀ i l x, x ∈ ord i l ↔ x ∈ l) {given : Fin n → List Nat}
    (hgiven : ∀ i c, (s i).owner (g.root c) = some i → (c ∈ given i ↔ X c = true)) :
    ∃ s', loadCells g dflt maxTag ord s given = .ok s' ∧ Reachable g dflt maxTag s' ∧
      ∀ j c, exist (s' j).owner c = X c ∧ (X c = true → (s' j).owner c = (s j).owner (g.root c)) ∧
        ((s' j).owner c = some j → (s' j).data c = if g.lvl c = 0 then (s j).data c else some dflt) := by
  obtain ⟨s', h1, h2, h3⟩ := loadCells_unasked hw hn hm h hk h0 hX hb hord hgiven
  exact ⟨s', h1, h2.reachable, h3⟩

/-- Cells 2 and children of cell 1 of the demo are loaded into a new grid. -/
example : ∃ (s : Sys 2 Nat Nat) (X : Nat → Bool), History tinyG 0 146 Calls.none s ∧
    (∀ j c, exist (s j).owner c = true → tinyG.lvl c = 0) ∧ Tiled tinyG X ∧ BalancedFor tinyG X (hoodOf tinyG) ∧
    X 1 = false ∧ X 2 = true ∧ X 3 = true ∧ tinyG.last ≤ 146 := by
  obtain ⟨s, h1, h2, h3, h4, h5⟩ := tiny_init
  obtain ⟨k, t, t1, t2, t3, t4⟩ := tiny_family
  obtain ⟨w, hi, -⟩ := t1.stored tiny_wf (by omega)
  have ho := hi.sys.owner
  refine ⟨s, exist w, .init h1, ?_, hi.sys.tiled, (balanced_iff tiny_wf hi.sys.tiled).1 hi.sys.balanced, ?_, ?_, ?_, by decide⟩
  · intro j c hc
    rw [h3.sys.owner, createLevel0_exist (by omega)] at hc
    exact (lvl_level0 (g := tinyG) hc.1 hc.2).2
  · apply Bool.eq_false_iff.2
    intro h
    rw [← ho 0] at h
    have := t4 0 1 h
    revert this
    decide
  · obtain ⟨y, y1, y2⟩ := hi.sys.tiled.cover (tinyG.idx 2) (by unfold InGrid; rw [forall_fin3]; decide)
    rw [← ho 0] at y1
    rcases t4 0 y y1 with e | e
    · subst e; rw [ho] at y1; exact y1
    · exfalso
      revert y2
      have : ∀ y ∈ tinyG.children 1, ¬ tinyG.Mem (tinyG.idx 2) y := by decide
      exact this y e
  · have := t3 0 3 (by decide)
    rw [ho] at this
    unfold exist
    rw [this]; rfl

end Dccrg
