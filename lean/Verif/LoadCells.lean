import Verif.History
/-!
# `load_cells`

Model of `load_cells` and of the functions it uses (dccrg.hpp:3658-3793).
-/
namespace Dccrg
open Cfg
variable {n : Nat} {D W : Type} {g : Cfg} {dflt : D} {maxTag : Nat}

/-- `get_level_0_parent` (dccrg_mapping.hpp:480-494). -/
def Cfg.root (g : Cfg) (c : Nat) : Nat :=
  if ¬ g.Valid c then 0 else if g.lvl c = 0 then c else g.cellAt 0 (g.idx c)

/-- `cell_overlaps_local` (dccrg.hpp:3658-3677) of process `i`, `w` is its `cell_process`. -/
def overlapsLocal (g : Cfg) (i : Fin n) (w : Owner n) (c : Nat) : Bool := w (g.root c) = some i

/-- `get_cells_overlapping_local` (dccrg.hpp:3685-3707). A list in some order instead of an unordered set, repeated
elements make no difference. -/
def overlappingLocal (g : Cfg) (i : Fin n) (w : Owner n) (given : List Nat) : List Nat :=
  given.filter (overlapsLocal g i w)

/-- Insertions of one cell into `cells_and_parents` (dccrg.hpp:3773-3779): pairs of refinement level and cell. First
argument is `i + 1`. -/
def parentsOf (g : Cfg) : Nat → Nat → List (Nat × Nat)
  | 0, _ => []
  | i + 1, child => (i, g.parent child) :: parentsOf g i (g.parent child)

/-- `cells_and_parents[l]` (dccrg.hpp:3767-3780). -/
def cellsAndParents (g : Cfg) (overlapping : List Nat) (l : Nat) : List Nat :=
  ((overlapping.flatMap fun c => parentsOf g (g.lvl c) c).filter fun x => x.1 = l).map Prod.snd

/-- `local_max_ref_lvl_of_overlapping` (dccrg.hpp:3739-3744). -/
def maxLvlOf (g : Cfg) (overlapping : List Nat) : Nat := overlapping.foldl (fun m c => max (g.lvl c) m) 0

/-- Result of `MPI_Allreduce` with `MPI_MAX` (dccrg.hpp:3746-3754). -/
def maxOver (f : Fin n → Nat) : Nat := (List.finRange n).foldl (fun m i => max (f i) m) 0

/-- Operations one after another. -/
def run (g : Cfg) (dflt : D) (maxTag : Nat) : Sys n D W → List (Op n D W) → Out (Sys n D W)
  | s, [] => .ok s
  | s, op :: ops => (step g dflt maxTag s op).bind fun s' => run g dflt maxTag s' ops

/-- One iteration of the last loop (dccrg.hpp:3782-3790) on all processes: process `i` refines cells `par i`.
`refine_completely` does not communicate, so the order of processes does not matter; here processes refine one after
another. -/
def loadLevel (par : Fin n → List Nat) : List (Op n D W) :=
  ((List.finRange n).flatMap fun i => (par i).map (Op.refine i)) ++ .stop false ::
    (List.finRange n).map Op.clearRefined

/-- Calls made by `load_cells` (dccrg.hpp:3724-3793) on all processes, process `i` is given cells `given i`.
`ord i` is the order in which an unordered set of process `i` is iterated. -/
def loadOps (g : Cfg) (ord : Fin n → List Nat → List Nat) (s : Sys n D W) (given : Fin n → List Nat) :
    List (Op n D W) :=
  let overlapping := fun i => overlappingLocal g i (s i).owner (given i)
  (List.range (maxOver fun i => maxLvlOf g (overlapping i))).flatMap fun l =>
    loadLevel fun i => ord i (cellsAndParents g (overlapping i) l)

/-- `load_cells` (dccrg.hpp:3724-3793); returns true if it returns. -/
def loadCells (g : Cfg) (dflt : D) (maxTag : Nat) (ord : Fin n → List Nat → List Nat) (s : Sys n D W)
    (given : Fin n → List Nat) : Out (Sys n D W) :=
  run g dflt maxTag s (loadOps g ord s given)

/-! ## Maxima -/

theorem foldl_max {α : Type} (f : α → Nat) (l : List α) (m : Nat) :
    m ≤ l.foldl (fun m c => max (f c) m) m ∧ (∀ c ∈ l, f c ≤ l.foldl (fun m c => max (f c) m) m) := by
  induction l generalizing m with
  | nil => exact ⟨Nat.le_refl _, nofun⟩
  | cons a l ih =>
    rw [List.foldl_cons]
    obtain ⟨h1, h2⟩ := ih (max (f a) m)
    refine ⟨by omega, fun c hc => ?_⟩
    rcases List.mem_cons.1 hc with h | h
    · subst h; omega
    · exact h2 c h

theorem le_maxOver (f : Fin n → Nat) (i : Fin n) : f i ≤ maxOver f := (foldl_max f _ 0).2 i (List.mem_finRange i)

theorem le_maxLvlOf {l : List Nat} {c : Nat} (h : c ∈ l) : g.lvl c ≤ maxLvlOf g l := (foldl_max g.lvl l 0).2 c h

/-! ## Parents -/

/-- Cells of level `l` with parents of `c`. -/
theorem mem_parentsOf (hw : g.WF) {c : Nat} (h : g.Valid c) {k : Nat} (hk : k = g.lvl c) {l x : Nat} :
    (l, x) ∈ parentsOf g k c ↔ l < g.lvl c ∧ g.Valid x ∧ g.lvl x = l ∧ g.Mem (g.idx c) x := by
  induction k generalizing c with
  | zero =>
    rw [parentsOf]
    constructor
    · nofun
    · rintro ⟨h1, -⟩; omega
  | succ k ih =>
    rw [parentsOf]
    have hp := parent_valid hw h
    have hlp := lvl_parent hw h
    have hm := mem_parent hw h (mem_idx c)
    rw [List.mem_cons, ih hp (by omega)]
    constructor
    · rintro (h1 | ⟨h1, h2, h3, h4⟩)
      · injection h1 with h1 h2
        subst h1 h2
        exact ⟨by omega, hp, by omega, hm⟩
      · exact ⟨by omega, h2, h3, nested hw h2 hp (by omega) h4 (mem_idx _) hm⟩
    · rintro ⟨h1, h2, h3, h4⟩
      by_cases e : l = k
      · left
        rw [eq_of_mem_lvl hw h2 hp (by omega) h4 hm, e]
      · right
        exact ⟨by omega, h2, h3, nested hw h2 hp (by omega) h4 hm (mem_idx _)⟩

theorem mem_cellsAndParents (hw : g.WF) {L : List Nat} (hL : ∀ c ∈ L, g.Valid c) {l x : Nat} :
    x ∈ cellsAndParents g L l ↔
      g.Valid x ∧ g.lvl x = l ∧ ∃ c ∈ L, l < g.lvl c ∧ g.Mem (g.idx c) x := by
  unfold cellsAndParents
  simp only [List.mem_map, List.mem_filter, List.mem_flatMap, decide_eq_true_eq]
  constructor
  · rintro ⟨⟨a, b⟩, ⟨⟨c, h1, h2⟩, h3⟩, h4⟩
    simp only [] at h3 h4
    subst h3 h4
    obtain ⟨e1, e2, e3, e4⟩ := (mem_parentsOf hw (hL c h1) rfl).1 h2
    exact ⟨e2, e3, c, h1, e1, e4⟩
  · rintro ⟨h1, h2, c, h3, h4, h5⟩
    exact ⟨(l, x), ⟨⟨c, h3, (mem_parentsOf hw (hL c h3) rfl).2 ⟨h4, h1, h2, h5⟩⟩, rfl⟩, rfl⟩

/-! ## Level 0 parents -/

theorem root_spec (hw : g.WF) {c : Nat} (h : g.Valid c) :
    g.Valid (g.root c) ∧ g.lvl (g.root c) = 0 ∧ g.Mem (g.idx c) (g.root c) := by
  unfold Cfg.root
  rw [if_neg (by simpa using h)]
  split
  · rename_i e; exact ⟨h, e, mem_idx c⟩
  · have hp := idx_inGrid hw h
    have hv := cellAt_valid (g := g) hp (Nat.zero_le _)
    exact ⟨hv, lvl_cellAt hp (Nat.zero_le _), (mem_iff_cellAt hw hv hp).2 (by rw [lvl_cellAt hp (Nat.zero_le _)])⟩

/-- Cells inside of a cell have the same level 0 parent. -/
theorem root_eq (hw : g.WF) {a b : Nat} (ha : g.Valid a) (hb : g.Valid b) (hl : g.lvl a ≤ g.lvl b)
    (hm : g.Mem (g.idx b) a) : g.root b = g.root a := by
  obtain ⟨a1, a2, a3⟩ := root_spec hw ha
  obtain ⟨b1, b2, b3⟩ := root_spec hw hb
  have := nested hw a1 ha (by omega) a3 (mem_idx a) hm
  exact eq_of_mem_lvl hw b1 a1 (by omega) b3 this

theorem root_self (hw : g.WF) {c : Nat} (h : g.Valid c) (hl : g.lvl c = 0) : g.root c = c := by
  unfold Cfg.root
  rw [if_neg (by simpa using h), if_pos hl]

theorem root_invalid {c : Nat} (h : ¬ g.Valid c) : g.root c = 0 := if_pos h

/-! ## Running operations -/

theorem run_append (s : Sys n D W) (a b : List (Op n D W)) :
    run g dflt maxTag s (a ++ b) = (run g dflt maxTag s a).bind fun s' => run g dflt maxTag s' b := by
  induction a generalizing s with
  | nil => rfl
  | cons op a ih =>
    rw [List.cons_append, run, run]
    cases h : step g dflt maxTag s op with
    | ok s' => exact ih s'
    | throws => rfl
    | hangs => rfl
    | undef => rfl

/-- Nothing but refinement has been requested. -/
def Calls.Only (k : Calls) (R : Nat → Prop) : Prop :=
  (∀ c, k.refine c ↔ R c) ∧ (∀ c, ¬ k.unrefine c) ∧ (∀ c, ¬ k.dontRefine c) ∧ ∀ c, ¬ k.dontUnrefine c

/-- Nothing has been requested since cells were last refined. -/
def Unasked (g : Cfg) (dflt : D) (maxTag : Nat) (s : Sys n D W) : Prop :=
  ∃ k, History g dflt maxTag k s ∧ k.Only fun _ => False

theorem Unasked.reachable {s : Sys n D W} (h : Unasked g dflt maxTag s) : Reachable g dflt maxTag s := by
  obtain ⟨k, h, -⟩ := h
  exact h.reachable

/-- Requests of process `i` are accepted. -/
theorem run_refine (hw : g.WF) {w : Owner n} {s : Sys n D W} {k : Calls} {R : Nat → Prop}
    (h : History g dflt maxTag k s) (hk : k.Only R) (ho : ∀ j, (s j).owner = w) (L : List (Fin n × Nat))
    (hL : ∀ x ∈ L, w x.2 = some x.1 ∧ g.lvl x.2 < g.maxLvl) :
    ∃ s' k', run g dflt maxTag s (L.map fun x => Op.refine x.1 x.2) = .ok s' ∧ History g dflt maxTag k' s' ∧
      k'.Only (fun c => R c ∨ ∃ i, (i, c) ∈ L) ∧ ∀ j, (s' j).owner = w ∧ (s' j).data = (s j).data := by
  induction L generalizing s k R with
  | nil =>
    refine ⟨s, k, rfl, h, ⟨fun c => ?_, hk.2⟩, fun j => ⟨ho j, rfl⟩⟩
    rw [hk.1]
    exact ⟨Or.inl, fun h => h.elim id (by rintro ⟨i, hi⟩; cases hi)⟩
  | cons x L ih =>
    obtain ⟨i, c⟩ := x
    obtain ⟨h1, h2⟩ := hL _ List.mem_cons_self
    simp only [] at h1 h2
    obtain ⟨w', hi, hst⟩ := h.stored hw (by have := i.2; omega)
    have : w' = w := by rw [← hi.sys.owner i, ho]
    subst this
    have hr : ¬ Refused g w' (s i).req c := by
      rintro (h | ⟨b, -, -, -, h⟩)
      · exact hk.2.2.1 _ (hst.dontRefine' i _ h)
      · exact hk.2.2.1 _ (hst.dontRefine' i _ h)
    have e := refineCompletely_ok hw hi.sys.tiled hi.sys.balanced (hi.sys.placed i) h1 h2 hr
    have hsays : SaysRefine g (s i) c := by
      unfold SaysRefine
      rw [ho i]; exact ⟨_, e⟩
    obtain ⟨s1, e1, e1d⟩ : ∃ s1, step g dflt maxTag s (.refine i c) = .ok s1 ∧ ∀ j, (s1 j).data = (s j).data := by
      show ∃ s1, s.ask i (refineCompletely g (exist (s i).owner) _ (s i).req c) = .ok s1 ∧ _
      rw [ho i]
      unfold Sys.ask
      rw [e]
      refine ⟨_, rfl, fun j => ?_⟩
      unfold Sys.set
      split
      · rename_i e; subst e; rfl
      · rfl
    have hk1 : (k.add g s (.refine i c)).Only (fun x => R x ∨ x = c) := by
      refine ⟨fun x => ?_, fun x => ?_, fun x => ?_, fun x => ?_⟩
      · show (k.refine x ∨ ∃ j, _ = Op.refine j x ∧ SaysRefine g (s j) x) ↔ _
        rw [hk.1]
        constructor
        · rintro (h | ⟨j, h, -⟩)
          · exact Or.inl h
          · injection h with _ h; exact Or.inr h.symm
        · rintro (h | h)
          · exact Or.inl h
          · subst h; exact Or.inr ⟨i, rfl, hsays⟩
      · rintro (h | ⟨j, h, -⟩)
        · exact hk.2.1 _ h
        · cases h
      · rintro (h | ⟨j, h, -⟩)
        · exact hk.2.2.1 _ h
        · cases h
      · rintro (h | ⟨j, h, -⟩)
        · exact hk.2.2.2 _ h
        · cases h
    obtain ⟨s', k', e2, e3, e4, e5⟩ := ih (s := s1) (k := k.add g s (.refine i c)) (R := fun x => R x ∨ x = c)
      (.call _ h trivial e1) hk1 (fun j => by rw [(step_quiet (.refine i c) trivial e1 j).1, ho])
      (fun x hx => hL x (List.mem_cons_of_mem _ hx))
    · refine ⟨s', k', ?_, e3, ⟨fun x => ?_, e4.2⟩, fun j => ⟨(e5 j).1, (e5 j).2.trans (e1d j)⟩⟩
      · rw [List.map_cons, run]
        simp only []
        rw [e1]
        exact e2
      · rw [e4.1]
        simp only [List.mem_cons]
        constructor
        · rintro ((h | h) | ⟨j, h⟩)
          · exact Or.inl h
          · exact Or.inr ⟨i, Or.inl (by rw [h])⟩
          · exact Or.inr ⟨j, Or.inr h⟩
        · rintro (h | ⟨j, h | h⟩)
          · exact Or.inl (Or.inl h)
          · injection h with _ h
            exact Or.inl (Or.inr h)
          · exact Or.inr ⟨j, h⟩

theorem run_clear {w : Owner n} {s : Sys n D W} {k : Calls} {R : Nat → Prop} (h : History g dflt maxTag k s)
    (hk : k.Only R) (ho : ∀ j, (s j).owner = w) (L : List (Fin n)) :
    ∃ s' k', run g dflt maxTag s (L.map Op.clearRefined) = .ok s' ∧ History g dflt maxTag k' s' ∧ k'.Only R ∧
      (∀ j, (s' j).owner = w) ∧ (∀ j, (s' j).data = (s j).data ∧ (s' j).hoods = (s j).hoods) := by
  induction L generalizing s k with
  | nil => exact ⟨s, k, rfl, h, hk, ho, fun _ => ⟨rfl, rfl⟩⟩
  | cons i L ih =>
    have e1 : step g dflt maxTag s (.clearRefined i) = .ok (s.set i (Dccrg.clearRefined (s i))) := rfl
    have hk1 : (k.add g s (.clearRefined i)).Only R := by
      refine ⟨fun x => ?_, fun x => ?_, fun x => ?_, fun x => ?_⟩
      · rw [← hk.1]
        exact ⟨fun h => h.elim id (by rintro ⟨j, h, -⟩; cases h), Or.inl⟩
      · rintro (h | ⟨j, h, -⟩)
        · exact hk.2.1 _ h
        · cases h
      · rintro (h | ⟨j, h, -⟩)
        · exact hk.2.2.1 _ h
        · cases h
      · rintro (h | ⟨j, h, -⟩)
        · exact hk.2.2.2 _ h
        · cases h
    obtain ⟨s', k', e2, e3, e4, e5, e6⟩ := ih (s := s.set i (Dccrg.clearRefined (s i))) (k := k.add g s (.clearRefined i))
      (.call (.clearRefined i) h trivial e1) hk1
      (fun j => by rw [(step_quiet (.clearRefined i) trivial e1 j).1, ho])
    · refine ⟨s', k', ?_, e3, e4, e5, fun j => ?_⟩
      · rw [List.map_cons, run, e1]; exact e2
      · rw [(e6 j).1, (e6 j).2]
        unfold Sys.set
        split
        · rename_i e; subst e; exact ⟨rfl, rfl⟩
        · exact ⟨rfl, rfl⟩

end Dccrg
