import Verif.Props.Lists
import Verif.Props.StretchedError
/-!
# C71, C95, C96: functions that take a coordinate

`get_existing_cell`, `refine_completely_at`, `unrefine_completely_at` and `dont_unrefine_at` for all geometries, with
exact numbers and with numbers of type `double`.
-/
namespace Dccrg
open Cfg

/-- Specification: for coordinates with given indices the cell `c` is the smallest existing one, and what is requested at
the coordinate is what is requested for `c`. -/
structure ActsOn (g : Cfg) (E has : Nat → Bool) (p : V3 Nat) (c : Nat) : Prop where
  existing : existingAt g E p = c
  refine : ∀ r, refineAt g E has r p = refineCompletely g E has r c
  unrefine : ∀ r, unrefineAt g E has r p = unrefineCompletely g E has r c
  dontUnrefine : ∀ r, dontUnrefineAt g E r p = dontUnrefine g E r c

/-- Specification: no cell exists at coordinates with given indices, requests at the coordinate return false and change
nothing. -/
structure ActsOnNone (g : Cfg) (E has : Nat → Bool) (p : V3 Nat) : Prop where
  existing : existingAt g E p = errorCell
  refine : ∀ r, refineAt g E has r p = .ok (false, r)
  unrefine : ∀ r, unrefineAt g E has r p = .ok (false, r)
  dontUnrefine : ∀ r, dontUnrefineAt g E r p = .ok (false, r)

theorem ActsOn.of {g : Cfg} {E has : Nat → Bool} {p : V3 Nat} {c : Nat} (h : existingAt g E p = c) (hc : c ≠ errorCell) :
    ActsOn g E has p c where
  existing := h
  refine r := by unfold refineAt; rw [h, if_neg hc]
  unrefine r := by unfold unrefineAt; rw [h, if_neg hc]
  dontUnrefine r := by unfold dontUnrefineAt; rw [h, if_neg hc]

theorem ActsOnNone.of {g : Cfg} {E has : Nat → Bool} {p : V3 Nat} (h : existingAt g E p = errorCell) :
    ActsOnNone g E has p where
  existing := h
  refine r := by unfold refineAt; rw [if_pos h]
  unrefine r := by unfold unrefineAt; rw [if_pos h]
  dontUnrefine r := by unfold dontUnrefineAt; rw [if_pos h]

section
variable {m : Mapping} {per : V3 Bool} {hood : Nat} {n : Nat} {D W : Type} {s : Sys n D W} {dflt : D} {maxTag : Nat}

theorem existing_valid (h : m.OK) (hs : Reachable (m.grid per hood) dflt maxTag s) {i : Fin n} {c : Nat}
    (hc : exist (s i).owner c = true) : m.ValidId c ∧ c ≠ errorCell := by
  obtain ⟨w, hi⟩ := hs.inv (grid_wf h) (by have := i.2; omega)
  rw [hi.sys.owner] at hc
  have hv := grid_valid.1 (hi.sys.tiled.valid c hc)
  refine ⟨(Mapping.validId_iff h).2 hv, ?_⟩
  intro e
  subst e
  exact absurd hv.1 (by decide)

/-- C95: the existing cell found for given indices is the one which get_cell finds at the refinement level of that cell. -/
theorem C95_agrees (h : m.OK) (hs : Reachable (m.grid per hood) dflt maxTag s) (i : Fin n) (p : V3 Nat) :
    (∀ c, exist (s i).owner c = true →
      (existingAt (m.grid per hood) (exist (s i).owner) p = c ↔ m.cellFromIndices p (m.getLevel c) = c)) ∧
    (existingAt (m.grid per hood) (exist (s i).owner) p = errorCell ↔
      ∀ c, exist (s i).owner c = true → m.cellFromIndices p (m.getLevel c) ≠ c) ∧
    (existingAt (m.grid per hood) (exist (s i).owner) p = errorCell ↔ ¬ m.InsideGrid p) := by
  have hval := fun c hc => existing_valid (i := i) (c := c) h hs hc
  obtain ⟨w, hi⟩ := hs.inv (grid_wf h) (by have := i.2; omega)
  rw [hi.sys.owner i] at hval ⊢
  have ht := hi.sys.tiled
  by_cases hp : m.InsideGrid p
  · have hne : ∀ d, p d ≠ errorIndex := by
      intro d e
      have h1 : p d < m.cfg.n d := hp d
      have h2 := Cartesian.n_lt h d
      omega
    obtain ⟨b, hb, hm⟩ := ht.cover p (show (m.grid per hood).InGrid _ from hp)
    have e : existingAt (m.grid per hood) (exist w) p = b := by
      unfold existingAt
      rw [if_neg (by rintro (e | e | e) <;> exact hne _ e), existingI_eq (grid_wf h) ht hp hb hm, if_pos]
      have := lvl_le (ht.valid b hb)
      omega
    have key : ∀ c, exist w c = true → (b = c ↔ m.cellFromIndices p (m.getLevel c) = c) := by
      intro c hc
      obtain ⟨r1, r2, -⟩ := Mapping.C01_id_roundtrip h (hval c hc).1
      have hcf := Mapping.C02_index_roundtrip h (p := p) hp r1 r2
      constructor
      · rintro rfl
        exact (hcf.2.2.2.2.2 b (hval b hc).1 rfl ((Mapping.inside_iff h (hval b hc).1).2 (grid_mem.1 hm))).symm
      · intro e1
        have hin := hcf.2.2.2.2.1
        rw [e1] at hin
        exact ht.unique p b c hb hc hm
          (grid_mem.2 ((Mapping.inside_iff h (hval c hc).1).1 hin))
    rw [e]
    refine ⟨key, ⟨fun e0 => absurd e0 (hval b hb).2, fun H => absurd ((key b hb).1 rfl) (H b hb)⟩,
      ⟨fun e0 => absurd e0 (hval b hb).2, fun H => absurd hp H⟩⟩
  · have e : existingAt (m.grid per hood) (exist w) p = errorCell := by
      unfold existingAt existingI
      rw [if_pos (show ¬ (m.grid per hood).InGrid p from hp)]
      split <;> rfl
    have key : ∀ c, exist w c = true → m.cellFromIndices p (m.getLevel c) ≠ c := by
      intro c hc e1
      rw [Mapping.cellFromIndices_eq h, if_neg (fun H => hp H.1)] at e1
      exact (hval c hc).2 e1.symm
    rw [e]
    exact ⟨fun c hc => ⟨fun e0 => absurd e0.symm (hval c hc).2, fun e0 => absurd e0 (key c hc)⟩,
      ⟨fun _ => key, fun _ => rfl⟩, ⟨fun _ => hp, fun _ => rfl⟩⟩

theorem acts_of_cell (h : m.OK) (hs : Reachable (m.grid per hood) dflt maxTag s) (i : Fin n) {p : V3 Nat} {c : Nat}
    (hc : exist (s i).owner c = true) (hp : m.cellFromIndices p (m.getLevel c) = c) :
    ActsOn (m.grid per hood) (exist (s i).owner) (s i).has p c :=
  ActsOn.of (((C95_agrees h hs i p).1 c hc).2 hp) (existing_valid h hs hc).2

theorem acts_none (h : m.OK) (hs : Reachable (m.grid per hood) dflt maxTag s) (i : Fin n) {p : V3 Nat}
    (hp : ¬ m.InsideGrid p) : ActsOnNone (m.grid per hood) (exist (s i).owner) (s i).has p :=
  ActsOnNone.of ((C95_agrees h hs i p).2.2.2 hp)

end

/-! ## Exact numbers -/

section
variable {m : Mapping} {G : Cartesian} {per : V3 Bool} {hood : Nat} {n : Nat} {D W : Type} {s : Sys n D W} {dflt : D}
  {maxTag : Nat}

theorem level_range (h : m.OK) {c : Nat} (hc : m.ValidId c) : 0 ≤ m.getLevel c ∧ m.getLevel c ≤ m.maxLvl := by
  obtain ⟨r1, r2, -⟩ := Mapping.C01_id_roundtrip h hc
  exact ⟨r1, r2⟩

/-- C71: functions that take a coordinate act on the existing cell whose box contains the coordinate moved into the grid
by a multiple of the length of the grid in periodic dimensions. Missing: coordinates at the end of the grid and those a
multiple of the length of a periodic grid after its start, see `C71_end`. -/
theorem C71_periodic_partial (h : m.OK) (hG : ∀ d, 0 < G.len d) (hs : Reachable (m.grid per hood) dflt maxTag s) (i : Fin n)
    {x y : V3 Rat} {k : V3 Int} {c : Nat} (hc : exist (s i).owner c = true) (hy : InBoxQ (G.getMin m c) (G.getMax m c) y)
    (hk : ∀ d, per d = false → k d = 0) (h0 : ∀ d, ¬ (y d = G.getStart d ∧ 0 < k d))
    (hx : ∀ d, x d = y d + (k d : Rat) * (G.getEnd m d - G.getStart d)) :
    ActsOn (m.grid per hood) (exist (s i).owner) (s i).has (G.getIndices m per (nums x)) c := by
  have hv := (existing_valid h hs hc).1
  have hin : ∀ d, G.getStart d ≤ y d ∧ y d < G.getEnd m d := by
    intro d
    have := (Cartesian.mesh h hG).inside h.wf ((Mapping.validId_iff h).1 hv) hy d
    rwa [Cartesian.pos_zero, Cartesian.pos_end] at this
  refine acts_of_cell h hs i hc ?_
  rw [← getCell_valid (level_range h hv), C45_periodic_partial h hG hin hk h0 hx]
  exact C45_inside_unique h hG y hv hy

/-- What the code does at the end of the grid and a multiple of the length of the grid after it in a periodic dimension: no
cell is found, nothing is requested. -/
theorem C71_end (h : m.OK) (hG : ∀ d, 0 < G.len d) (hs : Reachable (m.grid per hood) dflt maxTag s) (i : Fin n)
    (x : V3 Rat) {d : Fin 3} {k : Nat} (hk : per d = false → k = 0)
    (hx : x d = G.getEnd m d + (k : Rat) * (G.getEnd m d - G.getStart d)) :
    ActsOnNone (m.grid per hood) (exist (s i).owner) (s i).has (G.getIndices m per (nums x)) := by
  refine acts_none h hs i fun hp => ?_
  obtain ⟨h1, -⟩ := Mapping.C02_index_roundtrip h hp (l := 0) (by omega) h.nonneg
  rw [← getCell_valid ⟨by omega, h.nonneg⟩, C45_end h hG x hk hx] at h1
  exact absurd ((Mapping.validId_iff h).1 h1).1 (by decide)

/-- C71 for `No_Geometry`. Missing: the end of the grid. -/
theorem C71_no_geometry_partial (h : m.OK) (hs : Reachable (m.grid per hood) dflt maxTag s) (i : Fin n)
    (x : V3 Rat) (hx : ∀ d, 0 ≤ x d ∧ x d < (m.len d : Rat)) :
    ∃ c, exist (s i).owner c = true ∧ InBoxQ (NoGeometry.getMin m c) (NoGeometry.getMax m c) x ∧
      ActsOn (m.grid per hood) (exist (s i).owner) (s i).has (NoGeometry.getIndices m per (nums x)) c := by
  have h1 : ∀ d, 0 < Cartesian.init.len d := fun d => by show (0 : Rat) < 1; decide
  have h2 : ∀ d, Cartesian.init.getStart d ≤ x d ∧ x d < Cartesian.init.getEnd m d := by
    intro d
    rw [Cartesian.getStart_eq, Cartesian.getEnd_eq]
    have := hx d
    simp only [Cartesian.init]
    grind
  obtain ⟨a, b⟩ := C45_existing_partial h h1 hs i x h2
  refine ⟨_, a, ?_, ActsOn.of ?_ (existing_valid h hs a).2⟩
  · rw [NoGeometry.getMin_eq, NoGeometry.getMax_eq]; exact b
  · rw [NoGeometry.getIndices_eq]
end

section
variable {m : Mapping} {G : Stretched} {per : V3 Bool} {hood : Nat} {n : Nat} {D W : Type} {s : Sys n D W} {dflt : D}
  {maxTag : Nat}

/-- C71 for stretched geometry: functions that take a coordinate act on the existing cell whose box contains it. Missing:
coordinates equal to the start of the grid in some dimension, for which `get_indices` is undefined (`C47_start`). -/
theorem C71_stretched_partial (h : m.OK) (hG : G.Ok m) (hs : Reachable (m.grid per hood) dflt maxTag s) (i : Fin n)
    (x : V3 Rat) (hx : ∀ d, G.getStart d < x d ∧ x d ≤ G.getEnd m d) :
    ∃ c p, exist (s i).owner c = true ∧ InBoxL (G.getMin m c) (G.getMax m c) x ∧
      (∀ d, G.getIndices m (nums x) d = .at (p d)) ∧
      ActsOn (m.grid per hood) (exist (s i).owner) (s i).has p c := by
  obtain ⟨p, h1, h2, h3⟩ := indices_at h hG x hx
  obtain ⟨w, hi⟩ := hs.inv (grid_wf h) (by have := i.2; omega)
  obtain ⟨b, hb, hm⟩ := hi.sys.tiled.cover p (show (m.grid per hood).InGrid _ from h2)
  have hb' : exist (s i).owner b = true := by rw [hi.sys.owner]; exact hb
  have hv := (existing_valid h hs hb').1
  have hm' := grid_mem.1 hm
  refine ⟨b, p, hb', ((Stretched.mesh h hG).mem_iffL h.wf h2 h3 ((Mapping.validId_iff h).1 hv)).2 hm', h1,
    acts_of_cell h hs i hb' ?_⟩
  obtain ⟨r1, r2⟩ := level_range h hv
  exact ((Mapping.C02_index_roundtrip h (p := p) h2 r1 r2).2.2.2.2.2 b hv rfl
    ((Mapping.inside_iff h hv).2 hm')).symm
end

/-! ## Numbers of type `double` -/

section
variable {m : Mapping} {per : V3 Bool} {hood : Nat} {n : Nat} {D W : Type} {s : Sys n D W} {dflt : D} {maxTag : Nat}
  {i : Fin n} {c : Nat}

/-- C95: if `get_cell` of the geometry finds an existing cell at a coordinate when asked for its refinement level, then the
functions that take a coordinate act on that cell. Any parameters, any coordinate. -/
theorem C95_cartesian (h : m.OK) (hs : Reachable (m.grid per hood) dflt maxTag s) (G : CartesianD) {x : V3 Val}
    (hc : exist (s i).owner c = true) (hx : G.getCell m per (m.getLevel c) x = some c) :
    ∃ p, G.getIndices m per x = some p ∧ ActsOn (m.grid per hood) (exist (s i).owner) (s i).has p c := by
  obtain ⟨r1, r2⟩ := level_range h (existing_valid h hs hc).1
  unfold CartesianD.getCell at hx
  rw [if_neg (by omega)] at hx
  obtain ⟨p, h1, h2⟩ := Option.map_eq_some_iff.1 hx
  exact ⟨p, h1, acts_of_cell h hs i hc h2⟩

/-- C95 for `No_Geometry`. -/
theorem C95_no_geometry (h : m.OK) (hs : Reachable (m.grid per hood) dflt maxTag s) {x : V3 Val}
    (hc : exist (s i).owner c = true) (hx : NoGeometryD.getCell m per (m.getLevel c) x = some c) :
    ∃ p, NoGeometryD.getIndices m per x = some p ∧ ActsOn (m.grid per hood) (exist (s i).owner) (s i).has p c := by
  obtain ⟨r1, r2⟩ := level_range h (existing_valid h hs hc).1
  unfold NoGeometryD.getCell at hx
  rw [if_neg (by omega)] at hx
  obtain ⟨p, h1, h2⟩ := Option.map_eq_some_iff.1 hx
  exact ⟨p, h1, acts_of_cell h hs i hc h2⟩

/-- C95 for stretched geometry. -/
theorem C95_stretched (h : m.OK) (hs : Reachable (m.grid per hood) dflt maxTag s) (G : StretchedD) {x : V3 Val}
    (hc : exist (s i).owner c = true) (hx : G.getCell m (m.getLevel c) x = .ok c) :
    ∃ p, G.getIndices m x = .ok p ∧ ActsOn (m.grid per hood) (exist (s i).owner) (s i).has p c := by
  obtain ⟨r1, r2⟩ := level_range h (existing_valid h hs hc).1
  unfold StretchedD.getCell at hx
  rw [if_neg (by omega)] at hx
  cases e : G.getIndices m x with
  | ok p =>
    rw [e] at hx
    exact ⟨p, rfl, acts_of_cell h hs i hc (Res.ok.inj hx)⟩
  | undefined => rw [e] at hx; cases hx
  | hangs => rw [e] at hx; cases hx

/-- C95: if `get_cell` doesn't find any existing cell at a coordinate when asked for its refinement level, then the functions
that take a coordinate return false and do nothing. Any parameters of any geometry, any coordinate. -/
theorem C95_none (h : m.OK) (hs : Reachable (m.grid per hood) dflt maxTag s) {x : V3 Val} {p : V3 Nat} :
    (∀ G : CartesianD, G.getIndices m per x = some p →
      (∀ c, exist (s i).owner c = true → G.getCell m per (m.getLevel c) x ≠ some c) →
      ActsOnNone (m.grid per hood) (exist (s i).owner) (s i).has p) ∧
    (NoGeometryD.getIndices m per x = some p →
      (∀ c, exist (s i).owner c = true → NoGeometryD.getCell m per (m.getLevel c) x ≠ some c) →
      ActsOnNone (m.grid per hood) (exist (s i).owner) (s i).has p) ∧
    (∀ G : StretchedD, G.getIndices m x = .ok p →
      (∀ c, exist (s i).owner c = true → G.getCell m (m.getLevel c) x ≠ .ok c) →
      ActsOnNone (m.grid per hood) (exist (s i).owner) (s i).has p) := by
  have key : (∀ c, exist (s i).owner c = true → m.cellFromIndices p (m.getLevel c) ≠ c) →
      ActsOnNone (m.grid per hood) (exist (s i).owner) (s i).has p :=
    fun H => ActsOnNone.of ((C95_agrees h hs i p).2.1.2 H)
  refine ⟨fun G hp hx => key fun c hc e => hx c hc ?_, fun hp hx => key fun c hc e => hx c hc ?_,
    fun G hp hx => key fun c hc e => hx c hc ?_⟩
  all_goals obtain ⟨r1, r2⟩ := level_range h (existing_valid h hs hc).1
  · unfold CartesianD.getCell
    rw [if_neg (by omega), hp, Option.map_some, e]
  · unfold NoGeometryD.getCell
    rw [if_neg (by omega), hp, Option.map_some, e]
  · unfold StretchedD.getCell
    rw [if_neg (by omega), hp]
    exact congrArg Res.ok e

/-- C95: what is done at a coordinate at least `10 * (|k| + 1)` rounding errors inside of an existing cell, or at a
coordinate `k` periods away from it, is done to the cell. -/
theorem C95_near (h : m.OK) (hs : Reachable (m.grid per hood) dflt maxTag s) {G : Cartesian} (hG : G.Moderate m)
    (hc : exist (s i).owner c = true) {x : V3 Rat} {k : V3 Int}
    (hk : ∀ d, per d = false → k d = 0) (hx : ∀ d, mag (x d) ≤ 2 ^ 1000)
    (hy : G.DeepIn m c (fun d => 10 * (mag (k d) + 1) * G.err m d) (fun d => x d + (k d : Rat) * ((m.len d : Rat) * G.len d))) :
    ∃ p, G.toD.getIndices m per (fun d => .fin (x d)) = some p ∧
      ActsOn (m.grid per hood) (exist (s i).owner) (s i).has p c :=
  C95_cartesian h hs _ hc (C85_periodic_partial h hG (existing_valid h hs hc).1 hk hx hy)

/-- C95: the same for stretched geometry. -/
theorem C95_near_stretched (h : m.OK) (hs : Reachable (m.grid per hood) dflt maxTag s) {G : Stretched} (hok : G.Ok m)
    (hG : G.Moderate m) (hc : exist (s i).owner c = true) {x : V3 Rat}
    (hx : G.DeepIn m c (fun d => 4 * G.err m c d) x) :
    ∃ p, G.toD.getIndices m (fun d => .fin (x d)) = .ok p ∧
      ActsOn (m.grid per hood) (exist (s i).owner) (s i).has p c :=
  C95_stretched h hs _ hc (C91_located h hok hG (existing_valid h hs hc).1 hx)

/-- C96: requests at the center of an existing cell, as the geometry returns it, are requests for the cell, if the cell is
not shorter than `2^-49` of the distance of the start of the grid from zero plus the length of the grid. Missing: shorter
cells, for which the center can be in another cell (`C84_false`). -/
theorem C96_center_partial (h : m.OK) (hs : Reachable (m.grid per hood) dflt maxTag s) {G : Cartesian} (hG : G.Moderate m)
    (hc : exist (s i).owner c = true)
    (hl : ∀ d, ∃ l, G.getLength m c d = some l ∧ 1 / 2 ^ 49 * (mag (G.start d) + (m.len d : Rat) * G.len d) ≤ l) :
    ∃ p, G.toD.getIndices m per (G.toD.getCenter m c) = some p ∧
      ActsOn (m.grid per hood) (exist (s i).owner) (s i).has p c :=
  C95_cartesian h hs _ hc (C84_center_partial h hG (existing_valid h hs hc).1 hl)

/-- C96: the same for stretched geometry and cells not shorter than `2^-48` of the distance of their level 0 cell from zero
plus its length. -/
theorem C96_center_stretched_partial (h : m.OK) (hs : Reachable (m.grid per hood) dflt maxTag s) {G : Stretched}
    (hok : G.Ok m) (hG : G.Moderate m) (hc : exist (s i).owner c = true)
    (hl : ∀ d, ∃ l, G.getLength m c d = some l ∧ 32 * G.err m c d ≤ l) :
    ∃ p, G.toD.getIndices m (G.toD.getCenter m c) = .ok p ∧
      ActsOn (m.grid per hood) (exist (s i).owner) (s i).has p c :=
  C95_stretched h hs _ hc (C92_center_partial h hok hG (existing_valid h hs hc).1 hl)
end

/-- C96 is false for all cells: cells of length 1 from `2^60` are accepted, requests at the center of the existing cell 2 are
requests for the existing cell 1. -/
theorem C96_false : ∃ (m : Mapping) (per : V3 Bool) (s : Sys 2 Nat Nat) (old par : CartPar) (p : V3 Nat), m.OK ∧
    (old.set par).1 = true ∧ Reachable (m.grid per 1) 0 146 s ∧
    (∀ i, exist (s i).owner 1 = true ∧ exist (s i).owner 2 = true) ∧
    par.toD.getIndices m per (par.toD.getCenter m 2) = some p ∧
    ∀ i, ActsOn (m.grid per 1) (exist (s i).owner) (s i).has p 1 := by
  obtain ⟨s, -, h2, h3, -, -, -, h4, h5⟩ := tiny_init
  have hc : ∀ i, exist (s i).owner 1 = true ∧ exist (s i).owner 2 = true := fun i => by
    rw [h3.sys.owner]; exact ⟨exist_of h4, exist_of h5⟩
  obtain ⟨p, e1, e2⟩ := C95_cartesian (m := tinyM) (per := v3 false false true) (hood := 1) (i := 0) tinyM_ok h2
    (CartPar.toD ⟨fun _ => 1083 * 2 ^ 52, fun _ => 0x3ff0000000000000⟩)
    (x := (CartPar.toD ⟨fun _ => 1083 * 2 ^ 52, fun _ => 0x3ff0000000000000⟩).getCenter tinyM 2) (c := 1) (hc 0).1
    (by decide +kernel)
  refine ⟨tinyM, v3 false false true, s, ⟨fun _ => 0, fun _ => 0x3ff0000000000000⟩,
    ⟨fun _ => 1083 * 2 ^ 52, fun _ => 0x3ff0000000000000⟩, p, tinyM_ok, by decide +kernel, h2, hc, e1, fun i => ?_⟩
  obtain ⟨q, e3, e4⟩ := C95_cartesian (m := tinyM) (per := v3 false false true) (hood := 1) (i := i) tinyM_ok h2
    (CartPar.toD ⟨fun _ => 1083 * 2 ^ 52, fun _ => 0x3ff0000000000000⟩)
    (x := (CartPar.toD ⟨fun _ => 1083 * 2 ^ 52, fun _ => 0x3ff0000000000000⟩).getCenter tinyM 2) (c := 1) (hc i).1
    (by decide +kernel)
  rw [e1] at e3
  injection e3 with e3
  subst e3
  exact e4

/-- C71 is false at the end of the grid: a coordinate at the end of the grid is on the side of an existing cell, nothing is
requested there. -/
theorem C71_false : ∃ (m : Mapping) (G : Cartesian) (per : V3 Bool) (s : Sys 2 Nat Nat) (x : V3 Rat), m.OK ∧
    (∀ d, 0 < G.len d) ∧ Reachable (m.grid per 1) 0 146 s ∧ (∀ d, G.getStart d ≤ x d ∧ x d ≤ G.getEnd m d) ∧
    ∀ i, exist (s i).owner 2 = true ∧ InBoxC (G.getMin m 2) (G.getMax m 2) x ∧
      ActsOnNone (m.grid per 1) (exist (s i).owner) (s i).has (G.getIndices m per (nums x)) := by
  obtain ⟨s, -, h2, h3, -, -, -, h4, h5⟩ := tiny_init
  refine ⟨tinyM, tinyCart, v3 false false true, s, v3 3 1 (5 / 8), tinyM_ok, tinyCart_ok, h2, ?_, fun i => ⟨?_, ?_, ?_⟩⟩
  · rw [forall_fin3]; decide +kernel
  · rw [h3.sys.owner]; exact exist_of h5
  · unfold InBoxC
    rw [forall_fin3]
    refine ⟨⟨1, 3, ?_⟩, ⟨0, 3, ?_⟩, ⟨1 / 2, 3 / 4, ?_⟩⟩ <;> decide +kernel
  · exact C71_end tinyM_ok tinyCart_ok h2 i _ (d := 0) (k := 0) (fun _ => rfl) (by decide +kernel)

/-- Hypotheses of the theorems: cell 2 exists, coordinates are in it, three periods from it, and at its center. -/
example : ∃ s : Sys 2 Nat Nat, Reachable (tinyM.grid (v3 false false true) 1) 0 146 s ∧
    (∀ i, exist (s i).owner 2 = true) ∧
    InBoxQ (tinyCart.getMin tinyM 2) (tinyCart.getMax tinyM 2) (v3 2 1 (5 / 8)) ∧
    (∀ d, v3 false false true d = false → v3 (0 : Int) 0 3 d = 0) ∧
    (∀ d, ¬ (v3 2 1 (5 / 8) d = tinyCart.getStart d ∧ 0 < v3 (0 : Int) 0 3 d)) ∧
    (∀ d, tinyStretched.getStart d < v3 (3 / 2) 1 (9 / 8) d ∧ v3 (3 / 2) 1 (9 / 8) d ≤ tinyStretched.getEnd tinyM d) ∧
    tenthCart.toD.getCell tinyM (v3 false false true) (tinyM.getLevel 2) (tenthCart.toD.getCenter tinyM 2) = some 2 ∧
    tenthStretched.toD.getCell tinyM (tinyM.getLevel 2) (tenthStretched.toD.getCenter tinyM 2) = .ok 2 ∧
    NoGeometryD.getCell tinyM (v3 false false true) (tinyM.getLevel 2) (NoGeometryD.getCenter tinyM 2) = some 2 ∧
    (∀ d, ∃ l, tenthCart.getLength tinyM 2 d = some l ∧
      1 / 2 ^ 49 * (mag (tenthCart.start d) + (tinyM.len d : Rat) * tenthCart.len d) ≤ l) ∧
    (∀ d, ∃ l, tenthStretched.getLength tinyM 2 d = some l ∧ 32 * tenthStretched.err tinyM 2 d ≤ l) := by
  obtain ⟨s, -, h2, h3, -, -, -, h4, h5⟩ := tiny_init
  refine ⟨s, h2, fun i => by rw [h3.sys.owner]; exact exist_of h5, ?_, ?_, ?_, ?_, by decide +kernel, by decide +kernel,
    by decide +kernel, ?_, ?_⟩
  · unfold InBoxQ
    rw [forall_fin3]
    refine ⟨⟨1, 3, ?_⟩, ⟨0, 3, ?_⟩, ⟨1 / 2, 3 / 4, ?_⟩⟩ <;> decide +kernel
  · rw [forall_fin3]; decide +kernel
  · rw [forall_fin3]; decide +kernel
  · rw [forall_fin3]; decide +kernel
  · rw [forall_fin3]
    refine ⟨⟨_, rfl, ?_⟩, ⟨_, rfl, ?_⟩, ⟨_, rfl, ?_⟩⟩ <;> decide +kernel
  · rw [forall_fin3]
    refine ⟨⟨_, rfl, ?_⟩, ⟨_, rfl, ?_⟩, ⟨_, rfl, ?_⟩⟩ <;> decide +kernel

/-- No cell is found at a coordinate outside of the grid in a dimension that isn't periodic. -/
example : ∃ (s : Sys 2 Nat Nat) (p : V3 Nat), Reachable (tinyM.grid (v3 false false true) 1) 0 146 s ∧
    tenthCart.toD.getIndices tinyM (v3 false false true) (fun d => .fin (v3 (-7) 1 1 d)) = some p ∧
    ∀ i c, exist (s i).owner c = true →
      tenthCart.toD.getCell tinyM (v3 false false true) (tinyM.getLevel c) (fun d => .fin (v3 (-7) 1 1 d)) ≠ some c := by
  obtain ⟨s, -, h2, h3, -⟩ := tiny_init
  have e : (tenthCart.toD.getIndices tinyM (v3 false false true) (fun d => .fin (v3 (-7) 1 1 d))).isSome = true := by
    decide +kernel
  obtain ⟨p, hp⟩ := Option.isSome_iff_exists.1 e
  refine ⟨s, p, h2, hp, fun i c hc => ?_⟩
  rw [h3.sys.owner] at hc
  have := (createLevel0_exist (by omega)).1 hc
  have hc : c = 1 ∨ c = 2 := by omega
  rcases hc with rfl | rfl <;> decide +kernel

end Dccrg
