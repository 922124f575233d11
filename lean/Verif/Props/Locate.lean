import Verif.Props.Geometry
import Verif.Existing
/-!
# C45: locating coordinates

Coordinates are exact rational numbers, see `Verif.Geom`; `none` is NaN.
-/
namespace Dccrg
open Cfg

/-- `Dccrg::get_existing_cell(coordinate)` (dccrg.hpp:6479-6501) after `get_indices` of the geometry. -/
def existingAt (g : Cfg) (E : Nat → Bool) (p : V3 Nat) : Nat :=
  if p 0 = errorIndex ∨ p 1 = errorIndex ∨ p 2 = errorIndex then 0 else existingI g E p 0 g.maxLvl

/-- Given numbers as coordinates. -/
def nums (x : V3 Rat) : V3 Num := fun d => some (x d)

section
variable {m : Mapping} {G : Cartesian} {per : V3 Bool} {hood : Nat} {l : Int}

/-- Indices of coordinates whose periodic image is inside of the grid. -/
theorem indices_image (h : m.OK) (hG : ∀ d, 0 < G.len d) {x : V3 Num} {y : V3 Rat}
    (hy : ∀ d, G.getStart d ≤ y d ∧ y d < G.getEnd m d)
    (hx : ∀ d, realCoord (per d) (G.getStart d) (G.getEnd m d) (x d) = some (y d)) :
    G.getIndices m per x = fun d => G.indexOf m d (y d) := by
  funext d
  exact Cartesian.getIndices_real h (hx d) (hy d).1 (Rat.le_of_lt (hy d).2)

theorem indexOf_inGrid (hG : ∀ d, 0 < G.len d) {y : V3 Rat} (hy : ∀ d, G.getStart d ≤ y d ∧ y d < G.getEnd m d) :
    m.cfg.InGrid (fun d => G.indexOf m d (y d)) := fun d => Cartesian.indexOf_lt hG (hy d).1 (hy d).2

theorem indexOf_atIdx (hG : ∀ d, 0 < G.len d) {y : V3 Rat} (hy : ∀ d, G.getStart d ≤ y d ∧ y d < G.getEnd m d) :
    AtIdx (G.pos m) y (fun d => G.indexOf m d (y d)) := fun d =>
  Cartesian.indexOf_at hG (by have := (hy d).1; rwa [Cartesian.getStart_eq] at this)

theorem inside_real {x : V3 Rat} {d : Fin 3} (h : G.getStart d ≤ x d ∧ x d < G.getEnd m d) :
    realCoord (per d) (G.getStart d) (G.getEnd m d) (nums x d) = some (x d) :=
  realCoord_in h.1 (Rat.le_of_lt h.2)

theorem getCell_valid (hl : 0 ≤ l ∧ l ≤ m.maxLvl) (x : V3 Num) :
    G.getCell m per l x = m.cellFromIndices (G.getIndices m per x) l := by
  unfold Cartesian.getCell
  rw [if_neg (by omega)]

/-- C45, the part that holds: a coordinate inside of the grid is located in the cell of given refinement level whose
box contains it. Missing: coordinates equal to the end of the grid in some dimension, see `C45_false`. -/
theorem C45_inside_partial (h : m.OK) (hG : ∀ d, 0 < G.len d) (hl : 0 ≤ l ∧ l ≤ m.maxLvl) (x : V3 Rat)
    (hx : ∀ d, G.getStart d ≤ x d ∧ x d < G.getEnd m d) :
    m.ValidId (G.getCell m per l (nums x)) ∧ m.getLevel (G.getCell m per l (nums x)) = l ∧
    InBoxQ (G.getMin m (G.getCell m per l (nums x))) (G.getMax m (G.getCell m per l (nums x))) x := by
  have hp := indexOf_inGrid (m := m) hG hx
  rw [getCell_valid hl, indices_image h hG hx (fun d => inside_real (hx d))]
  obtain ⟨h1, h2, -, -, h3, -⟩ := Mapping.C02_index_roundtrip h (p := fun d => G.indexOf m d (x d)) hp hl.1 hl.2
  refine ⟨h1, h2, ?_⟩
  have hv := (Mapping.validId_iff h).1 h1
  exact ((Cartesian.mesh h hG).mem_iff h.wf hp (indexOf_atIdx hG hx) hv).2 ((Mapping.inside_iff h h1).1 h3)

/-- C45: that cell is the only one. -/
theorem C45_inside_unique (h : m.OK) (hG : ∀ d, 0 < G.len d) (x : V3 Rat) {c : Nat} (hc : m.ValidId c)
    (hx : InBoxQ (G.getMin m c) (G.getMax m c) x) : G.getCell m per (m.getLevel c) (nums x) = c := by
  have hv := (Mapping.validId_iff h).1 hc
  have hM := Cartesian.mesh h hG
  have hin : ∀ d, G.getStart d ≤ x d ∧ x d < G.getEnd m d := by
    intro d
    have := hM.inside h.wf hv hx d
    rwa [Cartesian.pos_zero, Cartesian.pos_end] at this
  have hp := indexOf_inGrid (m := m) hG hin
  obtain ⟨r1, r2, r3⟩ := Mapping.C01_id_roundtrip h hc
  rw [getCell_valid ⟨r1, r2⟩, indices_image h hG hin (fun d => inside_real (hin d))]
  obtain ⟨-, -, -, -, -, h3⟩ := Mapping.C02_index_roundtrip h (p := fun d => G.indexOf m d (x d)) hp r1 r2
  exact (h3 c hc rfl ((Mapping.inside_iff h hc).2 ((hM.mem_iff h.wf hp (indexOf_atIdx hG hin) hv).1 hx))).symm

/-- C45: the center of a cell is located back to the cell. -/
theorem C45_center (h : m.OK) (hG : ∀ d, 0 < G.len d) {c : Nat} (hc : m.ValidId c) :
    G.getCell m per (m.getLevel c) (G.getCenter m c) = c := by
  have hb := (C44_cartesian_consistent h hG).box c hc
  have hx : G.getCenter m c = nums (fun d => (G.getCenter m c d).getD 0) := by
    funext d
    obtain ⟨lo, hi, -, -, -, -, -, -, e⟩ := hb d
    have e' : G.getCenter m c d = some ((lo + hi) / 2) := e
    show G.getCenter m c d = some ((G.getCenter m c d).getD 0)
    rw [e']; rfl
  rw [hx]
  refine C45_inside_unique h hG _ hc fun d => ?_
  obtain ⟨lo, hi, e1, e2, e3, e4, e5, e6, e⟩ := hb d
  have e' : G.getCenter m c d = some ((lo + hi) / 2) := e
  refine ⟨lo, hi, e1, e2, ?_⟩
  rw [e']
  show lo ≤ (lo + hi) / 2 ∧ (lo + hi) / 2 < hi
  constructor <;> grind

/-- C45: coordinates outside of a dimension that is not periodic. -/
theorem C45_outside (h : m.OK) (hG : ∀ d, 0 < G.len d) (x : V3 Num) {d : Fin 3} (hd : per d = false)
    {y : Rat} (hx : x d = some y) (hy : y < G.getStart d ∨ G.getEnd m d < y) :
    G.getCell m per l x = errorCell ∧ G.getIndices m per x d = errorIndex := by
  have hr : realCoord (per d) (G.getStart d) (G.getEnd m d) (x d) = none := by
    rw [hx]
    exact (realCoord_isReal (Cartesian.start_lt_end h hG d) y).2.2 hd hy
  have hi := Cartesian.getIndices_none hr
  exact ⟨Cartesian.getCell_out h (d := d) (by rw [hi]; exact Cartesian.n_lt h d), hi⟩

/-- C45: NaN and refinement levels that do not exist. -/
theorem C45_invalid (h : m.OK) (x : V3 Num) : 
    ((∃ d, x d = none) → G.getCell m per l x = errorCell) ∧
    (¬ (0 ≤ l ∧ l ≤ m.maxLvl) → G.getCell m per l x = errorCell) := by
  constructor
  · rintro ⟨d, hd⟩
    have hi := Cartesian.getIndices_none (m := m) (G := G) (per := per) (x := x) (d := d) (by rw [hd]; rfl)
    exact Cartesian.getCell_out h (d := d) (by rw [hi]; exact Cartesian.n_lt h d)
  · intro hl
    unfold Cartesian.getCell
    rw [if_pos (by omega)]

/-- C45: in periodic dimensions coordinates that differ by a multiple of the length of the grid are located in the
same cell. Missing: the end of the grid, and start of the grid moved forward, see `C45_end`. -/
theorem C45_periodic_partial (h : m.OK) (hG : ∀ d, 0 < G.len d) {x y : V3 Rat} {k : V3 Int}
    (hy : ∀ d, G.getStart d ≤ y d ∧ y d < G.getEnd m d) (hk : ∀ d, per d = false → k d = 0)
    (hs : ∀ d, ¬ (y d = G.getStart d ∧ 0 < k d))
    (hx : ∀ d, x d = y d + (k d : Rat) * (G.getEnd m d - G.getStart d)) :
    G.getCell m per l (nums x) = G.getCell m per l (nums y) := by
  unfold Cartesian.getCell
  split
  · rfl
  · rw [indices_image h hG hy (fun d => inside_real (hy d)), indices_image h hG hy fun d => ?_]
    cases hp : per d with
    | false =>
      have hk0 := hk d hp
      have : x d = y d := by rw [hx d, hk0]; push_cast; grind
      show realCoord false _ _ (some (x d)) = _
      rw [this]
      exact realCoord_in (hy d).1 (Rat.le_of_lt (hy d).2)
    | true => exact realCoord_image (Cartesian.start_lt_end h hG d) (hy d).1 (hy d).2 (hx d) (hs d)

/-- What the code does at the end of the grid, and a whole number of grid lengths after it in a periodic dimension:
no cell is found. -/
theorem C45_end (h : m.OK) (hG : ∀ d, 0 < G.len d) (x : V3 Rat) {d : Fin 3} {k : Nat} (hk : per d = false → k = 0)
    (hx : x d = G.getEnd m d + (k : Rat) * (G.getEnd m d - G.getStart d)) :
    G.getCell m per l (nums x) = errorCell := by
  have hlt := Cartesian.start_lt_end h hG d
  have hr : realCoord (per d) (G.getStart d) (G.getEnd m d) (nums x d) = some (G.getEnd m d) := by
    cases hp : per d with
    | false =>
      have : x d = G.getEnd m d := by rw [hx, hk hp]; push_cast; grind
      show realCoord _ _ _ (some (x d)) = _
      rw [this]
      exact realCoord_in (Rat.le_of_lt hlt) Rat.le_refl
    | true => exact realCoord_end hlt hx
  exact Cartesian.getCell_out h (d := d) (by
    rw [Cartesian.getIndices_real h hr (Rat.le_of_lt hlt) Rat.le_refl]; exact Cartesian.indexOf_end h hG d)

/-- C45 is false as stated: the end of a grid is one of its boundaries, no cell is found there although cells have it
on their side, and a coordinate one grid length after the start of a periodic dimension is not found either. -/
theorem C45_false : ∃ (m : Mapping) (G : Cartesian) (x y : V3 Rat) (c : Nat), m.OK ∧ (∀ d, 0 < G.len d) ∧
    (∀ d, G.getStart d ≤ x d ∧ x d ≤ G.getEnd m d) ∧ m.ValidId c ∧ m.getLevel c = 0 ∧
    InBoxC (G.getMin m c) (G.getMax m c) x ∧ G.getCell m (v3 true false false) 0 (nums x) = errorCell ∧
    (∀ d, G.getStart d ≤ y d ∧ y d < G.getEnd m d) ∧ G.getCell m (v3 true false false) 0 (nums y) = 1 ∧
    (x 0 = y 0 + (G.getEnd m 0 - G.getStart 0)) ∧ x 1 = y 1 ∧ x 2 = y 2 := by
  have hb : ∀ d, tinyCart.getMin tinyM 2 d = v3 (some 1) (some 0) (some (1 / 2)) d ∧
      tinyCart.getMax tinyM 2 d = v3 (some 3) (some 3) (some (3 / 4)) d := by
    rw [forall_fin3]
    decide +kernel
  refine ⟨tinyM, tinyCart, v3 3 1 (5 / 8), v3 (-1) 1 (5 / 8), 2, tinyM_ok, tinyCart_ok, ?_, by decide, by decide, ?_,
    ?_, ?_, ?_, ?_, rfl, rfl⟩
  · rw [forall_fin3]; decide +kernel
  · intro d
    have hr : ∀ d : Fin 3, (v3 (1 : Rat) 0 (1 / 2)) d ≤ (v3 (3 : Rat) 1 (5 / 8)) d ∧
        (v3 (3 : Rat) 1 (5 / 8)) d ≤ (v3 (3 : Rat) 3 (3 / 4)) d := by rw [forall_fin3]; decide +kernel
    refine ⟨v3 1 0 (1 / 2) d, v3 3 3 (3 / 4) d, ?_, ?_, hr d⟩
    · rw [(hb d).1]
      match d with
      | 0 => rfl
      | 1 => rfl
      | 2 => rfl
    · rw [(hb d).2]
      match d with
      | 0 => rfl
      | 1 => rfl
      | 2 => rfl
  · exact C45_end tinyM_ok tinyCart_ok _ (d := 0) (k := 0) (fun _ => rfl) (by decide +kernel)
  · rw [forall_fin3]; decide +kernel
  · decide +kernel
  · decide +kernel

/-- C45: the existing cell found at a coordinate inside of the grid is the one whose box contains the coordinate, on
every process in every reachable state. -/
theorem C45_existing_partial {n : Nat} {D W : Type} {s : Sys n D W} {dflt : D} {maxTag : Nat} (h : m.OK)
    (hG : ∀ d, 0 < G.len d) (hs : Reachable (m.grid per hood) dflt maxTag s) (i : Fin n) (x : V3 Rat)
    (hx : ∀ d, G.getStart d ≤ x d ∧ x d < G.getEnd m d) :
    exist (s i).owner (existingAt (m.grid per hood) (exist (s i).owner) (G.getIndices m per (nums x))) = true ∧
    InBoxQ (G.getMin m (existingAt (m.grid per hood) (exist (s i).owner) (G.getIndices m per (nums x))))
      (G.getMax m (existingAt (m.grid per hood) (exist (s i).owner) (G.getIndices m per (nums x)))) x := by
  obtain ⟨w, hi⟩ := hs.inv (grid_wf h) (by have := i.2; omega)
  rw [hi.sys.owner i]
  have ht := hi.sys.tiled
  have hp := indexOf_inGrid (m := m) hG hx
  rw [indices_image h hG hx (fun d => inside_real (hx d))]
  have hne : ∀ d, G.indexOf m d (x d) ≠ errorIndex := by
    intro d e
    have h1 : G.indexOf m d (x d) < m.cfg.n d := hp d
    have h2 := Cartesian.n_lt h d
    rw [e] at h1
    omega
  obtain ⟨b, hb, hm⟩ := ht.cover _ (show (m.grid per hood).InGrid _ from hp)
  have e : existingAt (m.grid per hood) (exist w) (fun d => G.indexOf m d (x d)) = b := by
    unfold existingAt
    rw [if_neg (by rintro (e | e | e) <;> exact hne _ e), existingI_eq (grid_wf h) ht hp hb hm, if_pos]
    have := lvl_le (ht.valid b hb)
    omega
  rw [e]
  exact ⟨hb, ((Cartesian.mesh h hG).mem_iff h.wf hp (indexOf_atIdx hG hx) (grid_valid.1 (ht.valid b hb))).2
    (grid_mem.1 hm)⟩

/-- C45: no existing cell is found outside of dimensions that are not periodic. -/
theorem C45_existing_outside (h : m.OK) (hG : ∀ d, 0 < G.len d) (E : Nat → Bool) (x : V3 Num) {d : Fin 3}
    (hd : per d = false) {y : Rat} (hx : x d = some y) (hy : y < G.getStart d ∨ G.getEnd m d < y) :
    existingAt (m.grid per hood) E (G.getIndices m per x) = errorCell := by
  have := (C45_outside (l := 0) h hG x hd hx hy).2
  unfold existingAt
  rw [if_pos]
  · rfl
  · match d with
    | 0 => exact .inl this
    | 1 => exact .inr (.inl this)
    | 2 => exact .inr (.inr this)

/-- C45 for `No_Geometry`: a coordinate inside of the grid is located in the cell whose box contains it. Missing: the
end of the grid. -/
theorem C45_no_geometry_partial (h : m.OK) (hl : 0 ≤ l ∧ l ≤ m.maxLvl) (x : V3 Rat)
    (hx : ∀ d, 0 ≤ x d ∧ x d < (m.len d : Rat)) :
    m.ValidId (NoGeometry.getCell m per l (nums x)) ∧ m.getLevel (NoGeometry.getCell m per l (nums x)) = l ∧
    InBoxQ (NoGeometry.getMin m (NoGeometry.getCell m per l (nums x)))
      (NoGeometry.getMax m (NoGeometry.getCell m per l (nums x))) x ∧
    ∀ c, m.ValidId c → NoGeometry.getCell m per (m.getLevel c) (NoGeometry.getCenter m c) = c := by
  have h1 : ∀ d, 0 < Cartesian.init.len d := fun d => by show (0 : Rat) < 1; decide
  simp only [NoGeometry.getCell_eq, NoGeometry.getMin_eq, NoGeometry.getMax_eq, NoGeometry.getCenter_eq]
  have h2 : ∀ d, Cartesian.init.getStart d ≤ x d ∧ x d < Cartesian.init.getEnd m d := by
    intro d
    rw [Cartesian.getStart_eq, Cartesian.getEnd_eq]
    have := hx d
    simp only [Cartesian.init]
    grind
  obtain ⟨a, b, c⟩ := C45_inside_partial (per := per) h h1 hl x h2
  exact ⟨a, b, c, fun c hc => C45_center h h1 hc⟩

/-- A coordinate in the second level 0 cell; three periods away it is found in the same cell. -/
example : tinyM.OK ∧ (∀ d, 0 < tinyCart.len d) ∧
    (∀ d, tinyCart.getStart d ≤ (v3 2 1 (5 / 8)) d ∧ (v3 (2 : Rat) 1 (5 / 8)) d < tinyCart.getEnd tinyM d) ∧
    tinyCart.getCell tinyM (v3 true false false) 0 (nums (v3 2 1 (5 / 8))) = 2 ∧
    tinyCart.getCell tinyM (v3 true false false) 0 (nums (v3 (2 + 3 * 4) 1 (5 / 8))) = 2 := by
  refine ⟨tinyM_ok, tinyCart_ok, ?_, by decide +kernel, by decide +kernel⟩
  rw [forall_fin3]; decide +kernel

end
end Dccrg
