import Verif.GeomDoubleNone
/-!
# C82: geometries are exact on grids of multiples of a power of two

Numbers are IEEE 754 binary64 here, every operation is rounded (`Verif.Double`); the exact geometries are those of
`Verif.Geom`.
-/
namespace Dccrg
open Cfg

/-- Specification: in each dimension the start of the grid and half of the length of the smallest cells are multiples of a
power of two (`unit k` is `2^k * 2^-1074`), and coordinates in the grid are at most `2^51` multiples. -/
structure Cartesian.Dyadic (G : Cartesian) (m : Mapping) (k : V3 Nat) : Prop where
  len : ∀ d, 0 < G.len d
  start : ∀ d, ∃ A : Int, G.start d = (A : Rat) * unit (k d)
  half : ∀ d, ∃ B : Nat, G.len d / ((2 ^ (m.maxLvl.toNat + 1) : Nat) : Rat) = (B : Rat) * unit (k d)
  fits : ∀ d, mag (G.start d) + (m.len d : Rat) * G.len d ≤ ((2 ^ 51 : Nat) : Rat) * unit (k d)
  range : ∀ d, k d ≤ 2000

/-- Specification: a coordinate that is at most `2^51` multiples of the unit. -/
def OnUnits (k : V3 Nat) (x : V3 Rat) : Prop := ∀ d, ∃ z : Int, z.natAbs ≤ 2 ^ 51 ∧ x d = (z : Rat) * unit (k d)

section
variable {m : Mapping} {G : Cartesian} {per : V3 Bool} {k : V3 Nat}

theorem Cartesian.Dyadic.bin (h : m.OK) (hG : G.Dyadic m k) : ∃ A B, G.BinGrid m k A B := by
  obtain ⟨A, hA⟩ := choose3 hG.start
  obtain ⟨B, hB⟩ := choose3 hG.half
  refine ⟨A, B, fun d => ?_⟩
  have hu := unit_pos (k d)
  have hp := pow_pos' (m.maxLvl.toNat + 1)
  have hlen : G.len d = (B d : Rat) * ((2 ^ (m.maxLvl.toNat + 1) : Nat) : Rat) * unit (k d) := by
    have := hB d
    grind
  have hM := Cartesian.max_le h
  have hr := hG.range d
  refine ⟨hA d, hlen, ?_, h.pos d, ?_, by omega, by omega⟩
  · have := hG.len d
    apply Nat.pos_of_ne_zero
    intro h0
    rw [hlen, h0] at this
    have e : ((0 : Nat) : Rat) = 0 := rfl
    grind
  · have hf := hG.fits d
    rw [hA d, mag_mul hu, mag_int, hlen] at hf
    have e : ((A d).natAbs : Rat) * unit (k d) + (m.len d : Rat) * ((B d : Rat) * ((2 ^ (m.maxLvl.toNat + 1) : Nat) : Rat) * unit (k d)) =
        (((A d).natAbs + m.len d * B d * 2 ^ (m.maxLvl.toNat + 1) : Nat) : Rat) * unit (k d) := by
      rw [Rat.natCast_add, Rat.natCast_mul, Rat.natCast_mul]; grind
    rw [e] at hf
    generalize (A d).natAbs + m.len d * B d * 2 ^ (m.maxLvl.toNat + 1) = N at *
    generalize 2 ^ 51 = P at *
    apply Classical.byContradiction
    intro hn
    have := Rat.mul_lt_mul_of_pos_right (Rat.natCast_lt_natCast.2 (Nat.lt_of_not_le hn)) hu
    grind

/-- C82: nothing is rounded in start, end, length, center, corners of any cell, and center of any indices. NaN is the
result of invalid cells, as in the exact geometry. -/
theorem C82_cells (h : m.OK) (hG : G.Dyadic m k) (d : Fin 3) :
    G.toD.getStart d = .fin (G.getStart d) ∧ G.toD.getEnd m d = .fin (G.getEnd m d) ∧
    (∀ c, G.toD.getLength m c d = (G.getLength m c d).val ∧ G.toD.getCenter m c d = (G.getCenter m c d).val ∧
      G.toD.getMin m c d = (G.getMin m c d).val ∧ G.toD.getMax m c d = (G.getMax m c d).val) ∧
    ∀ l p, G.toD.getCenterAt m l p d = (G.getCenterAt m l p d).val := by
  obtain ⟨A, B, hb⟩ := hG.bin h
  refine ⟨?_, Cartesian.toD_end hb d, fun c => ⟨Cartesian.toD_length h hb c d, Cartesian.toD_center h hb c d,
    Cartesian.toD_min_max h hb c d⟩, fun l p => Cartesian.toD_centerAt h hb l p d⟩
  rw [Cartesian.toD_start, Cartesian.getStart_eq]

/-- C82: coordinates on the same multiples have the exact real coordinate, indices and cell. -/
theorem C82_coordinates (h : m.OK) (hG : G.Dyadic m k) {x : V3 Rat} (hx : OnUnits k x) :
    (∀ d, G.toD.getRealCoordinate m per (fun d => .fin (x d)) d = (G.getRealCoordinate m per (nums x) d).val) ∧
    G.toD.getIndices m per (fun d => .fin (x d)) = some (G.getIndices m per (nums x)) ∧
    ∀ l, G.toD.getCell m per l (fun d => .fin (x d)) = some (G.getCell m per l (nums x)) := by
  obtain ⟨A, B, hb⟩ := hG.bin h
  obtain ⟨z, hz⟩ := choose3 hx
  exact ⟨fun d => Cartesian.toD_real hb (fun d => (hz d).1) (fun d => (hz d).2) d,
    Cartesian.toD_indices h hb (fun d => (hz d).1) (fun d => (hz d).2),
    fun l => Cartesian.toD_cell h hb (fun d => (hz d).1) (fun d => (hz d).2) l⟩

/-- C82: the computed center of a cell is located in the cell. -/
theorem C82_center (h : m.OK) (hG : G.Dyadic m k) {c : Nat} (hc : m.ValidId c) :
    G.toD.getCell m per (m.getLevel c) (G.toD.getCenter m c) = some c := by
  obtain ⟨A, B, hb⟩ := hG.bin h
  obtain ⟨z, hz⟩ := choose3 (Cartesian.center_units h hb ((Mapping.validId_iff h).1 hc))
  have e : G.toD.getCenter m c = fun d => .fin ((z d : Rat) * unit (k d)) := by
    funext d
    rw [Cartesian.toD_center h hb, (hz d).2]
    rfl
  rw [e, Cartesian.toD_cell h hb (fun d => (hz d).1) (fun d => rfl)]
  have e' : nums (fun d => (z d : Rat) * unit (k d)) = G.getCenter m c := by
    funext d
    exact (hz d).2.symm
  rw [e', C45_center h hG.len hc]

/-- C82: the default parameters are such if there are at most `2^50` indices in each dimension. -/
theorem C82_default (h : m.OK) (hn : ∀ d, m.len d * 2 ^ m.maxLvl.toNat ≤ 2 ^ 50) :
    Cartesian.init.Dyadic m (fun _ => 1073 - m.maxLvl.toNat) where
  len _ := by show (0 : Rat) < 1; decide
  start _ := ⟨0, by show (0 : Rat) = _; push_cast; grind⟩
  half _ := ⟨1, by
    have hM := Cartesian.max_le h
    show (1 : Rat) / _ = _
    rw [show 1073 - m.maxLvl.toNat = 1074 - (m.maxLvl.toNat + 1) by omega, unit_sub (by omega), unit_one]
    push_cast
    grind⟩
  fits d := by
    have hM := Cartesian.max_le h
    show mag 0 + (m.len d : Rat) * 1 ≤ _
    rw [show 1073 - m.maxLvl.toNat = 1074 - (m.maxLvl.toNat + 1) by omega, unit_sub (by omega), unit_one,
      mag_of_nonneg (by decide)]
    have hp := pow_pos' (m.maxLvl.toNat + 1)
    have h1 : (m.len d : Rat) * ((2 ^ (m.maxLvl.toNat + 1) : Nat) : Rat) ≤ ((2 ^ 51 : Nat) : Rat) := by
      rw [← Rat.natCast_mul]
      refine Rat.natCast_le_natCast.2 ?_
      have := hn d
      rw [Nat.pow_succ, ← Nat.mul_assoc]
      omega
    have e : ((2 ^ 51 : Nat) : Rat) * (1 / ((2 ^ (m.maxLvl.toNat + 1) : Nat) : Rat)) =
        ((2 ^ 51 : Nat) : Rat) / ((2 ^ (m.maxLvl.toNat + 1) : Nat) : Rat) := by grind
    rw [e]
    generalize ((2 ^ 51 : Nat) : Rat) = P at *
    generalize ((2 ^ (m.maxLvl.toNat + 1) : Nat) : Rat) = X at *
    apply Classical.byContradiction
    intro hc
    have := Rat.mul_lt_mul_of_pos_right (show P / X < (m.len d : Rat) by grind) hp
    have e : P / X * X = P := by grind
    grind
  range _ := by omega

theorem init_toD : Cartesian.init.toD = CartesianD.init := rfl

/-- C82: `No_Geometry` computes what the default `Cartesian_Geometry` computes, with the same rounding, on every grid
and for all coordinates, infinities and NaN included. -/
theorem C82_no_geometry (h : m.OK) :
    NoGeometryD.getStart = CartesianD.init.getStart ∧ NoGeometryD.getEnd m = CartesianD.init.getEnd m ∧
    (∀ c, NoGeometryD.getLength m c = CartesianD.init.getLength m c ∧ NoGeometryD.getCenter m c = CartesianD.init.getCenter m c ∧
      NoGeometryD.getMin m c = CartesianD.init.getMin m c ∧ NoGeometryD.getMax m c = CartesianD.init.getMax m c) ∧
    (∀ l p, NoGeometryD.getCenterAt m l p = CartesianD.init.getCenterAt m l p) ∧
    ∀ x : V3 Val, (∀ d, (x d).IsDouble) →
      NoGeometryD.getRealCoordinate m per x = CartesianD.init.getRealCoordinate m per x ∧
      NoGeometryD.getIndices m per x = CartesianD.init.getIndices m per x ∧
      ∀ l, NoGeometryD.getCell m per l x = CartesianD.init.getCell m per l x :=
  ⟨NoGeometryD.getStart_eq, NoGeometryD.getEnd_eq m, fun c => ⟨NoGeometryD.getLength_eq m c, NoGeometryD.getCenter_eq m c,
    NoGeometryD.getMin_eq m c, NoGeometryD.getMax_eq m c⟩, NoGeometryD.getCenterAt_eq m, fun _ hx =>
    ⟨NoGeometryD.getRealCoordinate_eq hx, NoGeometryD.getIndices_eq h hx, NoGeometryD.getCell_eq h hx⟩⟩

/-- C82: with `No_Geometry` the center of every cell is located in the cell. -/
theorem C82_no_geometry_center (h : m.OK) (hn : ∀ d, m.len d * 2 ^ m.maxLvl.toNat ≤ 2 ^ 50) {c : Nat} (hc : m.ValidId c) :
    NoGeometryD.getCell m per (m.getLevel c) (NoGeometryD.getCenter m c) = some c := by
  have e := C82_center (per := per) h (C82_default h hn) hc
  rw [init_toD] at e
  rw [NoGeometryD.getCenter_eq, NoGeometryD.getCell_eq h, e]
  intro d
  rw [← init_toD]
  obtain ⟨A, B, hb⟩ := (C82_default h hn).bin h
  obtain ⟨z, hz, e⟩ := Cartesian.center_units h hb ((Mapping.validId_iff h).1 hc) d
  rw [Cartesian.toD_center h hb, e]
  exact ⟨has53_units (by omega), mag_units (by omega) (by omega)⟩

end

/-- A grid from -1 to 3, 0 to 3 and 1/2 to 3/4, in units of `2^-6`. -/
theorem tinyCart_dyadic : tinyCart.Dyadic tinyM (fun _ => 1068) where
  len := tinyCart_ok
  start := by
    rw [forall_fin3]
    exact ⟨⟨-64, by decide +kernel⟩, ⟨0, by decide +kernel⟩, ⟨32, by decide +kernel⟩⟩
  half := by
    rw [forall_fin3]
    exact ⟨⟨16, by decide +kernel⟩, ⟨24, by decide +kernel⟩, ⟨2, by decide +kernel⟩⟩
  fits := by rw [forall_fin3]; decide +kernel
  range := by intro d; decide

example : tinyM.OK ∧ tinyCart.Dyadic tinyM (fun _ => 1068) ∧ tinyM.ValidId 7 ∧
    OnUnits (fun _ => 1068) (v3 (5 / 4) (-7 / 2) (1 / 64)) ∧ (∀ d, tinyM.len d * 2 ^ tinyM.maxLvl.toNat ≤ 2 ^ 50) := by
  refine ⟨tinyM_ok, tinyCart_dyadic, by unfold Mapping.ValidId; decide +kernel, ?_, by rw [forall_fin3]; decide⟩
  unfold OnUnits
  rw [forall_fin3]
  exact ⟨⟨80, by decide, by decide +kernel⟩, ⟨-224, by decide, by decide +kernel⟩, ⟨1, by decide, by decide +kernel⟩⟩

/-- Numbers of the code for a cell and coordinate of that grid. -/
example : tinyCart.toD.getCenter tinyM 7 0 = .fin (-1 / 2) ∧
    tinyCart.toD.getCell tinyM (v3 true false true) 1 (fun d => .fin (v3 (9 / 4) (5 / 2) (1 / 64) d)) =
      some (tinyCart.getCell tinyM (v3 true false true) 1 (nums (v3 (9 / 4) (5 / 2) (1 / 64)))) ∧
    tinyCart.getCell tinyM (v3 true false true) 1 (nums (v3 (9 / 4) (5 / 2) (1 / 64))) = 10 := by
  decide +kernel

end Dccrg
