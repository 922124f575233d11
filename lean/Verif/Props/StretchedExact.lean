import Verif.StretchedDoubleGrid
import Verif.Props.Stretched
import Verif.Props.DoubleExact
/-!
# C90: stretched geometry is exact on multiples of a power of two

Numbers are IEEE 754 binary64 here, every operation is rounded (`Verif.Double`); the exact geometry is that of
`Verif.Geom`.
-/
namespace Dccrg
open Cfg

/-- Specification: in each dimension the start of the grid, and half of the length of the smallest cells in every level 0
cell, are multiples of a power of two (`unit k` is `2^k * 2^-1074`), and coordinates are at most `2^49` multiples. -/
structure Stretched.Dyadic (G : Stretched) (m : Mapping) (k : V3 Nat) : Prop where
  start : ∀ d, ∃ A : Int, G.coord d 0 = (A : Rat) * unit (k d)
  half : ∀ d i, i < m.len d → ∃ B : Nat,
    (G.coord d (i + 1) - G.coord d i) / ((2 ^ (m.maxLvl.toNat + 1) : Nat) : Rat) = (B : Rat) * unit (k d)
  fits : ∀ d i, i ≤ m.len d → mag (G.coord d i) ≤ ((2 ^ 49 : Nat) : Rat) * unit (k d)
  range : ∀ d, k d ≤ 2000

/-- Specification: what the code returns when the exact geometry gives a cell, or is undefined. -/
def cellRes : Option Nat → Res Nat
  | some c => .ok c
  | none => .undefined

section
variable {m : Mapping} {G : Stretched} {per : V3 Bool} {k : V3 Nat}

namespace Stretched

theorem Dyadic.units (hG : G.Dyadic m k) {d : Fin 3} {i : Nat} (hi : i ≤ m.len d) :
    ∃ A : Int, A.natAbs ≤ 2 ^ 49 ∧ G.coord d i = (A : Rat) * unit (k d) := by
  have hu := unit_pos (k d)
  have key : ∃ A : Int, G.coord d i = (A : Rat) * unit (k d) := by
    induction i with
    | zero => exact hG.start d
    | succ i ih =>
      obtain ⟨A, hA⟩ := ih (by omega)
      obtain ⟨B, hB⟩ := hG.half d i (by omega)
      have hp := pow_pos' (m.maxLvl.toNat + 1)
      refine ⟨A + ((B * 2 ^ (m.maxLvl.toNat + 1) : Nat) : Int), ?_⟩
      rw [Rat.intCast_add, natCast_int, Rat.natCast_mul]
      grind
  obtain ⟨A, hA⟩ := key
  refine ⟨A, ?_, hA⟩
  have hf := hG.fits d i hi
  rw [hA, mag_mul hu, mag_int] at hf
  generalize 2 ^ 49 = P at *
  apply Classical.byContradiction
  intro hn
  have := Rat.mul_lt_mul_of_pos_right (Rat.natCast_lt_natCast.2 (Nat.lt_of_not_le hn)) hu
  grind

theorem Dyadic.diff (hG : G.Dyadic m k) {d : Fin 3} {i j : Nat} (hij : i ≤ j) (hj : j ≤ m.len d) :
    ∃ B : Nat, G.coord d j - G.coord d i = (B : Rat) * ((2 ^ (m.maxLvl.toNat + 1) : Nat) : Rat) * unit (k d) := by
  induction j with
  | zero => exact ⟨0, by rw [show i = 0 by omega]; push_cast; grind⟩
  | succ j ih =>
    by_cases e : i = j + 1
    · exact ⟨0, by rw [e]; push_cast; grind⟩
    · obtain ⟨B, hB⟩ := ih (by omega) (by omega)
      obtain ⟨B', hB'⟩ := hG.half d j (by omega)
      have hp := pow_pos' (m.maxLvl.toNat + 1)
      refine ⟨B + B', ?_⟩
      rw [Rat.natCast_add]
      grind

/-- From one coordinate to another. -/
theorem Dyadic.dim (h : m.OK) (hok : G.Ok m) (hG : G.Dyadic m k) {d : Fin 3} {i j : Nat} (hij : i < j) (hj : j ≤ m.len d) :
    ∃ A B, BinDim m.cfg.maxLvl 1 (G.coord d i) (G.coord d j - G.coord d i) (k d) A B := by
  have hu := unit_pos (k d)
  have hp := pow_pos' (m.maxLvl.toNat + 1)
  obtain ⟨A, a1, a2⟩ := hG.units (d := d) (i := i) (by omega)
  obtain ⟨A', b1, b2⟩ := hG.units (d := d) (i := j) (by omega)
  obtain ⟨B, hB⟩ := hG.diff (d := d) (i := i) (j := j) (by omega) hj
  have hlt := coord_lt hok hij hj
  have hM := Cartesian.max_le h
  have hr := hG.range d
  have em : m.cfg.maxLvl = m.maxLvl.toNat := rfl
  refine ⟨A, B, a2, hB, ?_, by omega, ?_, by omega, by omega⟩
  · apply Nat.pos_of_ne_zero
    intro h0
    rw [h0] at hB
    have e : ((0 : Nat) : Rat) = 0 := rfl
    grind
  · rw [a2, b2] at hB
    have e1 : ((A' - A : Int) : Rat) * unit (k d) = (((B * 2 ^ (m.maxLvl.toNat + 1) : Nat) : Int) : Rat) * unit (k d) := by
      rw [Rat.intCast_sub, natCast_int, Rat.natCast_mul]; grind
    have e2 : A' - A = ((B * 2 ^ (m.maxLvl.toNat + 1) : Nat) : Int) := by
      have hne : unit (k d) ≠ 0 := by grind
      have : ((A' - A : Int) : Rat) = (((B * 2 ^ (m.maxLvl.toNat + 1) : Nat) : Int) : Rat) := by grind
      exact Rat.intCast_inj.1 this
    rw [Nat.one_mul, em]
    generalize B * 2 ^ (m.maxLvl.toNat + 1) = x at *
    omega

theorem Dyadic.bin (h : m.OK) (hok : G.Ok m) (hG : G.Dyadic m k) : G.BinGrid m k := fun _ i hi =>
  hG.dim h hok (Nat.lt_succ_self i) hi

end Stretched

/-- C90: nothing is rounded in start, end, length, center, corners of any cell, and center of any indices. NaN is the
result of invalid cells, as in the exact geometry. -/
theorem C90_cells (h : m.OK) (hok : G.Ok m) (hG : G.Dyadic m k) (d : Fin 3) :
    G.toD.getStart d = .fin (G.getStart d) ∧ G.toD.getEnd m d = .fin (G.getEnd m d) ∧
    (∀ c, G.toD.getLength m c d = (G.getLength m c d).val ∧ G.toD.getCenter m c d = (G.getCenter m c d).val ∧
      G.toD.getMin m c d = (G.getMin m c d).val ∧ G.toD.getMax m c d = (G.getMax m c d).val) ∧
    ∀ l p, G.toD.getCenterAt m l p d = (G.getCenterAt m l p d).val := by
  have hb := hG.bin h hok
  exact ⟨Stretched.toD_start hok d, Stretched.toD_end hok d, fun c => ⟨Stretched.bin_length h hok hb c d,
    Stretched.bin_center h hok hb c d, Stretched.bin_min_max h hok hb c d⟩,
    fun l p => Stretched.bin_center h hok hb _ d⟩

/-- C90: indices and cell of every coordinate, even if it is not on the same multiples, are those of the exact geometry;
infinities and NaN are outside of the grid. -/
theorem C90_located (h : m.OK) (hok : G.Ok m) (hG : G.Dyadic m k) (x : V3 Val) :
    (∀ p : V3 Nat, (∀ d, G.getIndices m (fun d => (x d).num) d = .at (p d)) → G.toD.getIndices m x = .ok p) ∧
    ∀ l, G.toD.getCell m l x = cellRes (G.getCell m l (fun d => (x d).num)) := by
  have hb := hG.bin h hok
  constructor
  · intro p hp
    rw [Stretched.bin_indices h hok hb, hp, hp, hp]
    exact congrArg Res.ok (v3_of p)
  · intro l
    rw [Stretched.bin_cell h hok hb]
    cases G.getCell m l (fun d => (x d).num) <;> rfl

/-- C90: the computed center of a cell is located in the cell. -/
theorem C90_center (h : m.OK) (hok : G.Ok m) (hG : G.Dyadic m k) {c : Nat} (hc : m.ValidId c) :
    G.toD.getCell m (m.getLevel c) (G.toD.getCenter m c) = .ok c := by
  have hb := hG.bin h hok
  rw [Stretched.bin_cell h hok hb]
  have e : (fun d => (G.toD.getCenter m c d).num) = G.getCenter m c := by
    funext d
    rw [Stretched.bin_center h hok hb]
    cases G.getCenter m c d <;> rfl
  rw [e, C47_center h hok hc]

/-- C90: coordinates on the same multiples have the exact real coordinate. -/
theorem C90_real (h : m.OK) (hok : G.Ok m) (hG : G.Dyadic m k) {x : V3 Rat} (hx : OnUnits k x) (d : Fin 3) :
    G.toD.getRealCoordinate m per (fun d => .fin (x d)) d = (G.getRealCoordinate m per (nums x) d).val := by
  obtain ⟨A, B, hb⟩ := hG.dim h hok (d := d) (h.pos d) (Nat.le_refl _)
  obtain ⟨z, h1, h2⟩ := hx d
  have e := hb.real (per := per d) h1
  have e1 : G.coord d 0 + ((1 : Nat) : Rat) * (G.coord d (m.len d) - G.coord d 0) = G.coord d (m.len d) := by
    have : ((1 : Nat) : Rat) = 1 := rfl
    grind
  rw [e1, ← h2] at e
  unfold StretchedD.getRealCoordinate Stretched.getRealCoordinate
  rw [Stretched.toD_start hok, Stretched.toD_end hok, Stretched.getStart_eq, Stretched.getEnd_eq]
  refine e.trans ?_
  show _ = Num.val (realCoord (per d) (G.coord d 0) (G.coord d (m.len d)) (some (x d)))
  generalize realCoord (per d) (G.coord d 0) (G.coord d (m.len d)) (some (x d)) = o
  cases o <;> rfl

end

/-- Coordinates that are not evenly spaced, in units of `2^-6`. -/
theorem tinyStretched_dyadic : tinyStretched.Dyadic tinyM (fun _ => 1068) where
  start := by
    rw [forall_fin3]
    exact ⟨⟨-64, by decide +kernel⟩, ⟨0, by decide +kernel⟩, ⟨64, by decide +kernel⟩⟩
  half := by
    rw [forall_fin3]
    refine ⟨fun i hi => ?_, fun i hi => ?_, fun i hi => ?_⟩
    · have hi' : i < 2 := hi
      rcases (show i = 0 ∨ i = 1 by omega) with rfl | rfl
      · exact ⟨16, by decide +kernel⟩
      · exact ⟨8, by decide +kernel⟩
    · have hi' : i < 1 := hi
      obtain rfl : i = 0 := by omega
      exact ⟨24, by decide +kernel⟩
    · have hi' : i < 1 := hi
      obtain rfl : i = 0 := by omega
      exact ⟨2, by decide +kernel⟩
  fits := by
    rw [forall_fin3]
    refine ⟨fun i hi => ?_, fun i hi => ?_, fun i hi => ?_⟩
    · have hi' : i ≤ 2 := hi
      rcases (show i = 0 ∨ i = 1 ∨ i = 2 by omega) with rfl | rfl | rfl <;> decide +kernel
    · have hi' : i ≤ 1 := hi
      rcases (show i = 0 ∨ i = 1 by omega) with rfl | rfl <;> decide +kernel
    · have hi' : i ≤ 1 := hi
      rcases (show i = 0 ∨ i = 1 by omega) with rfl | rfl <;> decide +kernel
  range := by intro d; decide

example : tinyM.OK ∧ tinyStretched.Ok tinyM ∧ tinyStretched.Dyadic tinyM (fun _ => 1068) ∧ tinyM.ValidId 7 ∧
    OnUnits (fun _ => 1068) (v3 (5 / 4) (-7 / 2) (1 / 64)) := by
  refine ⟨tinyM_ok, tinyStretched_ok, tinyStretched_dyadic, by unfold Mapping.ValidId; decide +kernel, ?_⟩
  unfold OnUnits
  rw [forall_fin3]
  exact ⟨⟨80, by decide, by decide +kernel⟩, ⟨-224, by decide, by decide +kernel⟩, ⟨1, by decide, by decide +kernel⟩⟩

/-- Numbers of the code for a cell and a coordinate of that grid. -/
example : tinyStretched.toD.getCenter tinyM 7 0 = .fin (-1 / 2) ∧
    tinyStretched.toD.getCell tinyM 1 (fun d => .fin (v3 (1 / 10) (5 / 2) (9 / 8) d)) = .ok 8 ∧
    tinyStretched.toD.getCell tinyM 1 (tinyStretched.toD.getCenter tinyM 7) = .ok 7 := by
  decide +kernel

end Dccrg
