import Verif.StretchedDoubleLoop
import Verif.GeomDoubleClose
/-!
# Errors of `double` in `Stretched_Cartesian_Geometry`
-/
namespace Dccrg
open Cfg

/-- A level 0 cell from `a` to `b` whose calculations do not overflow and in which cells are not too short. -/
structure SafeCell (M : Nat) (a b : Rat) : Prop where
  lo : Has53 a
  hi : Has53 b
  lt : a < b
  small : 1 ≤ (b - a) * 2 ^ 900
  bigLo : mag a ≤ 2 ^ 970
  bigHi : mag b ≤ 2 ^ 970
  lvl : M ≤ 21

/-- Error of one operation in a level 0 cell. -/
def cellErr (a b : Rat) : Rat := eps * (mag a + (b - a))

namespace SafeCell
variable {M : Nat} {a b : Rat} (h : SafeCell M a b)
include h

theorem len_pos : 0 < b - a := by have := h.lt; grind

theorem len_le : b - a ≤ 2 ^ 971 := by
  have h1 := (mag_le_iff.1 h.bigLo).2
  have h2 := (mag_le_iff.1 h.bigHi).1
  have e : (2 : Rat) ^ 971 = 2 * 2 ^ 970 := by decide +kernel
  rw [e]
  generalize (2 : Rat) ^ 970 = P at *
  grind

theorem len_ge : 1 / 2 ^ 900 ≤ b - a := by
  have h1 := h.small
  have p : (0 : Rat) < 2 ^ 900 := by decide +kernel
  apply Classical.byContradiction
  intro hn
  have h5 := Rat.mul_lt_mul_of_pos_right (show b - a < 1 / 2 ^ 900 by grind) p
  have h6 : (1 : Rat) / 2 ^ 900 * 2 ^ 900 = 1 := by decide +kernel
  rw [h6] at h5
  grind

/-- The rounded length. -/
theorem rnd_len : rnd (b - a) ≤ b - a + eps * (b - a) ∧ b - a ≤ rnd (b - a) + eps * (b - a) := by
  have h0 := h.len_pos
  have h1 := rnd_err (b - a)
  have e : eps * 2 ^ 53 = 1 := by unfold eps; decide +kernel
  have e53 : (2 : Rat) ^ 53 = 2 * 2 ^ 52 := by decide +kernel
  have hP : (0 : Rat) < 2 ^ 52 := by decide +kernel
  have hk : 2 ^ 52 * ulp (b - a) ≤ b - a := by
    rcases ulp_le (b - a) with h2 | h2
    · rw [mag_of_nonneg (Rat.le_of_lt h0)] at h2; exact h2
    · have e2 : ulp (b - a) = 1 / 2 ^ 1074 := by
        generalize ulp (b - a) = t at *
        have := pow1074_ne; grind
      rw [e2]
      have h3 := h.len_ge
      have h4 : (2 : Rat) ^ 52 * (1 / 2 ^ 1074) ≤ 1 / 2 ^ 900 := by decide +kernel
      grind
  have e' : eps * (2 ^ 52 * 2) = 1 := by rw [← e, e53]; grind
  have h3 := Rat.mul_le_mul_of_nonneg_left hk (Rat.le_of_lt eps_pos)
  have e3 : 2 * (eps * (2 ^ 52 * ulp (b - a))) = ulp (b - a) := by
    have : 2 * (eps * (2 ^ 52 * ulp (b - a))) = eps * (2 ^ 52 * 2) * ulp (b - a) := by grind
    rw [this, e']; grind
  generalize eps * (2 ^ 52 * ulp (b - a)) = t at *
  generalize eps * (b - a) = s at *
  generalize ulp (b - a) = u at *
  generalize rnd (b - a) = r at *
  constructor <;> grind

theorem sub_eq : (Val.fin b).sub (.fin a) = .fin (rnd (b - a)) := by
  rw [Val.sub_fin, ofRat_bound]
  rw [mag_of_nonneg (Rat.le_of_lt h.len_pos)]
  have h1 := h.len_le
  have h2 : (2 : Rat) ^ 971 ≤ 2 ^ 1001 := by decide +kernel
  generalize (2 : Rat) ^ 971 = P at *
  generalize (2 : Rat) ^ 1001 = Q at *
  grind

theorem dim : SafeDim M 1 a (rnd (b - a)) := by
  have h1 := rnd_mono h.len_ge
  have h2 := rnd_mono h.len_le
  have e1 : rnd (1 / 2 ^ 900) = 1 / 2 ^ 900 := rnd_exact ⟨1, 174, by decide, by decide +kernel⟩
  have e2 : rnd (2 ^ 971) = 2 ^ 971 := rnd_exact ⟨1, 2045, by decide, by decide +kernel⟩
  rw [e1] at h1
  rw [e2] at h2
  refine ⟨h.lo, rnd_has53 _, by omega, ?_, ?_, ?_, h.lvl⟩
  · have p : (0 : Rat) ≤ 2 ^ 900 := by decide +kernel
    have h3 := Rat.mul_le_mul_of_nonneg_right h1 p
    have h6 : (1 : Rat) / 2 ^ 900 * 2 ^ 900 = 1 := by decide +kernel
    rw [h6] at h3
    exact h3
  · have := Nat.pow_le_pow_right (n := 2) (by omega) (show M ≤ 53 by have := h.lvl; omega)
    omega
  · have h3 : ((1 * 2 ^ M : Nat) : Rat) ≤ ((2 ^ 21 : Nat) : Rat) := by
      rw [Nat.one_mul]
      exact Rat.natCast_le_natCast.2 (Nat.pow_le_pow_right (by omega) h.lvl)
    have p0 : (0 : Rat) ≤ 1 / 2 ^ 900 := by decide +kernel
    have h4 := Rat.mul_le_mul_of_nonneg_right h3 (show 0 ≤ rnd (b - a) by grind)
    have h5 := Rat.mul_le_mul_of_nonneg_left h2 (show (0 : Rat) ≤ ((2 ^ 21 : Nat) : Rat) by decide +kernel)
    have h6 : (2 : Rat) ^ 970 + ((2 ^ 21 : Nat) : Rat) * 2 ^ 971 ≤ 2 ^ 1000 := by decide +kernel
    have h7 := h.bigLo
    generalize ((1 * 2 ^ M : Nat) : Rat) * rnd (b - a) = t at *
    generalize ((2 ^ 21 : Nat) : Rat) * rnd (b - a) = s at *
    generalize ((2 ^ 21 : Nat) : Rat) * 2 ^ 971 = r at *
    generalize (2 : Rat) ^ 970 = P at *
    generalize (2 : Rat) ^ 1000 = Q at *
    grind

theorem err_pos : 0 < cellErr a b := by
  have h1 := h.len_pos
  have h2 := mag_nonneg a
  exact Rat.mul_pos eps_pos (by grind)

/-- Errors of the rounded cell in errors of the cell. -/
theorem err_le : eps * (mag a + ((1 : Nat) : Rat) * rnd (b - a)) ≤ cellErr a b * (1001 / 1000) ∧
    eps * (b - a) ≤ cellErr a b ∧ 0 ≤ eps * (b - a) := by
  have h1 := h.len_pos
  have h2 := mag_nonneg a
  have h3 := h.rnd_len
  have he := eps_pos
  have e1 : ((1 : Nat) : Rat) = 1 := rfl
  have hs : eps ≤ 1 / 1000 := by unfold eps; decide +kernel
  have h4 := Rat.mul_le_mul_of_nonneg_right hs (Rat.le_of_lt h1)
  have h5 : mag a + ((1 : Nat) : Rat) * rnd (b - a) ≤ (mag a + (b - a)) * (1001 / 1000) := by
    rw [e1]
    generalize eps * (b - a) = s at *
    grind
  have h6 := Rat.mul_le_mul_of_nonneg_left h5 (Rat.le_of_lt he)
  refine ⟨?_, ?_, Rat.mul_nonneg (Rat.le_of_lt he) (Rat.le_of_lt h1)⟩
  · unfold cellErr
    grind
  · unfold cellErr
    exact Rat.mul_le_mul_of_nonneg_left (by grind) (Rat.le_of_lt he)

end SafeCell

/-- Position of an index from the start of a level 0 cell. -/
theorem SafeDim.off_pos {M : Nat} {a l : Rat} (h : SafeDim M 1 a l) {p : Nat} (hp : p ≤ 2 ^ M) : ∃ t : Rat,
    (Val.fin (l / ((2 ^ M : Nat) : Rat))).mul (.ofNat p) = .fin t ∧
    (Val.ofNat p).mul (.fin (l / ((2 ^ M : Nat) : Rat))) = .fin t ∧
    mag (t - (p : Rat) * l / ((2 ^ M : Nat) : Rat)) ≤ eps * ((p : Rat) * l / ((2 ^ M : Nat) : Rat)) + tiny := by
  have hX := pow_pos' M
  have h1 := h.idx_le_len (p := p) (by omega)
  have e1 : l / ((2 ^ M : Nat) : Rat) * (p : Rat) = (p : Rat) * l / ((2 ^ M : Nat) : Rat) := by grind
  have e2 : (p : Rat) * (l / ((2 ^ M : Nat) : Rat)) = (p : Rat) * l / ((2 ^ M : Nat) : Rat) := by grind
  have h2 := rnd_near ((p : Rat) * l / ((2 ^ M : Nat) : Rat))
  have h3 : mag ((p : Rat) * l / ((2 ^ M : Nat) : Rat)) ≤ 2 ^ 1001 := by
    rw [mag_of_nonneg h1.2]
    have h3 := h.scale_big
    have h4 := mag_nonneg a
    have h5 : (2 : Rat) ^ 1000 ≤ 2 ^ 1001 := by decide +kernel
    generalize (2 : Rat) ^ 1000 = P at *
    generalize (2 : Rat) ^ 1001 = Q at *
    grind
  rw [mag_of_nonneg h1.2] at h2
  have hi := h.idx
  rw [ofNat_exact (by omega), Val.mul_fin, Val.mul_fin, e1, e2, ofRat_bound h3]
  exact ⟨_, rfl, rfl, h2⟩

/-- Computed positions of indices are within two errors of the rounded cell. -/
theorem SafeDim.off_at {M : Nat} {a l : Rat} (h : SafeDim M 1 a l) {p : Nat} (hp : p ≤ 2 ^ M) : ∃ t : Rat,
    (Val.fin a).add ((Val.fin (l / ((2 ^ M : Nat) : Rat))).mul (.ofNat p)) = .fin t ∧
    (Val.fin a).add ((Val.ofNat p).mul (.fin (l / ((2 ^ M : Nat) : Rat)))) = .fin t ∧
    mag (t - (a + (p : Rat) * l / ((2 ^ M : Nat) : Rat))) ≤ eps * (mag a + ((1 : Nat) : Rat) * l) * (21 / 10) := by
  obtain ⟨t, e1, e2, e3⟩ := h.off_pos hp
  have h1 := h.idx_le_len (p := p) (by omega)
  have hs := h.start_bounds
  have ht := h.tiny_le
  have hd := h.delta_le
  have hm := mag_nonneg a
  have hB := h.scale_pos
  have h2 := Rat.mul_le_mul_of_nonneg_left (show (p : Rat) * l / ((2 ^ M : Nat) : Rat) ≤ mag a + ((1 : Nat) : Rat) * l by grind)
    (Rat.le_of_lt eps_pos)
  have hd0 : 0 ≤ eps * (mag a + ((1 : Nat) : Rat) * l) := Rat.mul_nonneg (Rat.le_of_lt eps_pos) (Rat.le_of_lt hB)
  obtain ⟨m1, m2⟩ := mag_le_iff.1 e3
  have hc := h.sum_close (x := a + t) (by
    generalize eps * (mag a + ((1 : Nat) : Rat) * l) = D at *; grind) (by generalize eps * (mag a + ((1 : Nat) : Rat) * l) = D at *; grind)
  rw [e1, e2, Val.add_fin, hc.1]
  refine ⟨_, rfl, rfl, mag_le_iff.2 ?_⟩
  have := hc.2
  generalize eps * (mag a + ((1 : Nat) : Rat) * l) = D at *
  constructor <;> grind

namespace SafeCell
variable {M : Nat} {a b : Rat} (h : SafeCell M a b)
include h

/-- A part of the length: `u` of the rounded length is close to `u` of the length. -/
theorem part_close {u : Rat} (h0 : 0 ≤ u) (h1 : u ≤ 1) :
    u * rnd (b - a) ≤ u * (b - a) + eps * (b - a) ∧ u * (b - a) ≤ u * rnd (b - a) + eps * (b - a) := by
  have h2 := h.rnd_len
  have h3 := h.err_le.2.2
  have k1 := Rat.mul_le_mul_of_nonneg_left h2.1 h0
  have k2 := Rat.mul_le_mul_of_nonneg_left h2.2 h0
  have k3 := Rat.mul_le_mul_of_nonneg_right h1 h3
  generalize eps * (b - a) = s at *
  generalize rnd (b - a) = r at *
  generalize b - a = l at *
  constructor <;> grind

/-- Computed positions of indices are within four errors. -/
theorem pos_close {r : Nat} (hr : r ≤ 2 ^ M) : ∃ t : Rat,
    (Val.fin a).add ((Val.fin (rnd (b - a) / ((2 ^ M : Nat) : Rat))).mul (.ofNat r)) = .fin t ∧
    (Val.fin a).add ((Val.ofNat r).mul (.fin (rnd (b - a) / ((2 ^ M : Nat) : Rat)))) = .fin t ∧
    mag (t - (a + (b - a) / ((2 ^ M : Nat) : Rat) * (r : Rat))) ≤ cellErr a b * (32 / 10) := by
  obtain ⟨t, e1, e2, e3⟩ := h.dim.off_at hr
  refine ⟨t, e1, e2, ?_⟩
  have hX := pow_pos' M
  have hu0 : 0 ≤ (r : Rat) / ((2 ^ M : Nat) : Rat) := div_nonneg' (by exact_mod_cast Nat.zero_le r) hX
  have hu1 : (r : Rat) / ((2 ^ M : Nat) : Rat) ≤ 1 := by
    have : (r : Rat) ≤ ((2 ^ M : Nat) : Rat) := Rat.natCast_le_natCast.2 hr
    apply Classical.byContradiction
    intro hn
    have := Rat.mul_lt_mul_of_pos_right (show 1 < (r : Rat) / ((2 ^ M : Nat) : Rat) by grind) hX
    have e : (r : Rat) / ((2 ^ M : Nat) : Rat) * ((2 ^ M : Nat) : Rat) = (r : Rat) := by grind
    rw [e] at this
    grind
  have hp := h.part_close hu0 hu1
  have he := h.err_le
  obtain ⟨m1, m2⟩ := mag_le_iff.1 e3
  have x1 : (r : Rat) * rnd (b - a) / ((2 ^ M : Nat) : Rat) = (r : Rat) / ((2 ^ M : Nat) : Rat) * rnd (b - a) := by grind
  have x2 : (b - a) / ((2 ^ M : Nat) : Rat) * (r : Rat) = (r : Rat) / ((2 ^ M : Nat) : Rat) * (b - a) := by grind
  rw [x1] at m1 m2
  rw [x2]
  have hpos := h.err_pos
  generalize eps * (mag a + ((1 : Nat) : Rat) * rnd (b - a)) = D at *
  generalize eps * (b - a) = s at *
  generalize (r : Rat) / ((2 ^ M : Nat) : Rat) * rnd (b - a) = y at *
  generalize (r : Rat) / ((2 ^ M : Nat) : Rat) * (b - a) = z at *
  generalize cellErr a b = E at *
  refine mag_le_iff.2 ⟨?_, ?_⟩ <;> grind

/-- Computed length of a cell. -/
theorem len_close {j : Nat} (hj : j ≤ M) :
    ((Val.fin b).sub (.fin a)).div (.fin ((2 ^ j : Nat) : Rat)) = .fin (rnd (b - a) / ((2 ^ j : Nat) : Rat)) ∧
    (Val.fin (rnd (b - a) / ((2 ^ j : Nat) : Rat))).div (.fin 2) = .fin (rnd (b - a) / ((2 ^ j : Nat) : Rat) / 2) ∧
    mag (rnd (b - a) / ((2 ^ j : Nat) : Rat) - (b - a) / ((2 ^ j : Nat) : Rat)) ≤ eps * ((b - a) / ((2 ^ j : Nat) : Rat)) := by
  have hX := pow_pos' j
  have hl := h.lvl
  refine ⟨?_, ?_, ?_⟩
  · rw [h.sub_eq, Val.div_fin (by grind), h.dim.part_fin (by omega)]
  · have eh : rnd (b - a) / ((2 ^ j : Nat) : Rat) / 2 = rnd (b - a) / ((2 ^ (j + 1) : Nat) : Rat) := by
      rw [Nat.pow_succ, Rat.natCast_mul]
      have e : ((2 : Nat) : Rat) = 2 := rfl
      grind
    rw [Val.div_fin (by decide), eh, h.dim.part_fin (by omega)]
  · have h2 := h.rnd_len
    generalize ((2 ^ j : Nat) : Rat) = X at *
    have hi : 0 ≤ 1 / X := div_nonneg' (by decide) hX
    have k1 := Rat.mul_le_mul_of_nonneg_left h2.1 hi
    have k2 := Rat.mul_le_mul_of_nonneg_left h2.2 hi
    generalize rnd (b - a) = r at *
    generalize b - a = l at *
    refine mag_le_iff.2 ⟨?_, ?_⟩ <;> grind

/-- Computed centers are within five errors. -/
theorem center_close {r j : Nat} (hj : j ≤ M) (hr : r + 2 ^ (M - j) ≤ 2 ^ M) : ∃ y : Rat,
    ((Val.fin a).add ((((Val.fin b).sub (.fin a)).div (.fin ((2 ^ M : Nat) : Rat))).mul (.ofNat r))).add
      ((((Val.fin b).sub (.fin a)).div (.fin ((2 ^ j : Nat) : Rat))).div (.fin 2)) = .fin y ∧
    mag (y - (a + (b - a) / ((2 ^ M : Nat) : Rat) * (r : Rat) + (b - a) / ((2 ^ j : Nat) : Rat) / 2)) ≤
      cellErr a b * (44 / 10) := by
  have hX := pow_pos' M
  have hJ := pow_pos' j
  have hp1 : 0 < 2 ^ (M - j) := Nat.pow_pos (by omega)
  obtain ⟨l1, l2, -⟩ := h.len_close hj
  rw [(h.len_close (Nat.le_refl M)).1, l1, l2]
  obtain ⟨t, e1, -, e3⟩ := h.dim.off_at (p := r) (by omega)
  have em : ((2 ^ M : Nat) : Rat) = ((2 ^ (M - j) : Nat) : Rat) * ((2 ^ j : Nat) : Rat) := by
    rw [← Rat.natCast_mul, ← Nat.pow_add, show M - j + j = M by omega]
  have hu0 : 0 ≤ (r : Rat) / ((2 ^ M : Nat) : Rat) := div_nonneg' (by exact_mod_cast Nat.zero_le r) hX
  have hj0 : 0 ≤ 1 / ((2 ^ j : Nat) : Rat) := div_nonneg' (by decide) hJ
  have hu1 : (r : Rat) / ((2 ^ M : Nat) : Rat) + 1 / ((2 ^ j : Nat) : Rat) ≤ 1 := by
    have h1 : ((r + 2 ^ (M - j) : Nat) : Rat) ≤ ((2 ^ M : Nat) : Rat) := Rat.natCast_le_natCast.2 hr
    rw [Rat.natCast_add] at h1
    apply Classical.byContradiction
    intro hn
    have h2 := Rat.mul_lt_mul_of_pos_right (show 1 < (r : Rat) / ((2 ^ M : Nat) : Rat) + 1 / ((2 ^ j : Nat) : Rat) by grind) hX
    have e : ((r : Rat) / ((2 ^ M : Nat) : Rat) + 1 / ((2 ^ j : Nat) : Rat)) * ((2 ^ M : Nat) : Rat) =
        (r : Rat) + ((2 ^ (M - j) : Nat) : Rat) := by
      have e4 : (r : Rat) / ((2 ^ M : Nat) : Rat) * ((2 ^ M : Nat) : Rat) = (r : Rat) := by grind
      have e5 : 1 / ((2 ^ j : Nat) : Rat) * ((2 ^ M : Nat) : Rat) = ((2 ^ (M - j) : Nat) : Rat) := by rw [em]; grind
      grind
    rw [e] at h2
    grind
  have hp := h.part_close (u := (r : Rat) / ((2 ^ M : Nat) : Rat) + 1 / ((2 ^ j : Nat) : Rat) / 2) (by grind) (by grind)
  have hr0 : 0 ≤ rnd (b - a) := Rat.le_of_lt h.dim.len_pos
  have hq := Rat.mul_le_mul_of_nonneg_right hu1 hr0
  have hq2 := Rat.mul_nonneg hu0 hr0
  have hq3 := Rat.mul_nonneg hj0 hr0
  have he := h.err_le
  have hpos := h.err_pos
  obtain ⟨m1, m2⟩ := mag_le_iff.1 e3
  have x1 : (r : Rat) * rnd (b - a) / ((2 ^ M : Nat) : Rat) = (r : Rat) / ((2 ^ M : Nat) : Rat) * rnd (b - a) := by grind
  have x2 : (b - a) / ((2 ^ M : Nat) : Rat) * (r : Rat) = (r : Rat) / ((2 ^ M : Nat) : Rat) * (b - a) := by grind
  have x3 : rnd (b - a) / ((2 ^ j : Nat) : Rat) = 1 / ((2 ^ j : Nat) : Rat) * rnd (b - a) := by grind
  have x4 : (b - a) / ((2 ^ j : Nat) : Rat) = 1 / ((2 ^ j : Nat) : Rat) * (b - a) := by grind
  rw [x1] at m1 m2
  rw [e1, Val.add_fin, x2, x3, x4]
  have hs := h.dim.start_bounds
  have hd := h.dim.delta_le
  have hB := h.dim.scale_pos
  have e11 : ((1 : Nat) : Rat) = 1 := rfl
  have hsum := fun x a b => h.dim.sum_close (x := x) a b
  generalize (r : Rat) / ((2 ^ M : Nat) : Rat) = u at *
  generalize 1 / ((2 ^ j : Nat) : Rat) = v at *
  generalize hD : eps * (mag a + ((1 : Nat) : Rat) * rnd (b - a)) = D at *
  generalize rnd (b - a) = R at *
  generalize cellErr a b = E at *
  generalize eps * (b - a) = s at *
  rw [e11] at *
  have hm := mag_nonneg a
  have hc := hsum (t + v * R / 2) (by grind) (by grind)
  rw [hc.1]
  refine ⟨_, rfl, ?_⟩
  have h1 := hc.2
  generalize rnd (t + v * R / 2) = y at *
  generalize b - a = l at *
  refine mag_le_iff.2 ⟨?_, ?_⟩ <;> grind

/-- Computed corners are within six errors and on the right sides of the center. -/
theorem corner_close {r j : Nat} (hj : j ≤ M) (hr : r + 2 ^ (M - j) ≤ 2 ^ M) {y : Rat} (hy53 : Has53 y)
    (hy : mag (y - (a + (b - a) / ((2 ^ M : Nat) : Rat) * (r : Rat) + (b - a) / ((2 ^ j : Nat) : Rat) / 2)) ≤
      cellErr a b * (44 / 10)) : ∃ lo hi : Rat,
    (Val.fin y).sub ((((Val.fin b).sub (.fin a)).div (.fin ((2 ^ j : Nat) : Rat))).div (.fin 2)) = .fin lo ∧
    (Val.fin y).add ((((Val.fin b).sub (.fin a)).div (.fin ((2 ^ j : Nat) : Rat))).div (.fin 2)) = .fin hi ∧
    lo ≤ y ∧ y ≤ hi ∧
    mag (lo - (a + (b - a) / ((2 ^ M : Nat) : Rat) * (r : Rat))) ≤ cellErr a b * 6 ∧
    mag (hi - (a + (b - a) / ((2 ^ M : Nat) : Rat) * (r : Rat) + (b - a) / ((2 ^ j : Nat) : Rat))) ≤ cellErr a b * 6 := by
  have hX := pow_pos' M
  have hJ := pow_pos' j
  have hp1 : 0 < 2 ^ (M - j) := Nat.pow_pos (by omega)
  obtain ⟨l1, l2, l3⟩ := h.len_close hj
  rw [l1, l2, Val.sub_fin, Val.add_fin]
  have em : ((2 ^ M : Nat) : Rat) = ((2 ^ (M - j) : Nat) : Rat) * ((2 ^ j : Nat) : Rat) := by
    rw [← Rat.natCast_mul, ← Nat.pow_add, show M - j + j = M by omega]
  have hu0 : 0 ≤ (r : Rat) / ((2 ^ M : Nat) : Rat) := div_nonneg' (by exact_mod_cast Nat.zero_le r) hX
  have hj0 : 0 ≤ 1 / ((2 ^ j : Nat) : Rat) := div_nonneg' (by decide) hJ
  have hu1 : (r : Rat) / ((2 ^ M : Nat) : Rat) + 1 / ((2 ^ j : Nat) : Rat) ≤ 1 := by
    have h1 : ((r + 2 ^ (M - j) : Nat) : Rat) ≤ ((2 ^ M : Nat) : Rat) := Rat.natCast_le_natCast.2 hr
    rw [Rat.natCast_add] at h1
    apply Classical.byContradiction
    intro hn
    have h2 := Rat.mul_lt_mul_of_pos_right (show 1 < (r : Rat) / ((2 ^ M : Nat) : Rat) + 1 / ((2 ^ j : Nat) : Rat) by grind) hX
    have e : ((r : Rat) / ((2 ^ M : Nat) : Rat) + 1 / ((2 ^ j : Nat) : Rat)) * ((2 ^ M : Nat) : Rat) =
        (r : Rat) + ((2 ^ (M - j) : Nat) : Rat) := by
      have e4 : (r : Rat) / ((2 ^ M : Nat) : Rat) * ((2 ^ M : Nat) : Rat) = (r : Rat) := by grind
      have e5 : 1 / ((2 ^ j : Nat) : Rat) * ((2 ^ M : Nat) : Rat) = ((2 ^ (M - j) : Nat) : Rat) := by rw [em]; grind
      grind
    rw [e] at h2
    grind
  have hp := h.part_close (u := 1 / ((2 ^ j : Nat) : Rat)) hj0 (by grind)
  have hl0 := h.len_pos
  have hq := Rat.mul_le_mul_of_nonneg_right hu1 (Rat.le_of_lt hl0)
  have hq2 := Rat.mul_nonneg hu0 (Rat.le_of_lt hl0)
  have hq3 := Rat.mul_nonneg hj0 (Rat.le_of_lt hl0)
  have he := h.err_le
  have hpos := h.err_pos
  have hR0 : 0 ≤ rnd (b - a) := Rat.le_of_lt h.dim.len_pos
  have hq4 := Rat.mul_nonneg hj0 hR0
  obtain ⟨m1, m2⟩ := mag_le_iff.1 hy
  have x2 : (b - a) / ((2 ^ M : Nat) : Rat) * (r : Rat) = (r : Rat) / ((2 ^ M : Nat) : Rat) * (b - a) := by grind
  have x3 : rnd (b - a) / ((2 ^ j : Nat) : Rat) = 1 / ((2 ^ j : Nat) : Rat) * rnd (b - a) := by grind
  have x4 : (b - a) / ((2 ^ j : Nat) : Rat) = 1 / ((2 ^ j : Nat) : Rat) * (b - a) := by grind
  rw [x2, x4] at m1 m2
  rw [x2, x3, x4]
  have hs := h.dim.start_bounds
  have hd := h.dim.delta_le
  have hB := h.dim.scale_pos
  have hrl := h.rnd_len
  have e11 : ((1 : Nat) : Rat) = 1 := rfl
  have hsum := fun x a b => h.dim.sum_close (x := x) a b
  have hEl : cellErr a b * 1000 ≤ mag a + rnd (b - a) := by
    have hs1 : eps ≤ 1 / 100000 := by unfold eps; decide +kernel
    have hm := mag_nonneg a
    have h1 := Rat.mul_le_mul_of_nonneg_right hs1 (show 0 ≤ mag a + (b - a) by grind)
    have h2 := Rat.mul_le_mul_of_nonneg_right hs1 (Rat.le_of_lt hl0)
    unfold cellErr
    generalize eps * (mag a + (b - a)) = D at *
    generalize eps * (b - a) = s at *
    grind
  have hy1 := rnd_mono (show y - 1 / ((2 ^ j : Nat) : Rat) * rnd (b - a) / 2 ≤ y by grind)
  have hy2 := rnd_mono (show y ≤ y + 1 / ((2 ^ j : Nat) : Rat) * rnd (b - a) / 2 by grind)
  rw [rnd_exact hy53] at hy1 hy2
  generalize (r : Rat) / ((2 ^ M : Nat) : Rat) = u at *
  generalize 1 / ((2 ^ j : Nat) : Rat) = v at *
  generalize hD : eps * (mag a + ((1 : Nat) : Rat) * rnd (b - a)) = D at *
  generalize rnd (b - a) = R at *
  generalize cellErr a b = E at *
  generalize eps * (b - a) = s at *
  rw [e11] at *
  have hm := mag_nonneg a
  have hc1 := hsum (y - v * R / 2) (by grind) (by grind)
  have hc2 := hsum (y + v * R / 2) (by grind) (by grind)
  rw [hc1.1, hc2.1]
  refine ⟨_, _, rfl, rfl, hy1, hy2, ?_, ?_⟩
  · have h1 := hc1.2
    clear hc1 hc2 hsum l1 l2 l3 hy1 hy2
    generalize rnd (y - v * R / 2) = z at *
    generalize b - a = l at *
    refine mag_le_iff.2 ⟨?_, ?_⟩ <;> grind
  · have h1 := hc2.2
    clear hc1 hc2 hsum l1 l2 l3 hy1 hy2
    generalize rnd (y + v * R / 2) = z at *
    generalize b - a = l at *
    refine mag_le_iff.2 ⟨?_, ?_⟩ <;> grind

end SafeCell

namespace Stretched
variable {m : Mapping} {per : V3 Bool} {G : Stretched}

/-- All level 0 cells are safe. -/
def SafeGrid (G : Stretched) (m : Mapping) : Prop :=
  ∀ d i, i < m.len d → SafeCell m.cfg.maxLvl (G.coord d i) (G.coord d (i + 1))

/-- Number of the level 0 cell of a cell. -/
def cell0 (m : Mapping) (c : Nat) (d : Fin 3) : Nat := m.cfg.idx c d / 2 ^ m.cfg.maxLvl

theorem pos_idx (G : Stretched) (m : Mapping) (c : Nat) (d : Fin 3) : G.pos m d (m.cfg.idx c d) =
    G.coord d (cell0 m c d) + (G.coord d (cell0 m c d + 1) - G.coord d (cell0 m c d)) / ((2 ^ m.cfg.maxLvl : Nat) : Rat) *
      ((m.cfg.idx c d % 2 ^ m.cfg.maxLvl : Nat) : Rat) := rfl

theorem pos_idx_side (h : m.OK) (G : Stretched) {c : Nat} (hv : m.cfg.Valid c) (d : Fin 3) :
    G.pos m d (m.cfg.idx c d + m.cfg.side c) =
    G.coord d (cell0 m c d) + (G.coord d (cell0 m c d + 1) - G.coord d (cell0 m c d)) / ((2 ^ m.cfg.maxLvl : Nat) : Rat) *
      ((m.cfg.idx c d % 2 ^ m.cfg.maxLvl + m.cfg.side c : Nat) : Rat) := by
  have hs := idx_side h hv d
  rw [← pos_in G m d hs]
  congr 1
  have e1 := Nat.div_add_mod (m.cfg.idx c d) (2 ^ m.cfg.maxLvl)
  rw [Nat.mul_comm] at e1
  unfold cell0
  omega

theorem side_len {M j : Nat} (hj : j ≤ M) (L : Rat) :
    L / ((2 ^ M : Nat) : Rat) * ((2 ^ (M - j) : Nat) : Rat) = L / ((2 ^ j : Nat) : Rat) := by
  have hX := pow_pos' (M - j)
  have hJ := pow_pos' j
  have em : ((2 ^ M : Nat) : Rat) = ((2 ^ (M - j) : Nat) : Rat) * ((2 ^ j : Nat) : Rat) := by
    rw [← Rat.natCast_mul, ← Nat.pow_add, show M - j + j = M by omega]
  rw [em]
  grind

theorem safe_length (h : m.OK) (hG : G.Ok m) (hs : G.SafeGrid m) {c : Nat} (hv : m.cfg.Valid c) (d : Fin 3) : ∃ x y : Rat,
    G.toD.getLength m c d = .fin x ∧ G.getLength m c d = some y ∧ mag (x - y) ≤ eps * y := by
  have hq := idx_div_lt h hv d
  obtain ⟨l1, l2, l3⟩ := (hs d _ hq).len_close (lvl_le hv)
  rw [StretchedD.getLength_eq h, getLength_eq h, if_pos hv, if_pos hv, toD_coord hG (by omega), toD_coord hG (by omega), l1]
  exact ⟨_, _, rfl, rfl, l3⟩

theorem safe_center (h : m.OK) (hG : G.Ok m) (hs : G.SafeGrid m) {c : Nat} (hv : m.cfg.Valid c) (d : Fin 3) : ∃ lo y hi z : Rat,
    G.toD.getMin m c d = .fin lo ∧ G.toD.getCenter m c d = .fin y ∧ G.toD.getMax m c d = .fin hi ∧ G.getCenter m c d = some z ∧
    lo ≤ y ∧ y ≤ hi ∧ mag (y - z) ≤ cellErr (G.coord d (cell0 m c d)) (G.coord d (cell0 m c d + 1)) * (44 / 10) ∧
    mag (lo - G.pos m d (m.cfg.idx c d)) ≤ cellErr (G.coord d (cell0 m c d)) (G.coord d (cell0 m c d + 1)) * 6 ∧
    mag (hi - G.pos m d (m.cfg.idx c d + m.cfg.side c)) ≤ cellErr (G.coord d (cell0 m c d)) (G.coord d (cell0 m c d + 1)) * 6 := by
  have hq := idx_div_lt h hv d
  have hsd := idx_side h hv d
  obtain ⟨y, y1, y2⟩ := (hs d _ hq).center_close (lvl_le hv) hsd
  have hc : G.toD.getCenter m c d = .fin y := by
    rw [StretchedD.getCenter_eq h, if_pos hv, toD_coord hG (by omega), toD_coord hG (by omega)]
    exact y1
  have hy53 : Has53 y := by
    have e : (Val.fin y) = _ := y1.symm
    generalize (Val.fin (G.coord d (m.cfg.idx c d / 2 ^ m.cfg.maxLvl))).add _ = u at e
    generalize Val.div (Val.div _ _) _ = w at e
    cases u with
    | nan => cases w <;> cases e
    | inf s => cases w <;> simp [Val.add] at e <;> (split at e <;> cases e)
    | fin u =>
      cases w with
      | nan => cases e
      | inf s => cases e
      | fin w =>
        rw [Val.add_fin] at e
        unfold Val.ofRat at e
        generalize huge = H at e
        split at e
        · cases e
        · split at e
          · cases e
          · injection e with e
            rw [e]; exact rnd_has53 _
  obtain ⟨lo, hi, c1, c2, c3, c4, c5, c6⟩ := (hs d _ hq).corner_close (lvl_le hv) hsd hy53 y2
  have hl := StretchedD.getLength_eq h G.toD c d
  rw [if_pos hv, toD_coord hG (by omega), toD_coord hG (by omega)] at hl
  have hz := getCenter_eq h G c d
  rw [if_pos hv] at hz
  refine ⟨lo, y, hi, _, ?_, hc, ?_, hz, c3, c4, y2, c5, ?_⟩
  · unfold StretchedD.getMin
    rw [hc, hl]; exact c1
  · unfold StretchedD.getMax
    rw [hc, hl]; exact c2
  · rw [pos_idx_side h G hv, Rat.natCast_add]
    have e := side_len (lvl_le hv) (G.coord d (cell0 m c d + 1) - G.coord d (cell0 m c d))
    unfold cell0 side at *
    rw [show ∀ A B C D : Rat, A + B * (C + D) = A + B * C + B * D from fun A B C D => by grind, e]
    exact c6

/-- A coordinate at least four errors inside of a cell is located in the cell. -/
theorem safe_locate (h : m.OK) (hG : G.Ok m) (hs : G.SafeGrid m) {c : Nat} (hv : m.cfg.Valid c) {d : Fin 3} {x : Rat}
    (h1 : G.pos m d (m.cfg.idx c d) + cellErr (G.coord d (cell0 m c d)) (G.coord d (cell0 m c d + 1)) * 4 ≤ x)
    (h2 : x ≤ G.pos m d (m.cfg.idx c d + m.cfg.side c) - cellErr (G.coord d (cell0 m c d)) (G.coord d (cell0 m c d + 1)) * 4) :
    ∃ p, G.toD.locate m d (.fin x) = .ok p ∧ m.cfg.idx c d ≤ p ∧ p < m.cfg.idx c d + m.cfg.side c := by
  have hq : cell0 m c d < m.len d := idx_div_lt h hv d
  have hsd := idx_side h hv d
  have hcell := hs d _ hq
  have hE := hcell.err_pos
  have hX := pow_pos' m.cfg.maxLvl
  have hW : m.cfg.n d < W := (Mapping.lens_lt h (Nat.le_refl _)).1 d
  have hend := end_le h.wf hv d
  have hdm := Nat.div_add_mod (m.cfg.idx c d) (2 ^ m.cfg.maxLvl)
  rw [Nat.mul_comm] at hdm
  rw [pos_idx] at h1
  rw [pos_idx_side h G hv] at h2
  have hd : m.cfg.idx c d / 2 ^ m.cfg.maxLvl = cell0 m c d := rfl
  rw [hd] at hdm
  generalize cell0 m c d = q at *
  generalize hr0 : m.cfg.idx c d % 2 ^ m.cfg.maxLvl = r0 at *
  have hstep := step_pos hG hq
  have hin1 : G.coord d q < x := by
    have := Rat.mul_nonneg (Rat.le_of_lt hstep) (show (0 : Rat) ≤ (r0 : Rat) by exact_mod_cast Nat.zero_le r0)
    grind
  have hin2 : x ≤ G.coord d (q + 1) := by
    have h3 : ((r0 + m.cfg.side c : Nat) : Rat) ≤ ((2 ^ m.cfg.maxLvl : Nat) : Rat) := Rat.natCast_le_natCast.2 hsd
    have h4 := Rat.mul_le_mul_of_nonneg_left h3 (Rat.le_of_lt hstep)
    have e : (G.coord d (q + 1) - G.coord d q) / ((2 ^ m.cfg.maxLvl : Nat) : Rat) * ((2 ^ m.cfg.maxLvl : Nat) : Rat) =
        G.coord d (q + 1) - G.coord d q := by grind
    rw [e] at h4
    grind
  have hl := (hcell.len_close (Nat.le_refl m.cfg.maxLvl)).1
  obtain ⟨t, -, t2, t3⟩ := hcell.pos_close hsd
  have hstop : ¬ ((Val.fin (G.coord d q)).add ((Val.ofNat (r0 + m.cfg.side c)).mul
      (.fin (rnd (G.coord d (q + 1) - G.coord d q) / ((2 ^ m.cfg.maxLvl : Nat) : Rat))))).lt (.fin x) := by
    rw [t2]
    show ¬ t < x
    have := (mag_le_iff.1 t3)
    grind
  have hpow : 2 ^ m.cfg.maxLvl < W := by
    have : 1 * 2 ^ m.cfg.maxLvl ≤ m.len d * 2 ^ m.cfg.maxLvl := Nat.mul_le_mul_right _ (h.pos d)
    have : m.cfg.n d = m.len d * 2 ^ m.cfg.maxLvl := rfl
    omega
  obtain ⟨r, e1, e2, e3, e4⟩ := toD_locate_stop h hG hq hin1 hin2 hl (Nat.lt_of_le_of_lt hsd hpow) hstop
  have hr : r0 < r := by
    apply Classical.byContradiction
    intro hn
    apply e3
    obtain ⟨t, -, u2, u3⟩ := hcell.pos_close (r := r) (by omega)
    rw [u2]
    show t < x
    have h5 := Rat.mul_le_mul_of_nonneg_left (show (r : Rat) ≤ (r0 : Rat) from Rat.natCast_le_natCast.2 (by omega))
      (Rat.le_of_lt hstep)
    have := (mag_le_iff.1 u3)
    grind
  refine ⟨_, e4, ?_⟩
  rw [wsub_eq (by omega) (by omega), wadd_eq (by omega)]
  omega

/-- The cell of a coordinate at least four errors inside of a cell. -/
theorem safe_cell (h : m.OK) (hG : G.Ok m) (hs : G.SafeGrid m) {y : V3 Rat} {c : Nat} (hc : m.ValidId c)
    (h1 : ∀ d, G.pos m d (m.cfg.idx c d) + cellErr (G.coord d (cell0 m c d)) (G.coord d (cell0 m c d + 1)) * 4 ≤ y d)
    (h2 : ∀ d, y d ≤ G.pos m d (m.cfg.idx c d + m.cfg.side c) -
      cellErr (G.coord d (cell0 m c d)) (G.coord d (cell0 m c d + 1)) * 4) :
    G.toD.getCell m (m.getLevel c) (fun d => .fin (y d)) = .ok c := by
  have hv := (Mapping.validId_iff h).1 hc
  obtain ⟨k, hk⟩ := choose3 fun d => safe_locate h hG hs hv (h1 d) (h2 d)
  have hi : G.toD.getIndices m (fun d => .fin (y d)) = .ok k := by
    unfold StretchedD.getIndices
    rw [(hk 0).1, (hk 1).1, (hk 2).1]
    show Res.ok (v3 _ _ _) = _
    rw [v3_of]
  obtain ⟨r1, r2, -⟩ := Mapping.C01_id_roundtrip h hc
  unfold StretchedD.getCell
  rw [if_neg (by omega), hi]
  show Res.ok _ = Res.ok _
  have hin : m.Inside k c := (Mapping.inside_iff h hc).2 fun d => (hk d).2
  have hk' : m.InsideGrid k := fun d => Nat.lt_of_lt_of_le (hk d).2.2 (end_le h.wf hv d)
  exact congrArg Res.ok ((Mapping.C02_index_roundtrip h hk' r1 r2).2.2.2.2.2 c hc rfl hin).symm

end Stretched
end Dccrg
