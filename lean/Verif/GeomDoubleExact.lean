import Verif.GeomDouble
import Verif.DoubleSpec
import Verif.GeomLocate
import Verif.Nbr64Spec
/-!
# Grids on which `double` is exact

If the start of a grid and lengths of its smallest cells are small multiples of a power of two then nothing is rounded.
-/
namespace Dccrg

/-- `2^k * 2^-1074` -/
def unit (k : Nat) : Rat := ((2 ^ k : Nat) : Rat) / 2 ^ 1074

theorem pow1074_ne : (2 : Rat) ^ 1074 ≠ 0 := by
  rw [← two_pow_cast]; have := pow_pos' 1074; grind

theorem unit_pos (k : Nat) : 0 < unit k := by
  unfold unit
  rw [← two_pow_cast 1074, Rat.lt_div_iff (pow_pos' _)]
  have := pow_pos' k
  grind

theorem unit_add (k j : Nat) : unit (k + j) = ((2 ^ j : Nat) : Rat) * unit k := by
  unfold unit
  rw [Nat.pow_add, Rat.natCast_mul]
  grind

theorem unit_one : unit 1074 = 1 := by
  unfold unit
  rw [two_pow_cast]
  have := pow1074_ne
  grind

theorem huge_eq : huge = unit 2098 := by
  rw [show 2098 = 1074 + 1024 from rfl, unit_add, unit_one]
  unfold huge
  rw [two_pow_cast]
  grind

theorem unit_lt {k j : Nat} (h : k < j) : unit k < unit j := by
  obtain ⟨i, rfl⟩ : ∃ i, j = k + (i + 1) := ⟨j - k - 1, by omega⟩
  rw [unit_add]
  have hp := unit_pos k
  have h1 : (2 : Nat) ≤ 2 ^ (i + 1) := by
    have := Nat.pow_le_pow_right (n := 2) (by omega) (show 1 ≤ i + 1 by omega)
    simpa using this
  have h2 := Rat.natCast_le_natCast.2 h1
  have h3 := Rat.mul_le_mul_of_nonneg_right h2 (Rat.le_of_lt hp)
  have : ((2 : Nat) : Rat) = 2 := rfl
  grind

theorem has53_units {z : Int} {k : Nat} (h : z.natAbs ≤ 2 ^ 53) : Has53 ((z : Rat) * unit k) :=
  ⟨z, k, h, by unfold unit; grind⟩

theorem mag_int (z : Int) : mag (z : Rat) = ((z.natAbs : Nat) : Rat) := by
  unfold mag
  split
  · rename_i hm
    have : z < 0 := Rat.intCast_lt_intCast.1 (by exact_mod_cast hm)
    have e3 : ((z.natAbs : Nat) : Int) = -z := by omega
    have : (((z.natAbs : Nat) : Int) : Rat) = ((-z : Int) : Rat) := by rw [e3]
    push_cast at this
    exact this.symm
  · rename_i hm
    have : ¬ z < 0 := fun h => hm (by exact_mod_cast Rat.intCast_lt_intCast.2 h)
    have e3 : ((z.natAbs : Nat) : Int) = z := by omega
    have : (((z.natAbs : Nat) : Int) : Rat) = (z : Rat) := by rw [e3]
    exact this.symm

theorem mag_units {z : Int} {k : Nat} (h : z.natAbs ≤ 2 ^ 53) (hk : k ≤ 2044) : mag ((z : Rat) * unit k) < huge := by
  have hp := unit_pos k
  rw [mag_mul hp, mag_int, huge_eq]
  have h1 := Rat.mul_le_mul_of_nonneg_right (Rat.natCast_le_natCast.2 h) (Rat.le_of_lt hp)
  rw [← unit_add] at h1
  have h2 := unit_lt (show k + 53 < 2098 by omega)
  grind

theorem Val.ofRat_exact {x : Rat} (h : Has53 x) (hb : mag x < huge) : Val.ofRat x = .fin x := by
  unfold Val.ofRat
  rw [rnd_exact h]
  have h1 := mag_le_iff.1 (show mag x ≤ mag x by grind)
  rw [if_neg (by grind), if_neg (by grind)]

theorem ofRat_units {x : Rat} (z : Int) (k : Nat) (h : z.natAbs ≤ 2 ^ 53) (hk : k ≤ 2044) (hx : x = (z : Rat) * unit k) :
    Val.ofRat x = .fin x := by
  rw [hx]
  exact Val.ofRat_exact (has53_units h) (mag_units h hk)

theorem ofNat_exact {n : Nat} (h : n ≤ 2 ^ 53) : Val.ofNat n = .fin (n : Rat) :=
  ofRat_units (n : Int) 1074 (by omega) (by omega) (by rw [unit_one]; push_cast; grind)

/-- Powers of two up to `2^53` and their inverses. -/
theorem scaleD_eq {k : Int} (hk : k ≤ 21) : scaleD k = .fin ((2 ^ k.toNat : Nat) : Rat) := by
  have h1 : 2 ^ k.toNat ≤ 2 ^ 21 := Nat.pow_le_pow_right (by omega) (by omega)
  have h2 : wshl1 k.toNat = 2 ^ k.toNat := by
    unfold wshl1
    exact Nat.mod_eq_of_lt (Nat.lt_of_le_of_lt h1 (by decide))
  unfold scaleD
  rw [h2]
  exact ofNat_exact (Nat.le_trans h1 (by decide))

theorem unit_sub {j k : Nat} (h : j ≤ k) : unit (k - j) = unit k / ((2 ^ j : Nat) : Rat) := by
  have e := unit_add (k - j) j
  rw [show k - j + j = k by omega] at e
  have := pow_pos' j
  grind

theorem div_scale_one {j : Nat} (hj : j ≤ 21) :
    (Val.fin 1).div (.fin ((2 ^ j : Nat) : Rat)) = .fin (1 / ((2 ^ j : Nat) : Rat)) := by
  have hp := pow_pos' j
  show (if _ then _ else Val.ofRat (1 / ((2 ^ j : Nat) : Rat))) = _
  rw [if_neg (by grind)]
  refine ofRat_units 1 (1074 - j) (by decide) (by omega) ?_
  rw [unit_sub (by omega), unit_one]
  push_cast
  grind

/-! ## Rounded quotients -/

theorem rnd_lt_huge {x : Rat} (h0 : 0 ≤ x) (h : x ≤ 2 ^ 1000) : rnd x < huge := by
  have h1 : Has53 ((2 : Rat) ^ 1000) := ⟨1, 2074, by decide, by decide +kernel⟩
  have h2 := rnd_mono h
  rw [rnd_exact h1] at h2
  have : (2 : Rat) ^ 1000 < huge := by unfold huge; decide +kernel
  grind

theorem ofRat_rnd {x : Rat} (h0 : 0 ≤ x) (h : x ≤ 2 ^ 1000) : Val.ofRat x = .fin (rnd x) := by
  have h1 := rnd_lt_huge h0 h
  have h2 := rnd_nonneg h0
  have h3 : (0 : Rat) < huge := by unfold huge; decide +kernel
  unfold Val.ofRat
  rw [if_neg (by grind), if_neg (by grind)]

theorem has53_nat {n : Nat} (h : n ≤ 2 ^ 53) : Has53 (n : Rat) := by
  have := has53_units (z := (n : Int)) (k := 1074) (by omega)
  rw [unit_one] at this
  have e : ((n : Int) : Rat) * 1 = (n : Rat) := by push_cast; grind
  rw [e] at this
  exact this

theorem ceil_eq {x : Rat} {z : Int} (h1 : (z : Rat) < x + 1) (h2 : x ≤ (z : Rat)) : x.ceil = z := by
  have a1 : x ≤ (x.ceil : Rat) := Rat.le_ceil
  have a2 : (x.ceil : Rat) < x + 1 := Rat.ceil_lt
  have b1 : x.ceil < z + 1 := Rat.intCast_lt_intCast.1 (by push_cast; grind)
  have b2 : z < x.ceil + 1 := Rat.intCast_lt_intCast.1 (by push_cast; grind)
  omega

/-- Rounding does not carry a quotient of small numbers to the next integer. -/
theorem rnd_quot {D m : Nat} (hD : D < 2 ^ 53) (hm : 0 < m) (hm' : m ≤ 2 ^ 53) :
    (rnd ((D : Rat) / m)).floor = ((D : Rat) / m).floor ∧ (rnd ((D : Rat) / m)).ceil = ((D : Rat) / m).ceil := by
  have hmR : (0 : Rat) < (m : Rat) := by exact_mod_cast hm
  have hf : D / m ≤ D := Nat.div_le_self _ _
  have e := Nat.div_add_mod D m
  have hr := Nat.mod_lt D hm
  generalize hq : (D : Rat) / m = q
  have eq : (m : Rat) * q = (D : Rat) := by grind
  have hq0 : 0 ≤ q := by
    rw [← hq]; exact div_nonneg' (by exact_mod_cast Nat.zero_le D) hmR
  generalize D / m = f at *
  generalize D % m = r at *
  have eR : (m : Rat) * (f : Rat) + (r : Rat) = (D : Rat) := by exact_mod_cast e
  by_cases h0 : r = 0
  · subst h0
    have : (m : Rat) * (q - (f : Rat)) = 0 := by
      have : ((0 : Nat) : Rat) = 0 := rfl
      grind
    have : q = (f : Rat) := by grind
    rw [this, rnd_exact (has53_nat (by omega))]
    exact ⟨rfl, rfl⟩
  · have h1 : (1 : Rat) ≤ (r : Rat) := by
      have : 1 ≤ r := by omega
      exact_mod_cast this
    have h2 : (r : Rat) + 1 ≤ (m : Rat) := by
      have : r + 1 ≤ m := by omega
      exact_mod_cast this
    have herr : (m : Rat) * ulp q < 2 := by
      have hm2 : (m : Rat) ≤ ((2 ^ 53 : Nat) : Rat) := Rat.natCast_le_natCast.2 hm'
      have hD2 : (D : Rat) < ((2 ^ 53 : Nat) : Rat) := Rat.natCast_lt_natCast.2 hD
      rcases ulp_le q with h | h
      · rw [mag_of_nonneg hq0] at h
        have h3 := Rat.mul_le_mul_of_nonneg_left h (Rat.le_of_lt hmR)
        have c1 : (2 : Rat) ^ 52 = 4503599627370496 := by decide +kernel
        have c2 : ((2 ^ 53 : Nat) : Rat) = 9007199254740992 := by decide +kernel
        rw [c1] at h3
        rw [c2] at hD2
        generalize ulp q = u at *
        grind
      · have h3 := Rat.mul_le_mul_of_nonneg_right hm2 (Rat.le_of_lt (ulp_pos q))
        have h4 : ulp q = 1 / 2 ^ 1074 := by have := pow1074_ne; grind
        have h5 : ((2 ^ 53 : Nat) : Rat) * (1 / 2 ^ 1074) < 2 := by decide +kernel
        rw [← h4] at h5
        grind
    have h3 := rnd_err q
    have h4 := Rat.mul_le_mul_of_nonneg_left h3.1 (Rat.le_of_lt hmR)
    have h5 := Rat.mul_le_mul_of_nonneg_left h3.2 (Rat.le_of_lt hmR)
    have k1 : (m : Rat) * rnd q < (m : Rat) * ((f : Rat) + 1) := by grind
    have k2 : (m : Rat) * (f : Rat) < (m : Rat) * rnd q := by grind
    have g1 : rnd q < (f : Rat) + 1 := by
      apply Classical.byContradiction
      intro hn
      have := Rat.mul_le_mul_of_nonneg_left (show (f : Rat) + 1 ≤ rnd q by grind) (Rat.le_of_lt hmR)
      grind
    have g2 : (f : Rat) < rnd q := by
      apply Classical.byContradiction
      intro hn
      have := Rat.mul_le_mul_of_nonneg_left (show rnd q ≤ (f : Rat) by grind) (Rat.le_of_lt hmR)
      grind
    have g3 : q < (f : Rat) + 1 := by
      apply Classical.byContradiction
      intro hn
      have := Rat.mul_le_mul_of_nonneg_left (show (f : Rat) + 1 ≤ q by grind) (Rat.le_of_lt hmR)
      grind
    have g4 : (f : Rat) < q := by
      apply Classical.byContradiction
      intro hn
      have := Rat.mul_le_mul_of_nonneg_left (show q ≤ (f : Rat) by grind) (Rat.le_of_lt hmR)
      grind
    have c : (((f : Int)) : Rat) = (f : Rat) := by push_cast; rfl
    have c' : (((f : Int) + 1 : Int) : Rat) = (f : Rat) + 1 := by push_cast; rfl
    rw [floor_eq (z := (f : Int)) (by rw [c]; grind) (by rw [c]; grind),
      floor_eq (z := (f : Int)) (by rw [c]; grind) (by rw [c]; grind),
      ceil_eq (z := (f : Int) + 1) (by rw [c']; grind) (by rw [c']; grind),
      ceil_eq (z := (f : Int) + 1) (by rw [c']; grind) (by rw [c']; grind)]
    exact ⟨rfl, rfl⟩

/-! ## One dimension -/

/-- Start `a` and length `l` of cells of one dimension: `n` unrefined cells, `2^M` indices each. -/
structure BinDim (M n : Nat) (a l : Rat) (k : Nat) (A : Int) (B : Nat) : Prop where
  start : a = (A : Rat) * unit k
  len : l = (B : Rat) * ((2 ^ (M + 1) : Nat) : Rat) * unit k
  pos : 0 < B
  cells : 0 < n
  fits : A.natAbs + n * B * 2 ^ (M + 1) ≤ 2 ^ 51
  lvl : M ≤ 21
  exp : k + M ≤ 2044

theorem Val.add_fin (x y : Rat) : (Val.fin x).add (.fin y) = .ofRat (x + y) := rfl
theorem Val.mul_fin (x y : Rat) : (Val.fin x).mul (.fin y) = .ofRat (x * y) := rfl
theorem Val.sub_fin (x y : Rat) : (Val.fin x).sub (.fin y) = .ofRat (x - y) := by
  show Val.ofRat (x + -y) = _
  rw [show x + -y = x - y by grind]
theorem Val.div_fin {x y : Rat} (h : y ≠ 0) : (Val.fin x).div (.fin y) = .ofRat (x / y) := if_neg h

theorem natCast_int (n : Nat) : (((n : Nat) : Int) : Rat) = (n : Rat) := by push_cast; rfl

namespace BinDim
variable {M n k B : Nat} {a l : Rat} {A : Int} (h : BinDim M n a l k A B)
include h

theorem len_pos : 0 < l := by
  rw [h.len]
  have h1 : (0 : Rat) < (B : Rat) := by have := h.pos; exact_mod_cast this
  exact Rat.mul_pos (Rat.mul_pos h1 (pow_pos' _)) (unit_pos k)

theorem le_idx {p : Nat} (hp : p ≤ n * 2 ^ M) : p * B * 2 ≤ n * B * 2 ^ (M + 1) := by
  have := Nat.mul_le_mul_right (B * 2) hp
  rw [Nat.pow_succ]
  calc p * B * 2 = p * (B * 2) := by rw [Nat.mul_assoc]
    _ ≤ n * 2 ^ M * (B * 2) := this
    _ = n * B * (2 ^ M * 2) := by ac_rfl

theorem le_part {i : Nat} (hi : i ≤ M + 1) : B * 2 ^ i ≤ n * B * 2 ^ (M + 1) := by
  have h1 : 2 ^ i ≤ 2 ^ (M + 1) := Nat.pow_le_pow_right (by omega) hi
  have h2 : B ≤ n * B := Nat.le_mul_of_pos_left _ h.cells
  exact Nat.mul_le_mul h2 h1

/-- `l / 2^j` in units. -/
theorem len_div {j : Nat} (hj : j ≤ M + 1) : l / ((2 ^ j : Nat) : Rat) = ((B * 2 ^ (M + 1 - j) : Nat) : Rat) * unit k := by
  rw [h.len, show 2 ^ (M + 1) = 2 ^ (M + 1 - j) * 2 ^ j by rw [← Nat.pow_add]; congr 1; omega, Rat.natCast_mul,
    Rat.natCast_mul]
  have := pow_pos' j
  grind

theorem length {j : Nat} (hj : j ≤ M) : (Val.fin l).mul (.fin (1 / ((2 ^ j : Nat) : Rat))) = .fin (l / ((2 ^ j : Nat) : Rat)) := by
  rw [Val.mul_fin, show l * (1 / ((2 ^ j : Nat) : Rat)) = l / ((2 ^ j : Nat) : Rat) by grind]
  refine ofRat_units ((B * 2 ^ (M + 1 - j) : Nat) : Int) k ?_ (by have := h.exp; omega)
    (by rw [natCast_int]; exact h.len_div (by omega))
  have h1 := h.le_part (i := M + 1 - j) (by omega)
  have h2 := h.fits
  generalize B * 2 ^ (M + 1 - j) = x at *
  generalize n * B * 2 ^ (M + 1) = y at *
  omega

theorem half_eq {j : Nat} : l / ((2 ^ j : Nat) : Rat) / 2 = l / ((2 ^ (j + 1) : Nat) : Rat) := by
  rw [Nat.pow_succ, Rat.natCast_mul]
  have := pow_pos' j
  have e : ((2 : Nat) : Rat) = 2 := rfl
  grind

theorem half {j : Nat} (hj : j ≤ M) :
    (Val.fin (l / ((2 ^ j : Nat) : Rat))).div (.fin 2) = .fin (l / ((2 ^ j : Nat) : Rat) / 2) := by
  rw [Val.div_fin (by decide), h.half_eq]
  refine ofRat_units ((B * 2 ^ (M + 1 - (j + 1)) : Nat) : Int) k ?_ (by have := h.exp; omega)
    (by rw [natCast_int]; exact h.len_div (by omega))
  have h1 := h.le_part (i := M + 1 - (j + 1)) (by omega)
  have h2 := h.fits
  generalize B * 2 ^ (M + 1 - (j + 1)) = x at *
  generalize n * B * 2 ^ (M + 1) = y at *
  omega

theorem idx_le {p : Nat} (hp : p ≤ n * 2 ^ M) : p ≤ 2 ^ 51 := by
  have h1 := h.le_idx hp
  have h2 := h.fits
  have h3 := Nat.le_mul_of_pos_right p h.pos
  generalize n * B * 2 ^ (M + 1) = y at *
  generalize p * B = x at *
  omega

/-- `p * l` -/
theorem idx_mul {p : Nat} (hp : p ≤ n * 2 ^ M) : (Val.ofNat p).mul (.fin l) = .fin ((p : Rat) * l) := by
  rw [ofNat_exact (Nat.le_trans (h.idx_le hp) (by decide)), Val.mul_fin]
  refine ofRat_units ((p * B * 2 : Nat) : Int) (k + M) ?_ h.exp ?_
  · have h1 := h.le_idx hp
    have h2 := h.fits
    generalize n * B * 2 ^ (M + 1) = y at *
    generalize p * B * 2 = x at *
    omega
  · rw [natCast_int, unit_add, h.len, Nat.pow_succ, Rat.natCast_mul, Rat.natCast_mul, Rat.natCast_mul]
    grind

theorem pos_eq (p : Nat) : (p : Rat) * l / ((2 ^ M : Nat) : Rat) = ((p * B * 2 : Nat) : Rat) * unit k := by
  rw [h.len, Nat.pow_succ, Rat.natCast_mul, Rat.natCast_mul, Rat.natCast_mul]
  have := pow_pos' M
  grind

theorem idx_div {p : Nat} (hp : p ≤ n * 2 ^ M) :
    (Val.fin ((p : Rat) * l)).div (.fin ((2 ^ M : Nat) : Rat)) = .fin ((p : Rat) * l / ((2 ^ M : Nat) : Rat)) := by
  have := pow_pos' M
  rw [Val.div_fin (by grind)]
  refine ofRat_units ((p * B * 2 : Nat) : Int) k ?_ (by have := h.exp; omega) (by rw [natCast_int]; exact h.pos_eq p)
  have h1 := h.le_idx hp
  have h2 := h.fits
  generalize n * B * 2 ^ (M + 1) = y at *
  generalize p * B * 2 = x at *
  omega

theorem idx_mul_div {p : Nat} (hp : p ≤ n * 2 ^ M) :
    (Val.fin ((p : Rat) * l)).mul (.fin (1 / ((2 ^ M : Nat) : Rat))) = .fin ((p : Rat) * l / ((2 ^ M : Nat) : Rat)) := by
  have e := h.idx_div hp
  have := pow_pos' M
  rw [Val.div_fin (by grind)] at e
  rw [Val.mul_fin, ← e]
  congr 1
  grind

theorem pos_start_eq (p : Nat) : a + (p : Rat) * l / ((2 ^ M : Nat) : Rat) = ((A + ((p * B * 2 : Nat) : Int) : Int) : Rat) * unit k := by
  rw [h.pos_eq, Rat.intCast_add, natCast_int, h.start]
  grind

theorem fits_pos {p : Nat} (hp : p ≤ n * 2 ^ M) : (A + ((p * B * 2 : Nat) : Int)).natAbs ≤ 2 ^ 51 := by
  have h1 := h.le_idx hp
  have h2 := h.fits
  generalize n * B * 2 ^ (M + 1) = y at *
  generalize p * B * 2 = x at *
  omega

theorem at_idx {p : Nat} (hp : p ≤ n * 2 ^ M) :
    (Val.fin a).add (.fin ((p : Rat) * l / ((2 ^ M : Nat) : Rat))) = .fin (a + (p : Rat) * l / ((2 ^ M : Nat) : Rat)) := by
  rw [Val.add_fin]
  exact ofRat_units _ k (Nat.le_trans (h.fits_pos hp) (by decide)) (by have := h.exp; omega) (h.pos_start_eq p)

/-- A coordinate `A * unit k` plus or minus part of a cell. -/
theorem add_part {z : Int} {j : Nat} (hz : z.natAbs ≤ 2 ^ 52) (hj : j ≤ M + 1) :
    Val.ofRat ((z : Rat) * unit k + l / ((2 ^ j : Nat) : Rat)) = .fin ((z : Rat) * unit k + l / ((2 ^ j : Nat) : Rat)) ∧
    Val.ofRat ((z : Rat) * unit k - l / ((2 ^ j : Nat) : Rat)) = .fin ((z : Rat) * unit k - l / ((2 ^ j : Nat) : Rat)) := by
  have h1 := h.le_part (i := M + 1 - j) (by omega)
  have h2 := h.fits
  rw [h.len_div hj]
  generalize B * 2 ^ (M + 1 - j) = x at *
  generalize n * B * 2 ^ (M + 1) = y at *
  have h3 := h.exp
  constructor
  · refine ofRat_units (z + (x : Int)) k (by omega) (by omega) ?_
    rw [Rat.intCast_add, natCast_int]; grind
  · refine ofRat_units (z - (x : Int)) k (by omega) (by omega) ?_
    rw [Rat.intCast_sub, natCast_int]; grind

theorem center {p j : Nat} (hp : p ≤ n * 2 ^ M) (hj : j ≤ M) :
    (Val.fin (a + (p : Rat) * l / ((2 ^ M : Nat) : Rat))).add (.fin (l / ((2 ^ j : Nat) : Rat) / 2)) =
      .fin (a + (p : Rat) * l / ((2 ^ M : Nat) : Rat) + l / ((2 ^ j : Nat) : Rat) / 2) := by
  rw [Val.add_fin, h.half_eq, h.pos_start_eq]
  exact (h.add_part (Nat.le_trans (h.fits_pos hp) (by decide)) (by omega)).1

theorem center_units {p j : Nat} (hp : p ≤ n * 2 ^ M) (hj : j ≤ M) : ∃ z : Int, z.natAbs ≤ 2 ^ 52 ∧
    a + (p : Rat) * l / ((2 ^ M : Nat) : Rat) + l / ((2 ^ j : Nat) : Rat) / 2 = (z : Rat) * unit k := by
  rw [h.half_eq, h.pos_start_eq, h.len_div (by omega)]
  have h1 := h.le_part (i := M + 1 - (j + 1)) (by omega)
  have h2 := h.fits
  have h3 := h.fits_pos hp
  generalize B * 2 ^ (M + 1 - (j + 1)) = x at *
  generalize n * B * 2 ^ (M + 1) = y at *
  generalize A + ((p * B * 2 : Nat) : Int) = t at *
  refine ⟨t + (x : Int), by omega, ?_⟩
  rw [Rat.intCast_add, natCast_int]; grind

theorem center_half {p j : Nat} (hp : p ≤ n * 2 ^ M) (hj : j ≤ M) :
    let c := a + (p : Rat) * l / ((2 ^ M : Nat) : Rat) + l / ((2 ^ j : Nat) : Rat) / 2
    (Val.fin c).add (.fin (l / ((2 ^ j : Nat) : Rat) / 2)) = .fin (c + l / ((2 ^ j : Nat) : Rat) / 2) ∧
    (Val.fin c).sub (.fin (l / ((2 ^ j : Nat) : Rat) / 2)) = .fin (c - l / ((2 ^ j : Nat) : Rat) / 2) := by
  intro c
  obtain ⟨z, hz, e⟩ := h.center_units hp hj
  have e' : c = (z : Rat) * unit k := e
  rw [Val.add_fin, Val.sub_fin, e', h.half_eq]
  exact h.add_part hz (by omega)

theorem end_eq : (Val.fin a).add ((Val.ofNat n).mul (.fin l)) = .fin (a + (n : Rat) * l) := by
  have h0 : n ≤ n * 2 ^ M := Nat.le_mul_of_pos_right _ (Nat.pow_pos (by omega))
  have h1 := h.at_idx (p := n * 2 ^ M) (Nat.le_refl _)
  have e : ((n * 2 ^ M : Nat) : Rat) * l / ((2 ^ M : Nat) : Rat) = (n : Rat) * l := by
    rw [Rat.natCast_mul]; have := pow_pos' M; grind
  rw [e] at h1
  rw [h.idx_mul h0, h1]

theorem end_units : a + (n : Rat) * l = ((A + ((n * B * 2 ^ (M + 1) : Nat) : Int) : Int) : Rat) * unit k := by
  rw [Rat.intCast_add, natCast_int, h.start, h.len, Rat.natCast_mul, Rat.natCast_mul]
  grind

omit h in
/-- Length of a dimension times the number of periods a distance needs. -/
theorem periods {D N k : Nat} (hD : D ≤ 2 ^ 52) (hN : 0 < N) (hN' : N ≤ 2 ^ 51) (hk : k ≤ 2044) :
    ∃ w : Int, 0 ≤ w ∧ (D : Int) ≤ w ∧ w < D + N ∧
      (N : Rat) * unit k * ((((D : Rat) * unit k) / ((N : Rat) * unit k)).ceil : Rat) = (w : Rat) * unit k ∧
      (Val.fin ((N : Rat) * unit k)).mul (((Val.fin ((D : Rat) * unit k)).div (.fin ((N : Rat) * unit k))).ceil) =
        .fin ((w : Rat) * unit k) := by
  have hu := unit_pos k
  have hNR : (0 : Rat) < (N : Rat) := by exact_mod_cast hN
  have hne : (N : Rat) * unit k ≠ 0 := by have := Rat.mul_pos hNR hu; grind
  have e : ((D : Rat) * unit k) / ((N : Rat) * unit k) = (D : Rat) / N := by
    have : unit k ≠ 0 := by grind
    grind
  have h1 := ceil_mul (t := (D : Rat)) hNR
  rw [Val.div_fin hne, e]
  have hq0 : 0 ≤ (D : Rat) / N := div_nonneg' (by exact_mod_cast Nat.zero_le D) hNR
  have hq1 : (D : Rat) / N ≤ 2 ^ 1000 := by
    have h2 : (D : Rat) ≤ ((2 ^ 52 : Nat) : Rat) := Rat.natCast_le_natCast.2 hD
    have h3 : ((2 ^ 52 : Nat) : Rat) ≤ 2 ^ 1000 := by decide +kernel
    have h4 : (1 : Rat) ≤ (N : Rat) := by exact_mod_cast hN
    have h5 := Rat.mul_le_mul_of_nonneg_left h4 hq0
    have : (D : Rat) / N * N = D := by grind
    grind
  rw [ofRat_rnd hq0 hq1]
  show ∃ w : Int, _ ∧ _ ∧ _ ∧ _ ∧ (Val.fin ((N : Rat) * unit k)).mul (.fin _) = _
  rw [(rnd_quot (by omega) hN (by omega)).2, Val.mul_fin]
  generalize ((D : Rat) / N).ceil = c at *
  have c1 : ((N * c : Int) : Rat) = (N : Rat) * (c : Rat) := by push_cast; rfl
  have a1 : (D : Int) ≤ N * c := Rat.intCast_le_intCast.1 (by rw [c1, natCast_int]; exact h1.1)
  have a2 : N * c < (D : Int) + N := Rat.intCast_lt_intCast.1 (by rw [c1, Rat.intCast_add, natCast_int, natCast_int]; exact h1.2)
  have c2 : (N : Rat) * unit k * (c : Rat) = ((N * c : Int) : Rat) * unit k := by rw [c1]; grind
  refine ⟨N * c, by omega, a1, a2, c2, ?_⟩
  rw [c2]
  exact ofRat_units _ k (by generalize (N : Int) * c = w at *; omega) hk rfl

/-- `get_real_coordinate` does not round. -/
theorem real {per : Bool} {z : Int} (hz : z.natAbs ≤ 2 ^ 51) :
    realCoordD per (.fin a) (.fin (a + (n : Rat) * l)) (.fin ((z : Rat) * unit k)) =
      match realCoord per a (a + (n : Rat) * l) (some ((z : Rat) * unit k)) with
      | none => .nan
      | some y => .fin y := by
  have hu := unit_pos k
  have hk := h.exp
  have hf := h.fits
  have hN : 0 < n * B * 2 ^ (M + 1) := Nat.mul_pos (Nat.mul_pos h.cells h.pos) (Nat.pow_pos (by omega))
  have hcmp : ∀ x y : Int, (x : Rat) * unit k ≤ (y : Rat) * unit k ↔ x ≤ y := by
    intro x y
    constructor
    · intro hxy
      apply Classical.byContradiction
      intro hn
      have := Rat.mul_lt_mul_of_pos_right (Rat.intCast_lt_intCast.2 (show y < x by omega)) hu
      grind
    · intro hxy
      exact Rat.mul_le_mul_of_nonneg_right (Rat.intCast_le_intCast.2 hxy) (Rat.le_of_lt hu)
  rw [h.end_units, h.start]
  generalize n * B * 2 ^ (M + 1) = N at *
  have elen : ((A + (N : Int) : Int) : Rat) * unit k - (A : Rat) * unit k = (N : Rat) * unit k := by
    rw [Rat.intCast_add, natCast_int]; grind
  have elenD : Val.ofRat ((N : Rat) * unit k) = .fin ((N : Rat) * unit k) :=
    ofRat_units (N : Int) k (by omega) (by omega) (by rw [natCast_int])
  unfold realCoordD realCoord
  simp only [Val.sub_fin, elen, elenD]
  show (if (A : Rat) * unit k ≤ (z : Rat) * unit k ∧ (z : Rat) * unit k ≤ ((A + (N : Int) : Int) : Rat) * unit k then _
    else if per = true then if (z : Rat) * unit k < (A : Rat) * unit k then _ else _ else _) = _
  by_cases hin : (A : Rat) * unit k ≤ (z : Rat) * unit k ∧ (z : Rat) * unit k ≤ ((A + (N : Int) : Int) : Rat) * unit k
  · rw [if_pos hin, if_pos hin]
  · rw [if_neg hin, if_neg hin]
    rw [hcmp, hcmp] at hin
    cases per with
    | false => rfl
    | true =>
      simp only [if_true]
      by_cases hlt : (z : Rat) * unit k < (A : Rat) * unit k
      · rw [if_pos hlt, if_pos hlt]
        have hzA : z < A := by
          apply Classical.byContradiction
          intro hn
          have := (hcmp A z).2 (by omega)
          grind
        obtain ⟨D, hD⟩ : ∃ D : Nat, (D : Int) = A - z := ⟨(A - z).toNat, by omega⟩
        have eD : (A : Rat) * unit k - (z : Rat) * unit k = (D : Rat) * unit k := by
          rw [← natCast_int, hD, Rat.intCast_sub]; grind
        have eDD : Val.ofRat ((D : Rat) * unit k) = .fin ((D : Rat) * unit k) :=
          ofRat_units (D : Int) k (by omega) (by omega) (by rw [natCast_int])
        obtain ⟨w, w0, w1, w2, w3, w4⟩ := periods (D := D) (N := N) (k := k) (by omega) hN (by omega) (by omega)
        rw [eD, eDD, w4, w3, Val.add_fin]
        refine ofRat_units (z + w) k (by omega) (by omega) ?_
        rw [Rat.intCast_add]; grind
      · rw [if_neg hlt, if_neg hlt]
        have hzA : A ≤ z := by
          apply Classical.byContradiction
          intro hn
          have := Rat.mul_lt_mul_of_pos_right (Rat.intCast_lt_intCast.2 (show z < A by omega)) hu
          grind
        obtain ⟨D, hD⟩ : ∃ D : Nat, (D : Int) = z - (A + N) := ⟨(z - (A + N)).toNat, by omega⟩
        have eD : (z : Rat) * unit k - ((A + (N : Int) : Int) : Rat) * unit k = (D : Rat) * unit k := by
          rw [← natCast_int D, hD, Rat.intCast_sub]; grind
        have eDD : Val.ofRat ((D : Rat) * unit k) = .fin ((D : Rat) * unit k) :=
          ofRat_units (D : Int) k (by omega) (by omega) (by rw [natCast_int])
        obtain ⟨w, w0, w1, w2, w3, w4⟩ := periods (D := D) (N := N) (k := k) (by omega) hN (by omega) (by omega)
        rw [eD, eDD, w4, w3, Val.sub_fin]
        refine ofRat_units (z - w) k (by omega) (by omega) ?_
        rw [Rat.intCast_sub]; grind

/-- `get_indices` does not round to another index. -/
theorem located {z : Int} (hz : z.natAbs ≤ 2 ^ 51) (h1 : a ≤ (z : Rat) * unit k) :
    (((Val.fin ((z : Rat) * unit k)).sub (.fin a)).div ((Val.fin l).div (.fin ((2 ^ M : Nat) : Rat)))).floor.toU64 =
      some ((((z : Rat) * unit k - a) / (l / ((2 ^ M : Nat) : Rat))).floor.toNat) := by
  have hu := unit_pos k
  have hk := h.exp
  have hf := h.fits
  have hb := h.le_part (i := 1) (by omega)
  have hB := h.pos
  have hzA : A ≤ z := by
    rw [h.start] at h1
    apply Classical.byContradiction
    intro hn
    have := Rat.mul_lt_mul_of_pos_right (Rat.intCast_lt_intCast.2 (show z < A by omega)) hu
    grind
  obtain ⟨D, hD⟩ : ∃ D : Nat, (D : Int) = z - A := ⟨(z - A).toNat, by omega⟩
  have eD : (z : Rat) * unit k - a = (D : Rat) * unit k := by
    rw [h.start, ← natCast_int, hD, Rat.intCast_sub]; grind
  have el := h.len_div (j := M) (by omega)
  rw [show M + 1 - M = 1 by omega] at el
  generalize n * B * 2 ^ (M + 1) = N at *
  generalize hE : B * 2 ^ 1 = E at *
  have hE0 : 0 < E := by omega
  have hER : (0 : Rat) < (E : Rat) := by exact_mod_cast hE0
  have hne : (E : Rat) * unit k ≠ 0 := by have := Rat.mul_pos hER hu; grind
  have e : ((D : Rat) * unit k) / ((E : Rat) * unit k) = (D : Rat) / E := by
    have : unit k ≠ 0 := by grind
    grind
  have hp := pow_pos' M
  have x1 : Val.ofRat ((E : Rat) * unit k) = .fin ((E : Rat) * unit k) :=
    ofRat_units (E : Int) k (by omega) (by omega) (by rw [natCast_int])
  have x2 : Val.ofRat ((D : Rat) * unit k) = .fin ((D : Rat) * unit k) :=
    ofRat_units (D : Int) k (by omega) (by omega) (by rw [natCast_int])
  rw [Val.sub_fin, Val.div_fin (x := l) (by grind), el, eD, x1, x2, Val.div_fin hne, e]
  have hq0 : 0 ≤ (D : Rat) / E := div_nonneg' (by exact_mod_cast Nat.zero_le D) hER
  have hDR : (D : Rat) ≤ ((2 ^ 52 : Nat) : Rat) := Rat.natCast_le_natCast.2 (by omega)
  have hq1 : (D : Rat) / E ≤ ((2 ^ 52 : Nat) : Rat) := by
    have h4 : (1 : Rat) ≤ (E : Rat) := by exact_mod_cast hE0
    have h5 := Rat.mul_le_mul_of_nonneg_left h4 hq0
    have : (D : Rat) / E * E = D := by grind
    grind
  have hq2 : ((2 ^ 52 : Nat) : Rat) ≤ 2 ^ 1000 := by decide +kernel
  rw [ofRat_rnd hq0 (by grind)]
  show (Val.fin _).toU64 = _
  rw [(rnd_quot (by omega) hE0 (by omega)).1]
  have f1 := Rat.le_floor_iff.2 (show ((0 : Int) : Rat) ≤ (D : Rat) / E by push_cast; exact hq0)
  have f2 := (floor_bounds ((D : Rat) / E)).1
  have f3 : ((0 : Int) : Rat) ≤ (((D : Rat) / E).floor : Rat) := Rat.intCast_le_intCast.2 f1
  have f4 : ((2 ^ 52 : Nat) : Rat) < 2 ^ 64 := by decide +kernel
  have f5 : ((0 : Int) : Rat) = 0 := rfl
  show (if _ then some (Rat.floor _).toNat else none) = _
  rw [if_pos ⟨by grind, by grind⟩, Rat.floor_intCast]

end BinDim

end Dccrg
