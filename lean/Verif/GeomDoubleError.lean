import Verif.GeomDoubleNone
/-!
# Errors of `double` in one dimension of a grid
-/
namespace Dccrg

/-- Relative error of one operation. -/
def eps : Rat := 1 / 2 ^ 53

/-- Error of one operation with a subnormal result. -/
def tiny : Rat := 1 / 2 ^ 1075

theorem eps_pos : 0 < eps := by unfold eps; decide +kernel
theorem tiny_pos : 0 < tiny := by unfold tiny; decide +kernel

theorem rnd_near (x : Rat) : mag (rnd x - x) ≤ eps * mag x + tiny := by
  have h := rnd_err x
  have h1 : mag (rnd x - x) ≤ ulp x / 2 := mag_le_iff.2 ⟨by grind, by grind⟩
  have h2 : ulp x / 2 ≤ eps * mag x + tiny := by
    have hm := mag_nonneg x
    rcases ulp_le x with h | h
    · have e : (2 : Rat) ^ 53 = 2 * 2 ^ 52 := by decide +kernel
      have p : (0 : Rat) < 2 ^ 52 := by decide +kernel
      unfold eps
      rw [e]
      have := tiny_pos
      generalize (2 : Rat) ^ 52 = P at *
      have e2 : 1 / (2 * P) * mag x = (mag x / P) / 2 := by grind
      have e3 : ulp x ≤ mag x / P := by
        have h3 : ulp x * P ≤ mag x / P * P := by
          rw [show mag x / P * P = mag x by grind]; grind
        apply Classical.byContradiction
        intro hn
        have := Rat.mul_lt_mul_of_pos_right (show mag x / P < ulp x by grind) p
        grind
      rw [e2]
      generalize mag x / P = y at *
      grind
    · have e : ulp x / 2 = tiny := by
        have e1 : (2 : Rat) ^ 1075 = 2 * 2 ^ 1074 := by decide +kernel
        unfold tiny
        rw [e1]
        have := pow1074_ne
        generalize (2 : Rat) ^ 1074 = P at *
        grind
      rw [e]
      have := Rat.mul_nonneg (Rat.le_of_lt eps_pos) hm
      grind
  grind

/-- The error of one operation with a result up to `B`, with `delta = eps * B`. -/
theorem rnd_close {x B delta : Rat} (hd : delta = eps * B) (ht : tiny ≤ delta / 1000) (h1 : -(B + B / 100) ≤ x)
    (h2 : x ≤ B + B / 100) : rnd x ≤ x + (delta + delta / 50) ∧ x ≤ rnd x + (delta + delta / 50) := by
  have hm : mag x ≤ B + B / 100 := mag_le_iff.2 ⟨h2, h1⟩
  have h3 := rnd_near x
  have h4 := Rat.mul_le_mul_of_nonneg_left hm (Rat.le_of_lt eps_pos)
  have h5 := mag_le_iff.1 (show mag (rnd x - x) ≤ mag (rnd x - x) by grind)
  have h6 := tiny_pos
  have e : eps * (B + B / 100) = delta + delta / 100 := by grind
  rw [e] at h4
  constructor <;> grind

theorem ofRat_bound {x : Rat} (h : mag x ≤ 2 ^ 1001) : Val.ofRat x = .fin (rnd x) := by
  have h1 : Has53 ((2 : Rat) ^ 1001) := ⟨1, 2075, by decide, by decide +kernel⟩
  obtain ⟨a, b⟩ := mag_le_iff.1 h
  have h2 := rnd_mono a
  have h3 := rnd_mono b
  rw [rnd_neg] at h3
  rw [rnd_exact h1] at h2 h3
  have h4 : (2 : Rat) ^ 1001 < huge := by unfold huge; decide +kernel
  unfold Val.ofRat
  generalize (2 : Rat) ^ 1001 = P at *
  generalize huge = H at *
  rw [if_neg (by grind), if_neg (by grind)]

/-- Division by powers of two is exact if the result is not too small. -/
theorem Has53.div_pow {x : Rat} {j : Nat} (h : Has53 x) (hj : j ≤ 22) (hx : 1 ≤ mag x * 2 ^ 960) :
    Has53 (x / ((2 ^ j : Nat) : Rat)) := by
  obtain ⟨z, k, hz, e⟩ := h
  have hk : j ≤ k := by
    apply Classical.byContradiction
    intro hn
    have e1 : x = (z : Rat) * unit k := by rw [e]; unfold unit; grind
    have hu := unit_pos k
    rw [e1, mag_mul hu, mag_int] at hx
    have h1 : ((z.natAbs : Nat) : Rat) ≤ ((2 ^ 53 : Nat) : Rat) := Rat.natCast_le_natCast.2 hz
    have h2 : unit k ≤ unit 22 := Rat.le_of_lt (unit_lt (show k < 22 by omega))
    have h3 := Rat.mul_le_mul_of_nonneg_right h1 (Rat.le_of_lt hu)
    have h4 := Rat.mul_le_mul_of_nonneg_left h2 (Rat.le_of_lt (pow_pos' 53))
    have h5 : ((2 ^ 53 : Nat) : Rat) * unit 22 * 2 ^ 960 < 1 := by unfold unit; decide +kernel
    have h6 : (0 : Rat) ≤ 2 ^ 960 := by decide +kernel
    have h7 := Rat.mul_le_mul_of_nonneg_right (show ((z.natAbs : Nat) : Rat) * unit k ≤ ((2 ^ 53 : Nat) : Rat) * unit 22 by grind) h6
    grind
  refine ⟨z, k - j, hz, ?_⟩
  rw [e, show 2 ^ k = 2 ^ (k - j) * 2 ^ j by rw [← Nat.pow_add]; congr 1; omega, Rat.natCast_mul]
  have := pow_pos' j
  grind

/-- One dimension of a grid with parameters that do not overflow or become too small: start `a`, length `l` of `n`
unrefined cells, `2^M` indices each. -/
structure SafeDim (M n : Nat) (a l : Rat) : Prop where
  start : Has53 a
  len : Has53 l
  cells : 0 < n
  small : 1 ≤ l * 2 ^ 900
  idx : n * 2 ^ M ≤ 2 ^ 53
  big : mag a + ((n * 2 ^ M : Nat) : Rat) * l ≤ 2 ^ 1000
  lvl : M ≤ 21

namespace SafeDim
variable {M n : Nat} {a l : Rat} (h : SafeDim M n a l)
include h

theorem len_pos : 0 < l := by
  have := h.small
  have p : (0 : Rat) < 2 ^ 900 := by decide +kernel
  apply Classical.byContradiction
  intro hn
  have := Rat.mul_le_mul_of_nonneg_right (show l ≤ 0 by grind) (Rat.le_of_lt p)
  grind

theorem cells_le : (n : Rat) * l ≤ ((n * 2 ^ M : Nat) : Rat) * l :=
  Rat.mul_le_mul_of_nonneg_right (Rat.natCast_le_natCast.2 (Nat.le_mul_of_pos_right _ (Nat.pow_pos (by omega))))
    (Rat.le_of_lt h.len_pos)

theorem len_le : l ≤ (n : Rat) * l := by
  have h1 : (1 : Rat) ≤ (n : Rat) := by have := h.cells; exact_mod_cast this
  have := Rat.mul_le_mul_of_nonneg_right h1 (Rat.le_of_lt h.len_pos)
  grind

/-- Lengths of cells are exact. -/
theorem part53 {j : Nat} (hj : j ≤ 22) : Has53 (l / ((2 ^ j : Nat) : Rat)) := by
  refine h.len.div_pow hj ?_
  rw [mag_of_nonneg (Rat.le_of_lt h.len_pos)]
  have h1 := h.small
  have e : (2 : Rat) ^ 960 = 2 ^ 900 * 2 ^ 60 := by decide +kernel
  have p : (1 : Rat) ≤ 2 ^ 60 := by decide +kernel
  have := Rat.mul_le_mul_of_nonneg_left p (show 0 ≤ l * 2 ^ 900 by grind)
  rw [e]
  grind

theorem part_le {j : Nat} : l / ((2 ^ j : Nat) : Rat) ≤ l ∧ 0 < l / ((2 ^ j : Nat) : Rat) := by
  have hl := h.len_pos
  have hp := pow_pos' j
  have h1 : (1 : Rat) ≤ ((2 ^ j : Nat) : Rat) := by
    have : 1 ≤ 2 ^ j := Nat.pow_pos (by omega)
    exact_mod_cast this
  generalize ((2 ^ j : Nat) : Rat) = P at *
  have hq : 0 < l / P := by rw [Rat.lt_div_iff hp]; grind
  have := Rat.mul_le_mul_of_nonneg_left h1 (Rat.le_of_lt hq)
  have e : l / P * P = l := by grind
  constructor
  · grind
  · exact hq

/-- Scale of coordinates. -/
theorem scale_big : mag a + (n : Rat) * l ≤ 2 ^ 1000 := by have := h.cells_le; have := h.big; grind

theorem mag_part {j : Nat} : mag (l / ((2 ^ j : Nat) : Rat)) ≤ 2 ^ 1001 := by
  have h1 := h.part_le (j := j)
  rw [mag_of_nonneg (Rat.le_of_lt h1.2)]
  have h2 := h.scale_big
  have h3 := h.len_le
  have h4 := mag_nonneg a
  have h5 : (2 : Rat) ^ 1000 ≤ 2 ^ 1001 := by decide +kernel
  generalize (2 : Rat) ^ 1000 = P at *
  generalize (2 : Rat) ^ 1001 = Q at *
  grind

theorem part_fin {j : Nat} (hj : j ≤ 22) : Val.ofRat (l / ((2 ^ j : Nat) : Rat)) = .fin (l / ((2 ^ j : Nat) : Rat)) := by
  rw [ofRat_bound h.mag_part, rnd_exact (h.part53 hj)]

/-- Scale of the errors of one operation. -/
theorem tiny_le : tiny ≤ eps * (mag a + (n : Rat) * l) / 1000 := by
  have h1 := h.small
  have h2 := h.len_le
  have h3 := mag_nonneg a
  have p : (0 : Rat) < 2 ^ 900 := by decide +kernel
  have e1 : eps * (1 / 2 ^ 900) / 1000 ≥ tiny := by unfold eps tiny; decide +kernel
  have h4 : 1 / 2 ^ 900 ≤ l := by
    apply Classical.byContradiction
    intro hn
    have h5 := Rat.mul_lt_mul_of_pos_right (show l < 1 / 2 ^ 900 by grind) p
    have h6 : (1 : Rat) / 2 ^ 900 * 2 ^ 900 = 1 := by decide +kernel
    rw [h6] at h5
    grind
  have h5 := Rat.mul_le_mul_of_nonneg_left (show 1 / 2 ^ 900 ≤ mag a + (n : Rat) * l by grind) (Rat.le_of_lt eps_pos)
  generalize eps * (mag a + (n : Rat) * l) = x at *
  generalize eps * (1 / 2 ^ 900) = y at *
  grind

theorem scale_pos : 0 < mag a + (n : Rat) * l := by
  have := h.len_le; have := h.len_pos; have := mag_nonneg a; grind

theorem delta_le : eps * (mag a + (n : Rat) * l) ≤ (mag a + (n : Rat) * l) / 100000 := by
  have := h.scale_pos
  have e : eps ≤ 1 / 100000 := by unfold eps; decide +kernel
  have := Rat.mul_le_mul_of_nonneg_right e (Rat.le_of_lt this)
  grind

theorem start_bounds : a ≤ mag a ∧ -mag a ≤ a := mag_le_iff.1 (show mag a ≤ mag a by grind)

/-- Position of an index from the start of the grid. -/
theorem idx_pos {p : Nat} (hp : p ≤ n * 2 ^ M) : ∃ t : Rat,
    ((Val.ofNat p).mul (.fin l)).div (.fin ((2 ^ M : Nat) : Rat)) = .fin t ∧
    ((Val.ofNat p).mul (.fin l)).mul (.fin (1 / ((2 ^ M : Nat) : Rat))) = .fin t ∧
    mag (t - (p : Rat) * l / ((2 ^ M : Nat) : Rat)) ≤ eps * ((p : Rat) * l / ((2 ^ M : Nat) : Rat)) + tiny := by
  have hl := h.len_pos
  have hp0 : (0 : Rat) ≤ (p : Rat) := by exact_mod_cast Nat.zero_le p
  have hpl : 0 ≤ (p : Rat) * l := Rat.mul_nonneg hp0 (Rat.le_of_lt hl)
  have hbig : mag ((p : Rat) * l) ≤ 2 ^ 1000 := by
    rw [mag_of_nonneg hpl]
    have h1 := Rat.mul_le_mul_of_nonneg_right (Rat.natCast_le_natCast.2 hp) (Rat.le_of_lt hl)
    have h2 := h.big
    have h3 := mag_nonneg a
    generalize (2 : Rat) ^ 1000 = P at *
    grind
  have hbig' : (2 : Rat) ^ 1000 ≤ 2 ^ 1001 := by decide +kernel
  have hX := pow_pos' M
  have hX1 : (1 : Rat) ≤ ((2 ^ M : Nat) : Rat) := by
    have : 1 ≤ 2 ^ M := Nat.pow_pos (by omega)
    exact_mod_cast this
  have e1 : (Val.ofNat p).mul (.fin l) = .fin (rnd ((p : Rat) * l)) := by
    rw [ofNat_exact (Nat.le_trans hp h.idx), Val.mul_fin,
      ofRat_bound (by generalize (2 : Rat) ^ 1000 = P at *; generalize (2 : Rat) ^ 1001 = Q at *; grind)]
  have hn := rnd_near ((p : Rat) * l)
  have hr0 := rnd_nonneg hpl
  have hr1 : rnd ((p : Rat) * l) ≤ 2 ^ 1000 := by
    have h1 : Has53 ((2 : Rat) ^ 1000) := ⟨1, 2074, by decide, by decide +kernel⟩
    rw [mag_of_nonneg hpl] at hbig
    have h2 := rnd_mono hbig
    rw [rnd_exact h1] at h2
    exact h2
  have h53 : Has53 (rnd ((p : Rat) * l) / ((2 ^ M : Nat) : Rat)) := by
    by_cases h0 : p = 0
    · subst h0
      have : rnd (((0 : Nat) : Rat) * l) = 0 := by
        rw [show ((0 : Nat) : Rat) * l = 0 by push_cast; grind, rnd_zero]
      rw [this, show (0 : Rat) / ((2 ^ M : Nat) : Rat) = 0 by grind]
      exact ⟨0, 0, by decide, by grind⟩
    · refine (rnd_has53 _).div_pow (by have := h.lvl; omega) ?_
      rw [mag_of_nonneg hr0]
      have h1 : (1 : Rat) ≤ (p : Rat) := by
        have : 1 ≤ p := by omega
        exact_mod_cast this
      have h2 := Rat.mul_le_mul_of_nonneg_right h1 (Rat.le_of_lt hl)
      have h3 := rnd_mono (show l ≤ (p : Rat) * l by grind)
      rw [rnd_exact h.len] at h3
      have h4 := h.small
      have e : (2 : Rat) ^ 960 = 2 ^ 900 * 2 ^ 60 := by decide +kernel
      have q : (1 : Rat) ≤ 2 ^ 60 := by decide +kernel
      have q0 : (0 : Rat) ≤ 2 ^ 900 := by decide +kernel
      have h5 := Rat.mul_le_mul_of_nonneg_right h3 q0
      have h6 := Rat.mul_le_mul_of_nonneg_left q (show 0 ≤ rnd ((p : Rat) * l) * 2 ^ 900 by grind)
      rw [e]
      grind
  rw [mag_of_nonneg hpl] at hn
  rw [e1]
  generalize hr : rnd ((p : Rat) * l) = r at *
  have hq0 : 0 ≤ r / ((2 ^ M : Nat) : Rat) := div_nonneg' hr0 hX
  have hq1 : r / ((2 ^ M : Nat) : Rat) ≤ r := by
    have := Rat.mul_le_mul_of_nonneg_left hX1 hq0
    have e : r / ((2 ^ M : Nat) : Rat) * ((2 ^ M : Nat) : Rat) = r := by grind
    grind
  have hfin : Val.ofRat (r / ((2 ^ M : Nat) : Rat)) = .fin (r / ((2 ^ M : Nat) : Rat)) := by
    rw [ofRat_bound (by
      rw [mag_of_nonneg hq0]
      generalize (2 : Rat) ^ 1000 = P at *
      generalize (2 : Rat) ^ 1001 = Q at *
      grind), rnd_exact h53]
  refine ⟨r / ((2 ^ M : Nat) : Rat), ?_, ?_, ?_⟩
  · rw [Val.div_fin (by grind), hfin]
  · rw [Val.mul_fin, show r * (1 / ((2 ^ M : Nat) : Rat)) = r / ((2 ^ M : Nat) : Rat) by grind, hfin]
  · have ht := tiny_pos
    obtain ⟨m1, m2⟩ := mag_le_iff.1 hn
    generalize ((2 ^ M : Nat) : Rat) = X at *
    generalize (p : Rat) * l = y at *
    have e : ∀ z : Rat, z / X * X = z := by intro z; grind
    have k1 : tiny ≤ tiny * X := by
      have := Rat.mul_le_mul_of_nonneg_left hX1 (Rat.le_of_lt ht); grind
    have key : ∀ u v : Rat, u * X ≤ v * X → u ≤ v := by
      intro u v huv
      apply Classical.byContradiction
      intro hn
      have := Rat.mul_lt_mul_of_pos_right (show v < u by grind) hX
      grind
    refine mag_le_iff.2 ⟨key _ _ ?_, key _ _ ?_⟩
    · have : (r / X - y / X) * X = r - y := by have := e r; have := e y; grind
      rw [this]
      have : (eps * (y / X) + tiny) * X = eps * y + tiny * X := by have := e y; grind
      rw [this]
      grind
    · have : (r / X - y / X) * X = r - y := by have := e r; have := e y; grind
      rw [this]
      have : -(eps * (y / X) + tiny) * X = -(eps * y + tiny * X) := by have := e y; grind
      rw [this]
      grind

theorem idx_le_len {p : Nat} (hp : p ≤ n * 2 ^ M) : (p : Rat) * l / ((2 ^ M : Nat) : Rat) ≤ (n : Rat) * l ∧
    0 ≤ (p : Rat) * l / ((2 ^ M : Nat) : Rat) := by
  have hl := h.len_pos
  have hX := pow_pos' M
  have h1 := Rat.mul_le_mul_of_nonneg_right (Rat.natCast_le_natCast.2 hp) (Rat.le_of_lt hl)
  rw [Rat.natCast_mul] at h1
  have hp0 : (0 : Rat) ≤ (p : Rat) := by exact_mod_cast Nat.zero_le p
  have hpl : 0 ≤ (p : Rat) * l := Rat.mul_nonneg hp0 (Rat.le_of_lt hl)
  refine ⟨?_, div_nonneg' hpl hX⟩
  apply Classical.byContradiction
  intro hn
  have := Rat.mul_lt_mul_of_pos_right (show (n : Rat) * l < (p : Rat) * l / ((2 ^ M : Nat) : Rat) by grind) hX
  have e : (p : Rat) * l / ((2 ^ M : Nat) : Rat) * ((2 ^ M : Nat) : Rat) = (p : Rat) * l := by grind
  rw [e] at this
  grind

/-- A rounded sum is close if the exact sum is in the grid. -/
theorem sum_close {x : Rat} (h1 : x ≤ mag a + (n : Rat) * l + (mag a + (n : Rat) * l) / 100)
    (h2 : -(mag a + (n : Rat) * l + (mag a + (n : Rat) * l) / 100) ≤ x) :
    Val.ofRat x = .fin (rnd x) ∧
    rnd x ≤ x + (eps * (mag a + (n : Rat) * l) + eps * (mag a + (n : Rat) * l) / 50) ∧
    x ≤ rnd x + (eps * (mag a + (n : Rat) * l) + eps * (mag a + (n : Rat) * l) / 50) := by
  refine ⟨ofRat_bound ?_, rnd_close rfl h.tiny_le h2 h1⟩
  have h3 := h.scale_big
  have h4 : (2 : Rat) ^ 1001 = 2 * 2 ^ 1000 := by decide +kernel
  rw [h4]
  have := h.scale_pos
  refine mag_le_iff.2 ?_
  generalize (2 : Rat) ^ 1000 = P at *
  constructor <;> grind

/-- Computed positions of indices are within two errors. -/
theorem at_pos {p : Nat} (hp : p ≤ n * 2 ^ M) : ∃ t : Rat,
    (Val.fin a).add (((Val.ofNat p).mul (.fin l)).div (.fin ((2 ^ M : Nat) : Rat))) = .fin t ∧
    (Val.fin a).add (((Val.ofNat p).mul (.fin l)).mul (.fin (1 / ((2 ^ M : Nat) : Rat)))) = .fin t ∧
    mag (t - (a + (p : Rat) * l / ((2 ^ M : Nat) : Rat))) ≤ eps * (mag a + (n : Rat) * l) * (21 / 10) := by
  obtain ⟨t, e1, e2, e3⟩ := h.idx_pos hp
  have h1 := h.idx_le_len hp
  have hs := h.start_bounds
  have ht := h.tiny_le
  have hd := h.delta_le
  have hm := mag_nonneg a
  have hB := h.scale_pos
  have h2 := Rat.mul_le_mul_of_nonneg_left (show (p : Rat) * l / ((2 ^ M : Nat) : Rat) ≤ mag a + (n : Rat) * l by grind)
    (Rat.le_of_lt eps_pos)
  have hd0 : 0 ≤ eps * (mag a + (n : Rat) * l) := Rat.mul_nonneg (Rat.le_of_lt eps_pos) (Rat.le_of_lt hB)
  obtain ⟨m1, m2⟩ := mag_le_iff.1 e3
  have hc := h.sum_close (x := a + t) (by
    generalize eps * (mag a + (n : Rat) * l) = D at *; grind) (by generalize eps * (mag a + (n : Rat) * l) = D at *; grind)
  rw [e1, e2, Val.add_fin, hc.1]
  refine ⟨_, rfl, rfl, mag_le_iff.2 ?_⟩
  have := hc.2
  generalize eps * (mag a + (n : Rat) * l) = D at *
  constructor <;> grind

/-- Computed centers are within four errors. -/
theorem center_close {p j : Nat} (hp : p ≤ n * 2 ^ M) (hj : j ≤ M)
    (hc : (p : Rat) * l / ((2 ^ M : Nat) : Rat) + l / ((2 ^ j : Nat) : Rat) / 2 ≤ (n : Rat) * l) : ∃ c : Rat,
    ((Val.fin a).add (((Val.ofNat p).mul (.fin l)).div (.fin ((2 ^ M : Nat) : Rat)))).add
      (((Val.fin l).mul (.fin (1 / ((2 ^ j : Nat) : Rat)))).div (.fin 2)) = .fin c ∧
    ((Val.fin a).add (((Val.ofNat p).mul (.fin l)).mul (.fin (1 / ((2 ^ M : Nat) : Rat))))).add
      ((Val.fin l).mul (.fin (1 / ((2 ^ (j + 1) : Nat) : Rat)))) = .fin c ∧
    mag (c - (a + (p : Rat) * l / ((2 ^ M : Nat) : Rat) + l / ((2 ^ j : Nat) : Rat) / 2)) ≤
      eps * (mag a + (n : Rat) * l) * (32 / 10) := by
  obtain ⟨t, e1, e2, e3⟩ := h.at_pos hp
  have hl := h.lvl
  have h1 := h.idx_le_len hp
  have hs := h.start_bounds
  have hd := h.delta_le
  have hB := h.scale_pos
  have hd0 : 0 ≤ eps * (mag a + (n : Rat) * l) := Rat.mul_nonneg (Rat.le_of_lt eps_pos) (Rat.le_of_lt hB)
  have hpart := (h.part_le (j := j)).2
  have e4 : (Val.fin l).mul (.fin (1 / ((2 ^ j : Nat) : Rat))) = .fin (l / ((2 ^ j : Nat) : Rat)) := by
    rw [Val.mul_fin, show l * (1 / ((2 ^ j : Nat) : Rat)) = l / ((2 ^ j : Nat) : Rat) by grind, h.part_fin (by omega)]
  have eh : l / ((2 ^ j : Nat) : Rat) / 2 = l / ((2 ^ (j + 1) : Nat) : Rat) := by
    rw [Nat.pow_succ, Rat.natCast_mul]
    have := pow_pos' j
    have e : ((2 : Nat) : Rat) = 2 := rfl
    grind
  have e5 : (Val.fin (l / ((2 ^ j : Nat) : Rat))).div (.fin 2) = .fin (l / ((2 ^ (j + 1) : Nat) : Rat)) := by
    rw [Val.div_fin (by decide), eh, h.part_fin (by omega)]
  have e6 : (Val.fin l).mul (.fin (1 / ((2 ^ (j + 1) : Nat) : Rat))) = .fin (l / ((2 ^ (j + 1) : Nat) : Rat)) := by
    rw [Val.mul_fin, show l * (1 / ((2 ^ (j + 1) : Nat) : Rat)) = l / ((2 ^ (j + 1) : Nat) : Rat) by grind,
      h.part_fin (by omega)]
  obtain ⟨m1, m2⟩ := mag_le_iff.1 e3
  rw [eh] at hc ⊢
  have hpart' := (h.part_le (j := j + 1)).2
  have hcl := h.sum_close (x := t + l / ((2 ^ (j + 1) : Nat) : Rat)) (by
    generalize eps * (mag a + (n : Rat) * l) = D at *; grind) (by generalize eps * (mag a + (n : Rat) * l) = D at *; grind)
  rw [e4, e5, e6, e1, e2, Val.add_fin, hcl.1]
  refine ⟨_, rfl, rfl, mag_le_iff.2 ?_⟩
  have := hcl.2
  generalize eps * (mag a + (n : Rat) * l) = D at *
  constructor <;> grind

/-- Computed end of the grid. -/
theorem end_close : ∃ b : Rat, (Val.fin a).add ((Val.ofNat n).mul (.fin l)) = .fin b ∧ a ≤ b ∧
    mag (b - (a + (n : Rat) * l)) ≤ eps * (mag a + (n : Rat) * l) * (21 / 10) := by
  have hs := h.start_bounds
  have hd := h.delta_le
  have hB := h.scale_pos
  have hl := h.len_le
  have hlp := h.len_pos
  have hm := mag_nonneg a
  have hd0 : 0 ≤ eps * (mag a + (n : Rat) * l) := Rat.mul_nonneg (Rat.le_of_lt eps_pos) (Rat.le_of_lt hB)
  have hn : n ≤ n * 2 ^ M := Nat.le_mul_of_pos_right _ (Nat.pow_pos (by omega))
  have h1 := h.sum_close (x := (n : Rat) * l) (by grind) (by grind)
  rw [ofNat_exact (Nat.le_trans hn h.idx), Val.mul_fin, h1.1, Val.add_fin]
  have h2 := h1.2
  have h0 := rnd_nonneg (show 0 ≤ (n : Rat) * l by grind)
  generalize rnd ((n : Rat) * l) = r at *
  have h3 := h.sum_close (x := a + r) (by
    generalize eps * (mag a + (n : Rat) * l) = D at *; grind) (by generalize eps * (mag a + (n : Rat) * l) = D at *; grind)
  rw [h3.1]
  refine ⟨_, rfl, ?_, mag_le_iff.2 ?_⟩
  · have := rnd_mono (show a ≤ a + r by grind)
    rw [rnd_exact h.start] at this
    exact this
  · have := h3.2
    generalize eps * (mag a + (n : Rat) * l) = D at *
    constructor <;> grind

/-- Length of one index is exact. -/
theorem step_fin : (Val.fin l).div (.fin ((2 ^ M : Nat) : Rat)) = .fin (l / ((2 ^ M : Nat) : Rat)) := by
  have := pow_pos' M
  have := h.lvl
  rw [Val.div_fin (by grind), h.part_fin (by omega)]

omit h in
theorem floor_index {q : Rat} (h0 : 0 ≤ q) (h1 : q < 2 ^ 64) :
    ∃ k : Nat, (Val.fin q).floor.toU64 = some k ∧ (k : Rat) ≤ q ∧ q < (k : Rat) + 1 := by
  have f1 := Rat.le_floor_iff.2 (show ((0 : Int) : Rat) ≤ q by push_cast; exact h0)
  have f2 := floor_bounds q
  have f3 : ((0 : Int) : Rat) ≤ (q.floor : Rat) := Rat.intCast_le_intCast.2 f1
  have f5 : ((0 : Int) : Rat) = 0 := rfl
  have e : ((q.floor.toNat : Nat) : Rat) = (q.floor : Rat) := by
    rw [← natCast_int, Int.toNat_of_nonneg f1]
  refine ⟨q.floor.toNat, ?_, by rw [e]; exact f2.1, by rw [e]; exact f2.2⟩
  show (if _ then some (Rat.floor _).toNat else none) = _
  generalize (2 : Rat) ^ 64 = P at *
  rw [if_pos ⟨by grind, by grind⟩, Rat.floor_intCast]

/-- The end of the grid is at most twice as far from its start as it should be. -/
theorem end_far {b : Rat} (hb : (Val.fin a).add ((Val.ofNat n).mul (.fin l)) = .fin b) : b - a ≤ 3 * ((n : Rat) * l) := by
  have hl := h.len_le
  have hlp := h.len_pos
  have hm := mag_nonneg a
  have hB := h.scale_pos
  have hn : n ≤ n * 2 ^ M := Nat.le_mul_of_pos_right _ (Nat.pow_pos (by omega))
  have h1 := h.sum_close (x := (n : Rat) * l) (by grind) (by grind)
  have hs := h.start_bounds
  have hd := h.delta_le
  have h2 := h1.2
  have h3 := h.sum_close (x := a + rnd ((n : Rat) * l)) (by
    generalize eps * (mag a + (n : Rat) * l) = D at *; grind) (by
    have h0 := rnd_nonneg (show 0 ≤ (n : Rat) * l by grind)
    grind)
  rw [ofNat_exact (Nat.le_trans hn h.idx), Val.mul_fin, h1.1, Val.add_fin, h3.1] at hb
  injection hb with hb
  have h4 := rnd_nearest (a + rnd ((n : Rat) * l)) h.start
  have h5 := rnd_near ((n : Rat) * l)
  have h0 := rnd_nonneg (show 0 ≤ (n : Rat) * l by grind)
  rw [mag_of_nonneg (show 0 ≤ (n : Rat) * l by grind)] at h5
  rw [hb] at h4
  have e : mag (a - (a + rnd ((n : Rat) * l))) = rnd ((n : Rat) * l) := by
    rw [show a - (a + rnd ((n : Rat) * l)) = -rnd ((n : Rat) * l) by grind, mag_neg, mag_of_nonneg h0]
  rw [e] at h4
  have h6 := (mag_le_iff.1 h4).1
  have h7 := (mag_le_iff.1 h5).1
  have h8 : eps ≤ 1 / 100 := by unfold eps; decide +kernel
  have h9 := Rat.mul_le_mul_of_nonneg_right h8 (show 0 ≤ (n : Rat) * l by grind)
  have h10 : tiny ≤ l / 100 := by
    have h1 := h.small
    have p : (0 : Rat) < 2 ^ 900 := by decide +kernel
    have h2 : tiny * 2 ^ 900 * 100 ≤ 1 := by unfold tiny; decide +kernel
    apply Classical.byContradiction
    intro hn
    have := Rat.mul_lt_mul_of_pos_right (show l / 100 < tiny by grind) p
    generalize (2 : Rat) ^ 900 = P at *
    grind
  grind

/-- Coordinates in the grid have an index. -/
theorem index_defined {b y : Rat} (hb : (Val.fin a).add ((Val.ofNat n).mul (.fin l)) = .fin b) (h1 : a ≤ y) (h2 : y ≤ b) :
    ∃ k, (((Val.fin y).sub (.fin a)).div ((Val.fin l).div (.fin ((2 ^ M : Nat) : Rat)))).floor.toU64 = some k := by
  have hf := h.end_far hb
  have hstep := (h.part_le (j := M)).2
  have hX := pow_pos' M
  have hl := h.len_pos
  have hB := h.scale_big
  have hm := mag_nonneg a
  have p1001 : (2 : Rat) ^ 1001 = 2 * 2 ^ 1000 := by decide +kernel
  have p1002 : (2 : Rat) ^ 1002 = 4 * 2 ^ 1000 := by decide +kernel
  rw [h.step_fin, Val.sub_fin]
  -- the difference
  have hy0 : 0 ≤ y - a := by grind
  have hy1 : y - a ≤ 3 * ((n : Rat) * l) := by grind
  have hD0 := rnd_nonneg hy0
  have hn := rnd_near (y - a)
  rw [mag_of_nonneg hy0] at hn
  have h7 := (mag_le_iff.1 hn).1
  have h8 : eps ≤ 1 / 100 := by unfold eps; decide +kernel
  have h9 := Rat.mul_le_mul_of_nonneg_right h8 hy0
  have h10 : tiny ≤ l / 100 := by
    have h1 := h.small
    have p : (0 : Rat) < 2 ^ 900 := by decide +kernel
    have h2 : tiny * 2 ^ 900 * 100 ≤ 1 := by unfold tiny; decide +kernel
    apply Classical.byContradiction
    intro hn
    have := Rat.mul_lt_mul_of_pos_right (show l / 100 < tiny by grind) p
    generalize (2 : Rat) ^ 900 = P at *
    grind
  have hln := h.len_le
  have hD1 : rnd (y - a) ≤ 4 * ((n : Rat) * l) := by grind
  have eD : Val.ofRat (y - a) = .fin (rnd (y - a)) := by
    have h1 : Has53 ((2 : Rat) ^ 1002) := ⟨1, 2076, by decide, by decide +kernel⟩
    have h2 : (2 : Rat) ^ 1002 < huge := by unfold huge; decide +kernel
    have h3 : (0 : Rat) < huge := by unfold huge; decide +kernel
    unfold Val.ofRat
    have : rnd (y - a) ≤ 2 ^ 1002 := by rw [p1002]; generalize (2 : Rat) ^ 1000 = P at *; grind
    generalize huge = H at *
    generalize (2 : Rat) ^ 1002 = Q at *
    rw [if_neg (by grind), if_neg (by grind)]
  rw [eD, Val.div_fin (by grind)]
  generalize rnd (y - a) = D at *
  have hq0 : 0 ≤ D / (l / ((2 ^ M : Nat) : Rat)) := div_nonneg' hD0 hstep
  have hq1 : D / (l / ((2 ^ M : Nat) : Rat)) ≤ ((2 ^ 55 : Nat) : Rat) := by
    have h1 : (n : Rat) * ((2 ^ M : Nat) : Rat) ≤ ((2 ^ 53 : Nat) : Rat) := by
      rw [← Rat.natCast_mul]; exact Rat.natCast_le_natCast.2 h.idx
    have e1 : D / (l / ((2 ^ M : Nat) : Rat)) * l = D * ((2 ^ M : Nat) : Rat) := by grind
    have h2 := Rat.mul_le_mul_of_nonneg_right hD1 (Rat.le_of_lt hX)
    have h3 := Rat.mul_le_mul_of_nonneg_right h1 (Rat.le_of_lt hl)
    have e2 : ((2 ^ 55 : Nat) : Rat) = 4 * ((2 ^ 53 : Nat) : Rat) := by decide +kernel
    rw [e2]
    apply Classical.byContradiction
    intro hn
    have := Rat.mul_lt_mul_of_pos_right (show 4 * ((2 ^ 53 : Nat) : Rat) < D / (l / ((2 ^ M : Nat) : Rat)) by grind) hl
    rw [e1] at this
    generalize ((2 ^ 53 : Nat) : Rat) = P at *
    generalize ((2 ^ M : Nat) : Rat) = X at *
    grind
  have hbig : ((2 ^ 55 : Nat) : Rat) ≤ 2 ^ 1000 := by decide +kernel
  rw [ofRat_rnd hq0 (by generalize ((2 ^ 55 : Nat) : Rat) = P at *; generalize (2 : Rat) ^ 1000 = Q at *; grind)]
  have h55 : Has53 ((2 ^ 55 : Nat) : Rat) := ⟨1, 1129, by decide, by decide +kernel⟩
  have hr1 := rnd_mono hq1
  rw [rnd_exact h55] at hr1
  have hr0 := rnd_nonneg hq0
  have h64 : ((2 ^ 55 : Nat) : Rat) < 2 ^ 64 := by decide +kernel
  obtain ⟨k, hk, -⟩ := floor_index hr0 (by
    generalize ((2 ^ 55 : Nat) : Rat) = P at *; generalize (2 : Rat) ^ 64 = Q at *; grind)
  exact ⟨k, hk⟩

/-- Coordinates that are at least three errors inside of a range of indices have one of them. -/
theorem index_close {y : Rat} {p q : Nat} (hp : p ≤ q) (hq : q ≤ n * 2 ^ M)
    (h1 : a + (p : Rat) * l / ((2 ^ M : Nat) : Rat) + eps * (mag a + (n : Rat) * l) * 3 ≤ y)
    (h2 : y ≤ a + (q : Rat) * l / ((2 ^ M : Nat) : Rat) - eps * (mag a + (n : Rat) * l) * 3) :
    ∃ k, (((Val.fin y).sub (.fin a)).div ((Val.fin l).div (.fin ((2 ^ M : Nat) : Rat)))).floor.toU64 = some k ∧
      p ≤ k ∧ k < q := by
  have hstep := (h.part_le (j := M)).2
  have hX := pow_pos' M
  have hl := h.len_pos
  have hB := h.scale_big
  have hB0 := h.scale_pos
  have hm := mag_nonneg a
  have hqn := h.idx_le_len hq
  have hpn := h.idx_le_len (Nat.le_trans hp hq)
  have hd := h.delta_le
  have hd0 : 0 ≤ eps * (mag a + (n : Rat) * l) := Rat.mul_nonneg (Rat.le_of_lt eps_pos) (Rat.le_of_lt hB0)
  rw [h.step_fin, Val.sub_fin]
  have hc := h.sum_close (x := y - a) (by
    generalize eps * (mag a + (n : Rat) * l) = D at *; grind) (by generalize eps * (mag a + (n : Rat) * l) = D at *; grind)
  rw [hc.1, Val.div_fin (by grind)]
  have hc2 := hc.2
  generalize rnd (y - a) = D at *
  have ep : (p : Rat) * l / ((2 ^ M : Nat) : Rat) = (p : Rat) * (l / ((2 ^ M : Nat) : Rat)) := by grind
  have eq : (q : Rat) * l / ((2 ^ M : Nat) : Rat) = (q : Rat) * (l / ((2 ^ M : Nat) : Rat)) := by grind
  rw [ep] at h1 hpn
  rw [eq] at h2 hqn
  have hpl := (h.part_le (j := M)).1
  have hll := h.len_le
  generalize hh : l / ((2 ^ M : Nat) : Rat) = s at *
  generalize hdd : eps * (mag a + (n : Rat) * l) = delta at *
  have hD1 : (p : Rat) * s + delta * 19 / 10 ≤ D := by grind
  have hD2 : D ≤ (q : Rat) * s - delta * 19 / 10 := by grind
  have ed : D / s * s = D := by grind
  have key : ∀ u v : Rat, u * s ≤ v * s → u ≤ v := by
    intro u v huv
    apply Classical.byContradiction
    intro hn
    have := Rat.mul_lt_mul_of_pos_right (show v < u by grind) hstep
    grind
  have hp53 : p ≤ 2 ^ 53 := Nat.le_trans (Nat.le_trans hp hq) h.idx
  have hq53 : q ≤ 2 ^ 53 := Nat.le_trans hq h.idx
  have hw1 : (p : Rat) ≤ D / s := key _ _ (by rw [ed]; grind)
  have hw2 : D / s ≤ (q : Rat) := key _ _ (by rw [ed]; grind)
  have hw0 : 0 ≤ D / s := by
    have : (0 : Rat) ≤ (p : Rat) := by exact_mod_cast Nat.zero_le p
    grind
  have hqR : (q : Rat) ≤ ((2 ^ 53 : Nat) : Rat) := Rat.natCast_le_natCast.2 hq53
  have hbig : ((2 ^ 53 : Nat) : Rat) ≤ 2 ^ 1000 := by decide +kernel
  rw [ofRat_rnd hw0 (by generalize ((2 ^ 53 : Nat) : Rat) = P at *; generalize (2 : Rat) ^ 1000 = Q at *; grind)]
  have hr1 := rnd_mono hw1
  rw [rnd_exact (has53_nat hp53)] at hr1
  have hn := rnd_near (D / s)
  rw [mag_of_nonneg hw0] at hn
  have hn' := (mag_le_iff.1 hn).1
  have hr2 : rnd (D / s) < (q : Rat) := by
    apply Classical.byContradiction
    intro hcon
    have h3 := Rat.mul_le_mul_of_nonneg_right (show (q : Rat) ≤ D / s + (eps * (D / s) + tiny) by grind) (Rat.le_of_lt hstep)
    have e3 : (D / s + (eps * (D / s) + tiny)) * s = D + eps * D + tiny * s := by
      have : (D / s + (eps * (D / s) + tiny)) * s = D / s * s + eps * (D / s * s) + tiny * s := by grind
      rw [this, ed]
    rw [e3] at h3
    have h4 : eps * D ≤ delta := by
      rw [← hdd]
      exact Rat.mul_le_mul_of_nonneg_left (by grind) (Rat.le_of_lt eps_pos)
    have h5 : tiny * s ≤ delta / 100 := by
      have h6 : tiny ≤ eps / 100 := by unfold tiny eps; decide +kernel
      have h7 := Rat.mul_le_mul_of_nonneg_right h6 (Rat.le_of_lt hstep)
      have h8 := Rat.mul_le_mul_of_nonneg_left (show s ≤ mag a + (n : Rat) * l by grind) (Rat.le_of_lt eps_pos)
      rw [hdd] at h8
      grind
    have hdpos : 0 < delta := by rw [← hdd]; exact Rat.mul_pos eps_pos hB0
    grind
  have h64 : ((2 ^ 53 : Nat) : Rat) < 2 ^ 64 := by decide +kernel
  have hr0 := rnd_nonneg hw0
  obtain ⟨k, hk, k1, k2⟩ := floor_index hr0 (by
    generalize ((2 ^ 53 : Nat) : Rat) = P at *; generalize (2 : Rat) ^ 64 = Q at *; grind)
  refine ⟨k, hk, ?_, ?_⟩
  · have : (p : Rat) < ((k + 1 : Nat) : Rat) := by push_cast; grind
    have := Rat.natCast_lt_natCast.1 this
    omega
  · exact Rat.natCast_lt_natCast.1 (by grind)

end SafeDim
end Dccrg
