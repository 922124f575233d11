import Verif.Double
/-!
# Properties of rounding

Rounding gives a nearest number with 53 bits, is exact for numbers with 53 bits, monotone and symmetric.
-/
namespace Dccrg

/-! ## Nearest integer -/

theorem cast_lt_of {a b : Int} {x : Rat} (h1 : (a : Rat) ≤ x) (h2 : x < (b : Rat)) : a < b :=
  Rat.intCast_lt_intCast.1 (by grind)

theorem floor_bounds (x : Rat) : (x.floor : Rat) ≤ x ∧ x < (x.floor : Rat) + 1 := by
  have h1 := Rat.floor_le x
  have h2 := Rat.lt_floor_add_one x
  push_cast at h2
  exact ⟨h1, h2⟩

theorem floor_eq {x : Rat} {z : Int} (h1 : (z : Rat) ≤ x) (h2 : x < (z : Rat) + 1) : x.floor = z := by
  obtain ⟨h3, h4⟩ := floor_bounds x
  have e1 : z < x.floor + 1 := cast_lt_of h1 (by push_cast; exact h4)
  have e2 : x.floor < z + 1 := cast_lt_of h3 (by push_cast; exact h2)
  omega

theorem rne_err (x : Rat) : 2 * ((rne x : Rat) - x) ≤ 1 ∧ 2 * (x - (rne x : Rat)) ≤ 1 := by
  obtain ⟨h1, h2⟩ := floor_bounds x
  unfold rne
  simp only []
  split
  · constructor <;> grind
  · split
    · split
      · constructor <;> grind
      · push_cast; constructor <;> grind
    · push_cast; constructor <;> grind

theorem rne_even (x : Rat) (h : 2 * ((rne x : Rat) - x) = 1 ∨ 2 * (x - (rne x : Rat)) = 1) : rne x % 2 = 0 := by
  obtain ⟨h1, h2⟩ := floor_bounds x
  unfold rne at h ⊢
  simp only [] at h ⊢
  split
  · rename_i e; rw [if_pos e] at h; exfalso; grind
  · rename_i e
    rw [if_neg e] at h
    split
    · rename_i e2; rw [if_pos e2] at h
      split
      · assumption
      · omega
    · rename_i e2
      rw [if_neg e2] at h
      push_cast at h
      exfalso; grind

theorem rne_unique {x : Rat} {z : Int} (h1 : 2 * ((z : Rat) - x) ≤ 1) (h2 : 2 * (x - (z : Rat)) ≤ 1)
    (h3 : 2 * ((z : Rat) - x) = 1 ∨ 2 * (x - (z : Rat)) = 1 → z % 2 = 0) : rne x = z := by
  obtain ⟨e1, e2⟩ := rne_err x
  have e3 := rne_even x
  generalize rne x = r at *
  have a1 : r ≤ z + 1 := by
    apply Rat.intCast_le_intCast.1; push_cast; grind
  have a2 : z ≤ r + 1 := by
    apply Rat.intCast_le_intCast.1; push_cast; grind
  rcases (by omega : r = z ∨ r = z + 1 ∨ z = r + 1) with h | h | h
  · exact h
  · subst h
    push_cast at e1 e2 e3
    have b1 := h3 (by right; grind)
    have b2 := e3 (by left; grind)
    omega
  · subst h
    push_cast at h1 h2 h3
    have b1 := h3 (by left; grind)
    have b2 := e3 (by right; grind)
    omega

theorem rne_int (z : Int) : rne (z : Rat) = z := rne_unique (by grind) (by grind) (by grind)

theorem rne_neg (x : Rat) : rne (-x) = -rne x := by
  obtain ⟨e1, e2⟩ := rne_err x
  have e3 := rne_even x
  refine rne_unique ?_ ?_ ?_
  · push_cast; grind
  · push_cast; grind
  · push_cast
    intro h
    have := e3 (by grind)
    omega

theorem rne_mono {x y : Rat} (h : x ≤ y) : rne x ≤ rne y := by
  obtain ⟨e1, e2⟩ := rne_err x
  obtain ⟨f1, f2⟩ := rne_err y
  have e3 := rne_even x
  have f3 := rne_even y
  generalize rne x = r at *
  generalize rne y = t at *
  have a1 : r ≤ t + 1 := by
    apply Rat.intCast_le_intCast.1; push_cast; grind
  rcases (by omega : r ≤ t ∨ r = t + 1) with h' | h'
  · exact h'
  · subst h'
    push_cast at e1 e2 e3
    have b1 := e3 (by left; grind)
    have b2 := f3 (by right; grind)
    omega

/-! ## Distance of values -/

/-- `|x|` -/
def mag (x : Rat) : Rat := if x < 0 then -x else x

theorem mag_nonneg (x : Rat) : 0 ≤ mag x := by unfold mag; grind

theorem mag_neg (x : Rat) : mag (-x) = mag x := by unfold mag; grind

theorem pow_pos' (k : Nat) : (0 : Rat) < ((2 ^ k : Nat) : Rat) := by
  have : 0 < 2 ^ k := Nat.two_pow_pos k
  exact_mod_cast this

theorem two_pow_cast (k : Nat) : ((2 ^ k : Nat) : Rat) = (2 : Rat) ^ k := by push_cast; rfl

theorem ulp_pos (x : Rat) : 0 < ulp x := by
  unfold ulp
  rw [← two_pow_cast 1074, Rat.lt_div_iff (pow_pos' _)]
  have := pow_pos' (ulpExp x)
  grind

theorem units_neg (x : Rat) : units (-x) = units x := by
  show (mag (-x) * 2 ^ 1074).floor.toNat = (mag x * 2 ^ 1074).floor.toNat
  rw [mag_neg]

theorem ulp_neg (x : Rat) : ulp (-x) = ulp x := by unfold ulp ulpExp; rw [units_neg]

theorem units_bounds (x : Rat) : (units x : Rat) ≤ mag x * 2 ^ 1074 ∧ mag x * 2 ^ 1074 < (units x : Rat) + 1 := by
  have e : units x = (mag x * 2 ^ 1074).floor.toNat := rfl
  have hp : 0 ≤ mag x * 2 ^ 1074 := by
    rw [← two_pow_cast]
    have := Rat.mul_le_mul_of_nonneg_right (mag_nonneg x) (Rat.le_of_lt (pow_pos' 1074))
    grind
  obtain ⟨h1, h2⟩ := floor_bounds (mag x * 2 ^ 1074)
  have h3 : 0 ≤ (mag x * 2 ^ 1074).floor := Rat.le_floor_iff.2 (by exact_mod_cast hp)
  have h4 : ((units x : Nat) : Rat) = (((mag x * 2 ^ 1074).floor : Int) : Rat) := by
    rw [e]
    have : ((((mag x * 2 ^ 1074).floor.toNat : Nat) : Int) : Rat) = (((mag x * 2 ^ 1074).floor : Int) : Rat) := by
      rw [Int.toNat_of_nonneg h3]
    rw [← this]
    rfl
  rw [h4]
  exact ⟨h1, h2⟩

theorem ulp_mul (x : Rat) : ulp x * 2 ^ 1074 = ((2 ^ ulpExp x : Nat) : Rat) := by
  unfold ulp
  have : (2 : Rat) ^ 1074 ≠ 0 := by rw [← two_pow_cast]; have := pow_pos' 1074; grind
  grind

theorem mul_pow_lt {x y : Rat} (k : Nat) : x * 2 ^ k < y * 2 ^ k ↔ x < y := by
  rw [← two_pow_cast]
  have h := pow_pos' k
  constructor
  · intro h1
    apply Classical.byContradiction
    intro h2
    have := Rat.mul_le_mul_of_nonneg_right (show y ≤ x by grind) (Rat.le_of_lt h)
    grind
  · intro h1
    have := Rat.mul_lt_mul_of_pos_left h1 h
    grind

theorem mul_pow_le {x y : Rat} (k : Nat) : x * 2 ^ k ≤ y * 2 ^ k ↔ x ≤ y := by
  have := mul_pow_lt (x := y) (y := x) k
  grind

theorem mag_lt_ulp (x : Rat) : mag x < 2 ^ 53 * ulp x := by
  rw [← mul_pow_lt 1074, show (2 : Rat) ^ 53 * ulp x * 2 ^ 1074 = 2 ^ 53 * (ulp x * 2 ^ 1074) by grind, ulp_mul]
  obtain ⟨h1, h2⟩ := units_bounds x
  have h3 : units x + 1 ≤ 2 ^ 53 * 2 ^ ulpExp x := by
    unfold ulpExp
    rw [← Nat.pow_add]
    have : units x < 2 ^ (Nat.log2 (units x) + 1) := Nat.lt_log2_self
    have : 2 ^ (Nat.log2 (units x) + 1) ≤ 2 ^ (53 + (Nat.log2 (units x) - 52)) :=
      Nat.pow_le_pow_right (by omega) (by omega)
    omega
  have h4 : ((units x : Nat) : Rat) + 1 ≤ 2 ^ 53 * ((2 ^ ulpExp x : Nat) : Rat) := by
    have := Rat.natCast_le_natCast.2 h3
    push_cast at this ⊢
    exact this
  grind

/-- Numbers are normal unless the distance is the smallest one. -/
theorem ulp_le_mag (x : Rat) : ulpExp x = 0 ∨ 2 ^ 52 * ulp x ≤ mag x := by
  by_cases h0 : ulpExp x = 0
  · exact Or.inl h0
  · refine Or.inr ?_
    rw [← mul_pow_le 1074, show (2 : Rat) ^ 52 * ulp x * 2 ^ 1074 = 2 ^ 52 * (ulp x * 2 ^ 1074) by grind, ulp_mul]
    obtain ⟨h1, h2⟩ := units_bounds x
    have h3 : 2 ^ 52 * 2 ^ ulpExp x ≤ units x := by
      unfold ulpExp at h0 ⊢
      rw [← Nat.pow_add, show 52 + (Nat.log2 (units x) - 52) = Nat.log2 (units x) by omega]
      exact Nat.log2_self_le (by intro e; rw [e] at h0; simp at h0)
    have h4 := Rat.natCast_le_natCast.2 h3
    push_cast at h4 ⊢
    grind

/-! ## Rounding -/

theorem div_mul_ulp (x : Rat) : x / ulp x * ulp x = x := by
  have := ulp_pos x
  grind

theorem rnd_err (x : Rat) : 2 * (rnd x - x) ≤ ulp x ∧ 2 * (x - rnd x) ≤ ulp x := by
  obtain ⟨h1, h2⟩ := rne_err (x / ulp x)
  have hp := ulp_pos x
  have e := div_mul_ulp x
  unfold rnd
  have a1 := Rat.mul_le_mul_of_nonneg_right h1 (Rat.le_of_lt hp)
  have a2 := Rat.mul_le_mul_of_nonneg_right h2 (Rat.le_of_lt hp)
  constructor <;> grind

theorem rnd_neg (x : Rat) : rnd (-x) = -rnd x := by
  unfold rnd
  rw [ulp_neg, show -x / ulp x = -(x / ulp x) by grind, rne_neg]
  push_cast
  grind

theorem rnd_zero : rnd 0 = 0 := by
  have := rnd_neg 0
  rw [show (-0 : Rat) = 0 by grind] at this
  grind

theorem Has53.neg {x : Rat} (h : Has53 x) : Has53 (-x) := by
  obtain ⟨m, k, h1, h2⟩ := h
  exact ⟨-m, k, by omega, by rw [h2]; push_cast; grind⟩

theorem mag_le_iff {x b : Rat} : mag x ≤ b ↔ x ≤ b ∧ -b ≤ x := by
  unfold mag
  constructor
  · intro h; split at h <;> constructor <;> grind
  · intro h; split <;> grind

theorem natAbs_le_of {z : Int} {b : Nat} (h : mag (z : Rat) ≤ (b : Rat)) : z.natAbs ≤ b := by
  obtain ⟨h1, h2⟩ := mag_le_iff.1 h
  have e1 : z ≤ (b : Int) := Rat.intCast_le_intCast.1 (by exact_mod_cast h1)
  have e2 : -(b : Int) ≤ z := Rat.intCast_le_intCast.1 (by push_cast; exact_mod_cast h2)
  omega

/-- The result has 53 bits. -/
theorem rnd_has53 (x : Rat) : Has53 (rnd x) := by
  refine ⟨rne (x / ulp x), ulpExp x, ?_, ?_⟩
  · have hp := ulp_pos x
    have h1 := mag_lt_ulp x
    have h2 : mag (x / ulp x) ≤ ((2 ^ 53 : Nat) : Rat) := by
      have e := div_mul_ulp x
      rw [two_pow_cast]
      rw [mag_le_iff]
      obtain ⟨a1, a2⟩ := mag_le_iff.1 (Rat.le_of_lt h1)
      generalize (2 : Rat) ^ 53 = B at *
      generalize x / ulp x = t at *
      generalize ulp x = u at *
      constructor
      · apply Classical.byContradiction
        intro h
        have := Rat.mul_lt_mul_of_pos_left (show B < t by grind) hp
        grind
      · apply Classical.byContradiction
        intro h
        have := Rat.mul_lt_mul_of_pos_left (show t < -B by grind) hp
        grind
    obtain ⟨a1, a2⟩ := mag_le_iff.1 h2
    have b1 : rne (x / ulp x) ≤ (2 ^ 53 : Nat) := by
      have := rne_mono a1
      rw [show (((2 ^ 53 : Nat) : Rat)) = (((2 ^ 53 : Nat) : Int) : Rat) from rfl, rne_int] at this
      exact this
    have b2 : -((2 ^ 53 : Nat) : Int) ≤ rne (x / ulp x) := by
      have := rne_mono a2
      rw [rne_neg, show (((2 ^ 53 : Nat) : Rat)) = (((2 ^ 53 : Nat) : Int) : Rat) from rfl, rne_int] at this
      exact this
    omega
  · unfold rnd ulp
    grind

/-- Numbers with 53 bits are not changed. -/
theorem rnd_exact {x : Rat} (h : Has53 x) : rnd x = x := by
  suffices hz : ∃ z : Int, x = (z : Rat) * ulp x by
    obtain ⟨z, hz⟩ := hz
    have hp := ulp_pos x
    have : x / ulp x = (z : Rat) := by grind
    unfold rnd
    rw [this, rne_int, ← hz]
  obtain ⟨m, k, h1, h2⟩ := h
  have hT : (2 : Rat) ^ 1074 ≠ 0 := by rw [← two_pow_cast]; have := pow_pos' 1074; grind
  by_cases hk : ulpExp x ≤ k
  · refine ⟨m * (2 ^ (k - ulpExp x) : Nat), ?_⟩
    have e : 2 ^ k = 2 ^ (k - ulpExp x) * 2 ^ ulpExp x := by rw [← Nat.pow_add]; congr 1; omega
    have h3 : x = (m : Rat) * ((2 ^ (k - ulpExp x) * 2 ^ ulpExp x : Nat) : Rat) / 2 ^ 1074 := by rw [← e]; exact h2
    unfold ulp
    generalize ulpExp x = j at *
    rw [h3]
    push_cast
    grind
  · rcases ulp_le_mag x with h0 | h0
    · omega
    · -- only the power of two at the end
      have h3 : 2 ^ 52 * 2 ^ ulpExp x ≤ m.natAbs * 2 ^ k := by
        rw [← mul_pow_le 1074, show (2 : Rat) ^ 52 * ulp x * 2 ^ 1074 = 2 ^ 52 * (ulp x * 2 ^ 1074) by grind, ulp_mul] at h0
        have h4 : mag x * 2 ^ 1074 = ((m.natAbs * 2 ^ k : Nat) : Rat) := by
          have hpk := pow_pos' k
          have e1 : mag x = ((m.natAbs : Nat) : Rat) * ((2 ^ k : Nat) : Rat) / 2 ^ 1074 := by
            have e2 : ((m.natAbs : Nat) : Rat) = mag (m : Rat) := by
              unfold mag
              split
              · rename_i hm
                have : m < 0 := Rat.intCast_lt_intCast.1 (by exact_mod_cast hm)
                have e3 : ((m.natAbs : Nat) : Int) = -m := by omega
                have : (((m.natAbs : Nat) : Int) : Rat) = ((-m : Int) : Rat) := by rw [e3]
                push_cast at this
                exact this
              · rename_i hm
                have : ¬ m < 0 := fun h => hm (by exact_mod_cast Rat.intCast_lt_intCast.2 h)
                have e3 : ((m.natAbs : Nat) : Int) = m := by omega
                have : (((m.natAbs : Nat) : Int) : Rat) = (m : Rat) := by rw [e3]
                exact this
            rw [e2, h2]
            have hc : (0 : Rat) < ((2 ^ k : Nat) : Rat) / 2 ^ 1074 := by
              rw [← two_pow_cast 1074, Rat.lt_div_iff (pow_pos' _)]; grind
            rw [show (m : Rat) * ((2 ^ k : Nat) : Rat) / 2 ^ 1074 = (m : Rat) * (((2 ^ k : Nat) : Rat) / 2 ^ 1074) by grind,
              show mag (m : Rat) * ((2 ^ k : Nat) : Rat) / 2 ^ 1074 = mag (m : Rat) * (((2 ^ k : Nat) : Rat) / 2 ^ 1074) by grind]
            generalize ((2 ^ k : Nat) : Rat) / 2 ^ 1074 = c at hc
            generalize (m : Rat) = y
            unfold mag
            by_cases hy : y < 0
            · rw [if_pos hy, if_pos]
              · grind
              · have := Rat.mul_lt_mul_of_pos_left hy hc
                grind
            · rw [if_neg hy, if_neg]
              have := Rat.mul_le_mul_of_nonneg_left (show 0 ≤ y by grind) (Rat.le_of_lt hc)
              grind
          rw [e1]
          push_cast
          grind
        rw [h4] at h0
        exact Rat.natCast_le_natCast.1 (by push_cast at h0 ⊢; exact h0)
      have hke : ulpExp x = k + 1 := by
        have : 2 ^ 52 * 2 ^ ulpExp x ≤ 2 ^ 53 * 2 ^ k := Nat.le_trans h3 (Nat.mul_le_mul_right _ h1)
        rw [← Nat.pow_add, ← Nat.pow_add] at this
        have := (Nat.pow_le_pow_iff_right (by omega)).1 this
        omega
      have hm : m.natAbs = 2 ^ 53 := by
        rw [hke, show 2 ^ 52 * 2 ^ (k + 1) = 2 ^ 53 * 2 ^ k by rw [Nat.pow_succ 2 k]; generalize 2 ^ k = t; omega] at h3
        have := Nat.le_of_mul_le_mul_right h3 (Nat.two_pow_pos k)
        omega
      have he : (ulp x) = 2 * ((2 ^ k : Nat) : Rat) / 2 ^ 1074 := by
        unfold ulp
        rw [hke, Nat.pow_succ]
        push_cast
        grind
      rcases (by omega : m = 2 ^ 53 ∨ m = -2 ^ 53) with e | e
      · refine ⟨2 ^ 52, ?_⟩
        rw [he, h2.trans (show _ = ((2 ^ 53 : Int) : Rat) * ((2 ^ k : Nat) : Rat) / 2 ^ 1074 by rw [e])]
        push_cast
        grind
      · refine ⟨-2 ^ 52, ?_⟩
        rw [he, h2.trans (show _ = ((-2 ^ 53 : Int) : Rat) * ((2 ^ k : Nat) : Rat) / 2 ^ 1074 by rw [e])]
        push_cast
        grind

theorem div_nonneg' {x u : Rat} (h : 0 ≤ x) (hu : 0 < u) : 0 ≤ x / u := by
  apply Classical.byContradiction
  intro hn
  have := (Rat.div_lt_iff hu).1 (show x / u < 0 by grind)
  grind

theorem rnd_nonneg {x : Rat} (h : 0 ≤ x) : 0 ≤ rnd x := by
  have hp := ulp_pos x
  have h1 : (0 : Rat) ≤ x / ulp x := by
    exact div_nonneg' h hp
  have h2 := rne_mono h1
  rw [show (0 : Rat) = ((0 : Int) : Rat) from rfl, rne_int] at h2
  unfold rnd
  exact Rat.mul_nonneg (by exact_mod_cast h2) (Rat.le_of_lt hp)

theorem mag_of_nonneg {x : Rat} (h : 0 ≤ x) : mag x = x := by unfold mag; grind

theorem ulpExp_mono {x y : Rat} (h0 : 0 ≤ x) (h : x ≤ y) : ulpExp x ≤ ulpExp y := by
  have h1 : units x ≤ units y := by
    show (mag x * 2 ^ 1074).floor.toNat ≤ (mag y * 2 ^ 1074).floor.toNat
    rw [mag_of_nonneg h0, mag_of_nonneg (by grind)]
    have := Rat.floor_monotone ((mul_pow_le 1074).2 h)
    omega
  have h2 : Nat.log2 (units x) ≤ Nat.log2 (units y) := by
    by_cases e : units x = 0
    · rw [e]; simp
    · rw [Nat.le_log2 (by omega)]
      exact Nat.le_trans (Nat.log2_self_le e) h1
  unfold ulpExp
  omega

theorem ulp_step {x y : Rat} (h : ulpExp x < ulpExp y) : 2 * ulp x ≤ ulp y := by
  rw [← mul_pow_le 1074, show 2 * ulp x * 2 ^ 1074 = 2 * (ulp x * 2 ^ 1074) by grind, ulp_mul, ulp_mul]
  have h1 : 2 * 2 ^ ulpExp x ≤ 2 ^ ulpExp y := by
    rw [Nat.mul_comm, ← Nat.pow_succ]
    exact Nat.pow_le_pow_right (by omega) h
  have := Rat.natCast_le_natCast.2 h1
  rw [Rat.natCast_mul] at this
  exact this

theorem pow_le_rnd {x : Rat} (h0 : 0 ≤ x) (h : ulpExp x ≠ 0) : 2 ^ 52 * ulp x ≤ rnd x := by
  have hp := ulp_pos x
  have h1 : 2 ^ 52 * ulp x ≤ x := by
    rcases ulp_le_mag x with h1 | h1
    · exact absurd h1 h
    · rw [mag_of_nonneg h0] at h1; exact h1
  have h2 : (((2 ^ 52 : Int)) : Rat) ≤ x / ulp x := by
    have e := div_mul_ulp x
    rw [show (((2 ^ 52 : Int)) : Rat) = (2 : Rat) ^ 52 from rfl]
    generalize (2 : Rat) ^ 52 = B at *
    generalize x / ulp x = t at *
    generalize ulp x = u at *
    apply Classical.byContradiction
    intro hn
    have := Rat.mul_lt_mul_of_pos_left (show t < B by grind) hp
    grind
  have h3 := rne_mono h2
  rw [rne_int] at h3
  have h4 := Rat.mul_le_mul_of_nonneg_right (Rat.intCast_le_intCast.2 h3) (Rat.le_of_lt hp)
  unfold rnd
  push_cast at h4
  exact h4

theorem rnd_le_pow {x : Rat} : rnd x ≤ 2 ^ 53 * ulp x := by
  have hp := ulp_pos x
  have h1 := (mag_le_iff.1 (Rat.le_of_lt (mag_lt_ulp x))).1
  have h2 : x / ulp x ≤ (((2 ^ 53 : Int)) : Rat) := by
    have e := div_mul_ulp x
    rw [show (((2 ^ 53 : Int)) : Rat) = (2 : Rat) ^ 53 from rfl]
    generalize (2 : Rat) ^ 53 = B at *
    generalize x / ulp x = t at *
    generalize ulp x = u at *
    apply Classical.byContradiction
    intro hn
    have := Rat.mul_lt_mul_of_pos_left (show B < t by grind) hp
    grind
  have h3 := rne_mono h2
  rw [rne_int] at h3
  have h4 := Rat.mul_le_mul_of_nonneg_right (Rat.intCast_le_intCast.2 h3) (Rat.le_of_lt hp)
  unfold rnd
  push_cast at h4
  exact h4

theorem rnd_mono_nonneg {x y : Rat} (h0 : 0 ≤ x) (h : x ≤ y) : rnd x ≤ rnd y := by
  have he := ulpExp_mono h0 h
  by_cases hk : ulpExp x = ulpExp y
  · have hu : ulp x = ulp y := by unfold ulp; rw [hk]
    have hp := ulp_pos y
    have h1 : x / ulp y ≤ y / ulp y := by
      have := div_nonneg' (show 0 ≤ y - x by grind) hp
      grind
    unfold rnd
    rw [hu]
    exact Rat.mul_le_mul_of_nonneg_right (Rat.intCast_le_intCast.2 (rne_mono h1)) (Rat.le_of_lt hp)
  · have h1 := ulp_step (x := x) (y := y) (by omega)
    have h2 := pow_le_rnd (x := y) (by grind) (by omega)
    have h3 := rnd_le_pow (x := x)
    grind

/-- Rounding is monotone. -/
theorem rnd_mono {x y : Rat} (h : x ≤ y) : rnd x ≤ rnd y := by
  by_cases h0 : 0 ≤ x
  · exact rnd_mono_nonneg h0 h
  · by_cases h1 : 0 ≤ y
    · have h2 := rnd_nonneg h1
      have h3 := rnd_nonneg (x := -x) (by grind)
      rw [rnd_neg] at h3
      grind
    · have := rnd_mono_nonneg (x := -y) (y := -x) (by grind) (by grind)
      rw [rnd_neg, rnd_neg] at this
      grind

theorem rne_nearest (t : Rat) (z : Int) : mag ((rne t : Rat) - t) ≤ mag ((z : Rat) - t) := by
  obtain ⟨h1, h2⟩ := rne_err t
  by_cases e : z = rne t
  · rw [e]; grind
  · have h3 : mag ((rne t : Rat) - t) ≤ 1 / 2 := mag_le_iff.2 (by constructor <;> grind)
    rcases (by omega : z + 1 ≤ rne t ∨ rne t + 1 ≤ z) with h | h
    · have h4 := Rat.intCast_le_intCast.2 h
      push_cast at h4
      unfold mag at h3 ⊢
      grind
    · have h4 := Rat.intCast_le_intCast.2 h
      push_cast at h4
      unfold mag at h3 ⊢
      grind

theorem mag_mul {x u : Rat} (hu : 0 < u) : mag (x * u) = mag x * u := by
  unfold mag
  by_cases h : x < 0
  · rw [if_pos h, if_pos]
    · grind
    · have := Rat.mul_lt_mul_of_pos_left h hu
      grind
  · rw [if_neg h, if_neg]
    have := Rat.mul_le_mul_of_nonneg_left (show 0 ≤ x by grind) (Rat.le_of_lt hu)
    grind

theorem rnd_nearest_multiple (x : Rat) (z : Int) : mag (rnd x - x) ≤ mag ((z : Rat) * ulp x - x) := by
  have hp := ulp_pos x
  have e := div_mul_ulp x
  have h := Rat.mul_le_mul_of_nonneg_right (rne_nearest (x / ulp x) z) (Rat.le_of_lt hp)
  rw [← mag_mul hp, ← mag_mul hp] at h
  unfold rnd
  rw [show ((rne (x / ulp x) : Rat) - x / ulp x) * ulp x = (rne (x / ulp x) : Rat) * ulp x - x / ulp x * ulp x by grind, e,
    show ((z : Rat) - x / ulp x) * ulp x = (z : Rat) * ulp x - x / ulp x * ulp x by grind, e] at h
  exact h

theorem rnd_nearest_nonneg {x : Rat} (h0 : 0 ≤ x) {y : Rat} (hy : Has53 y) : mag (rnd x - x) ≤ mag (y - x) := by
  obtain ⟨m, k, h1, h2⟩ := hy
  by_cases hk : ulpExp x ≤ k
  · have e : 2 ^ k = 2 ^ (k - ulpExp x) * 2 ^ ulpExp x := by rw [← Nat.pow_add]; congr 1; omega
    have h3 : y = ((m * (2 ^ (k - ulpExp x) : Nat) : Int) : Rat) * ulp x := by
      rw [h2, e]
      unfold ulp
      generalize ulpExp x = j
      push_cast
      grind
    rw [h3]
    exact rnd_nearest_multiple x _
  · have h3 := rnd_nearest_multiple x (2 ^ 52)
    have h4 : 2 ^ 52 * ulp x ≤ x := by
      rcases ulp_le_mag x with h | h
      · omega
      · rw [mag_of_nonneg h0] at h; exact h
    have h5 : y ≤ 2 ^ 52 * ulp x := by
      rw [← mul_pow_le 1074, show (2 : Rat) ^ 52 * ulp x * 2 ^ 1074 = 2 ^ 52 * (ulp x * 2 ^ 1074) by grind, ulp_mul, h2]
      have hT : (2 : Rat) ^ 1074 ≠ 0 := by rw [← two_pow_cast]; have := pow_pos' 1074; grind
      rw [show (m : Rat) * ((2 ^ k : Nat) : Rat) / 2 ^ 1074 * 2 ^ 1074 = (m : Rat) * ((2 ^ k : Nat) : Rat) by grind]
      have h6 : m * ((2 ^ k : Nat) : Int) ≤ ((2 ^ 52 * 2 ^ ulpExp x : Nat) : Int) := by
        have h7 : 2 ^ 53 * 2 ^ k ≤ 2 ^ 52 * 2 ^ ulpExp x := by
          rw [← Nat.pow_add, ← Nat.pow_add]
          exact Nat.pow_le_pow_right (by omega) (by omega)
        have h8 : m * ((2 ^ k : Nat) : Int) ≤ ((2 ^ 53 : Nat) : Int) * ((2 ^ k : Nat) : Int) :=
          Int.mul_le_mul_of_nonneg_right (by omega) (by omega)
        have h9 : ((2 ^ 53 : Nat) : Int) * ((2 ^ k : Nat) : Int) = ((2 ^ 53 * 2 ^ k : Nat) : Int) := by rw [Int.natCast_mul]
        omega
      have h7 := Rat.intCast_le_intCast.2 h6
      rw [show (((2 ^ 52 * 2 ^ ulpExp x : Nat) : Int) : Rat) = ((2 ^ 52 * 2 ^ ulpExp x : Nat) : Rat) from rfl,
        Rat.natCast_mul] at h7
      rw [show ((m * ((2 ^ k : Nat) : Int) : Int) : Rat) = (m : Rat) * ((2 ^ k : Nat) : Rat) by push_cast; rfl] at h7
      exact h7
    push_cast at h3
    generalize rnd x - x = r at *
    unfold mag at *
    grind

/-- The result is nearest of all numbers with 53 bits. -/
theorem rnd_nearest (x : Rat) {y : Rat} (hy : Has53 y) : mag (rnd x - x) ≤ mag (y - x) := by
  by_cases h : 0 ≤ x
  · exact rnd_nearest_nonneg h hy
  · have := rnd_nearest_nonneg (x := -x) (by grind) hy.neg
    rw [rnd_neg, show -rnd x - -x = -(rnd x - x) by grind, show -y - -x = -(y - x) by grind, mag_neg, mag_neg] at this
    exact this

/-- Error of rounding relative to the number, or to the smallest number. -/
theorem ulp_le (x : Rat) : 2 ^ 52 * ulp x ≤ mag x ∨ ulp x * 2 ^ 1074 = 1 := by
  rcases ulp_le_mag x with h | h
  · refine Or.inr ?_
    rw [ulp_mul, h]
    rfl
  · exact Or.inl h

end Dccrg
