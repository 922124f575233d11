import Verif.Limits
/-!
# Which refinement levels are accepted, exactly

The check of `get_maximum_possible_refinement_level` is monotone in the number of cells of level 0, hence it is known
for all grids if it is known at one number for every level.
-/
namespace Dccrg

theorem round_mono {u a b : Nat} (hu : 0 < u) (h : a ≤ b) :
    (if 2 * (a % u) < u then a / u * u
      else if 2 * (a % u) = u then (if a / u % 2 = 0 then a / u * u else (a / u + 1) * u) else (a / u + 1) * u) ≤
    (if 2 * (b % u) < u then b / u * u
      else if 2 * (b % u) = u then (if b / u % 2 = 0 then b / u * u else (b / u + 1) * u) else (b / u + 1) * u) := by
  have hq : a / u ≤ b / u := Nat.div_le_div_right h
  rcases Nat.eq_or_lt_of_le hq with e | hlt
  · have ha := Nat.div_add_mod a u
    have hb := Nat.div_add_mod b u
    rw [← e] at hb ⊢
    generalize a / u = q at *
    have hr : a % u ≤ b % u := by omega
    generalize a % u = r at *
    generalize b % u = r' at *
    have : (q + 1) * u = q * u + u := Nat.succ_mul q u
    generalize q * u = z at *
    split <;> split <;> (repeat' split) <;> omega
  · have h1 : (a / u + 1) * u ≤ b / u * u := Nat.mul_le_mul_right _ hlt
    have h2 : a / u * u ≤ (a / u + 1) * u := Nat.mul_le_mul_right _ (by omega)
    have h3 : b / u * u ≤ (b / u + 1) * u := Nat.mul_le_mul_right _ (by omega)
    generalize (a / u + 1) * u = w1 at *
    generalize (b / u + 1) * u = w2 at *
    generalize a / u * u = w3 at *
    generalize b / u * u = w4 at *
    split <;> (repeat' split) <;> omega

theorem dbl_between {x : Nat} (h : ¬ x < 2 ^ 53) : 2 ^ x.log2 ≤ dbl x ∧ dbl x ≤ 2 ^ (x.log2 + 1) := by
  have h0 : x ≠ 0 := by rintro rfl; simp at h
  have hL : 53 ≤ x.log2 := (Nat.le_log2 h0).2 (by omega)
  have h1 : 2 ^ x.log2 ≤ x := Nat.log2_self_le h0
  have h2 : x < 2 ^ (x.log2 + 1) := Nat.lt_log2_self
  unfold dbl
  rw [if_neg h]
  simp only
  have eL : x.log2 = 52 + (x.log2 - 52) := by omega
  generalize hk : x.log2 - 52 = k at *
  rw [eL] at h1 h2 ⊢
  have e1 : 2 ^ (52 + k) = 2 ^ 52 * 2 ^ k := Nat.pow_add 2 52 k
  have e2 : 2 ^ (52 + k + 1) = 2 ^ 53 * 2 ^ k := by rw [Nat.pow_succ, e1]; omega
  have hu : 0 < 2 ^ k := Nat.two_pow_pos k
  rw [e1] at h1 ⊢
  rw [e2] at h2 ⊢
  generalize 2 ^ k = u at *
  have hq1 : 2 ^ 52 ≤ x / u := (Nat.le_div_iff_mul_le hu).2 h1
  have hq2 : x / u < 2 ^ 53 := (Nat.div_lt_iff_lt_mul hu).2 h2
  have h3 : 2 ^ 52 * u ≤ x / u * u := Nat.mul_le_mul_right _ hq1
  have h4 : (x / u + 1) * u ≤ 2 ^ 53 * u := Nat.mul_le_mul_right _ hq2
  have h5 : x / u * u ≤ (x / u + 1) * u := Nat.mul_le_mul_right _ (by omega)
  generalize (x / u + 1) * u = w1 at *
  generalize x / u * u = w2 at *
  generalize 2 ^ 52 * u = w3 at *
  generalize 2 ^ 53 * u = w4 at *
  constructor <;> (repeat' split) <;> omega

/-- Rounding is monotone. -/
theorem dbl_mono {x y : Nat} (h : x ≤ y) : dbl x ≤ dbl y := by
  by_cases hy : y < 2 ^ 53
  · have hx : x < 2 ^ 53 := by omega
    unfold dbl
    rw [if_pos hx, if_pos hy]; exact h
  · have hyb := dbl_between hy
    have y0 : y ≠ 0 := by rintro rfl; simp at hy
    have hL : 53 ≤ y.log2 := (Nat.le_log2 y0).2 (by omega)
    by_cases hx : x < 2 ^ 53
    · have : 2 ^ 53 ≤ 2 ^ y.log2 := Nat.pow_le_pow_right (by decide) hL
      have e : dbl x = x := by unfold dbl; rw [if_pos hx]
      omega
    · have hxb := dbl_between hx
      have x0 : x ≠ 0 := by rintro rfl; simp at hx
      have hle : x.log2 ≤ y.log2 := (Nat.le_log2 y0).2 (Nat.le_trans (Nat.log2_self_le x0) h)
      rcases Nat.eq_or_lt_of_le hle with e | hlt
      · unfold dbl
        rw [if_neg hx, if_neg hy]
        simp only
        rw [← e]
        exact round_mono (Nat.two_pow_pos _) h
      · have : 2 ^ (x.log2 + 1) ≤ 2 ^ y.log2 := Nat.pow_le_pow_right (by decide) hlt
        omega

namespace Mapping

theorem curSeq_mono {t t' : Nat} (h : t ≤ t') (j : Nat) : curSeq t j ≤ curSeq t' j := by
  induction j with
  | zero => exact Nat.le_refl _
  | succ j ih =>
    exact dbl_mono (Nat.add_le_add ih (dbl_mono (Nat.mul_le_mul_right _ (dbl_mono h))))

/-- `t` cells of level 0 pass the check for levels up to `k`. -/
def Passes (t k : Nat) : Prop := ∀ i, i ≤ k + 1 → curSeq t i ≤ 2 ^ 64

instance (t k : Nat) : Decidable (Passes t k) := by unfold Passes; infer_instance

/-- The largest number of cells of level 0 for which a level is accepted. -/
theorem passes_iff {t k B : Nat} (h1 : Passes B k) (h2 : ¬ Passes (B + 1) k) : Passes t k ↔ t ≤ B := by
  constructor
  · intro h
    apply Decidable.byContradiction
    intro hb
    exact h2 fun i hi => Nat.le_trans (curSeq_mono (by omega) i) (h i hi)
  · exact fun h i hi => Nat.le_trans (curSeq_mono h i) (h1 i hi)

theorem Passes.mono {t k k' : Nat} (h : Passes t k') (hk : k ≤ k') : Passes t k := fun i hi => h i (by omega)

/-- The check passes if ids fit, and otherwise only for these grids. -/
theorem passes_exact {t : Nat} (h0 : 0 < t) (ht : t < 2 ^ 64) (k : Nat) :
    Passes t k ↔ exact t (k + 1) < 2 ^ 64 ∨ (k = 1 ∧ 2049638230412172402 ≤ t ∧ t ≤ 2049638230412172671) ∨
      (k = 2 ∧ 252695124297391119 ≤ t ∧ t ≤ 252695124297391151) ∨ (k = 3 ∧ 31532895852494961 ≤ t ∧ t ≤ 31532895852494962) := by
  by_cases hk : 22 ≤ k
  · have h1 : ¬ Passes t k := fun h =>
      absurd (h.mono hk) (fun h => absurd (Passes.mono (k := 22) h (Nat.le_refl _)) (fun h =>
        absurd (show Passes 1 22 from fun i hi => Nat.le_trans (curSeq_mono h0 i) (h i hi)) (by decide +kernel)))
    have h2 := exact_mono t (show 23 ≤ k + 1 by omega)
    have h3 : 2 ^ 64 ≤ exact t 23 := by simp only [exact, Nat.reducePow]; omega
    constructor
    · exact fun h => absurd h h1
    · rintro (h | h | h | h) <;> omega
  · have hs : k = 0 ∨ k = 1 ∨ k = 2 ∨ k = 3 ∨ k = 4 ∨ k = 5 ∨ k = 6 ∨ k = 7 ∨ k = 8 ∨ k = 9 ∨
      k = 10 ∨ k = 11 ∨ k = 12 ∨ k = 13 ∨ k = 14 ∨ k = 15 ∨ k = 16 ∨ k = 17 ∨ k = 18 ∨ k = 19 ∨
      k = 20 ∨ k = 21 := by omega
    have fin : ∀ (B : Nat), Passes B k → ¬ Passes (B + 1) k → ((exact t (k + 1) < 2 ^ 64 ∨
        (k = 1 ∧ 2049638230412172402 ≤ t ∧ t ≤ 2049638230412172671) ∨ (k = 2 ∧ 252695124297391119 ≤ t ∧ t ≤ 252695124297391151) ∨
        (k = 3 ∧ 31532895852494961 ≤ t ∧ t ≤ 31532895852494962)) ↔ t ≤ B) →
        (Passes t k ↔ exact t (k + 1) < 2 ^ 64 ∨ (k = 1 ∧ 2049638230412172402 ≤ t ∧ t ≤ 2049638230412172671) ∨
      (k = 2 ∧ 252695124297391119 ≤ t ∧ t ≤ 252695124297391151) ∨ (k = 3 ∧ 31532895852494961 ≤ t ∧ t ≤ 31532895852494962)) :=
      fun B a b c => (passes_iff a b).trans c.symm
    rcases hs with rfl | rfl | rfl | rfl | rfl | rfl | rfl | rfl | rfl | rfl | rfl | rfl | rfl |
      rfl | rfl | rfl | rfl | rfl | rfl | rfl | rfl | rfl
    · refine ⟨fun _ => Or.inl ?_, fun _ => ?_⟩
      · simp only [exact, Nat.reducePow]; omega
      · exact fun i hi => Nat.le_trans (curSeq_mono (show t ≤ 2 ^ 64 by omega) i) ((by decide +kernel : Passes (2 ^ 64) 0) i hi)
    · exact fin 2049638230412172671 (by decide +kernel) (by decide +kernel) (by simp only [exact, Nat.reducePow, true_and, Nat.reduceEqDiff, false_and, or_false, false_or]; omega)
    · exact fin 252695124297391151 (by decide +kernel) (by decide +kernel) (by simp only [exact, Nat.reducePow, true_and, Nat.reduceEqDiff, false_and, or_false, false_or]; omega)
    · exact fin 31532895852494962 (by decide +kernel) (by decide +kernel) (by simp only [exact, Nat.reducePow, true_and, Nat.reduceEqDiff, false_and, or_false, false_or]; omega)
    · exact fin 3940769936703600 (by decide +kernel) (by decide +kernel) (by simp only [exact, Nat.reducePow]; omega)
    · exact fin 492583088299008 (by decide +kernel) (by decide +kernel) (by simp only [exact, Nat.reducePow]; omega)
    · exact fin 61572680515598 (by decide +kernel) (by decide +kernel) (by simp only [exact, Nat.reducePow]; omega)
    · exact fin 7696581853184 (by decide +kernel) (by decide +kernel) (by simp only [exact, Nat.reducePow]; omega)
    · exact fin 962072681472 (by decide +kernel) (by decide +kernel) (by simp only [exact, Nat.reducePow]; omega)
    · exact fin 120259084400 (by decide +kernel) (by decide +kernel) (by simp only [exact, Nat.reducePow]; omega)
    · exact fin 15032385537 (by decide +kernel) (by decide +kernel) (by simp only [exact, Nat.reducePow]; omega)
    · exact fin 1879048192 (by decide +kernel) (by decide +kernel) (by simp only [exact, Nat.reducePow]; omega)
    · exact fin 234881024 (by decide +kernel) (by decide +kernel) (by simp only [exact, Nat.reducePow]; omega)
    · exact fin 29360128 (by decide +kernel) (by decide +kernel) (by simp only [exact, Nat.reducePow]; omega)
    · exact fin 3670016 (by decide +kernel) (by decide +kernel) (by simp only [exact, Nat.reducePow]; omega)
    · exact fin 458752 (by decide +kernel) (by decide +kernel) (by simp only [exact, Nat.reducePow]; omega)
    · exact fin 57344 (by decide +kernel) (by decide +kernel) (by simp only [exact, Nat.reducePow]; omega)
    · exact fin 7168 (by decide +kernel) (by decide +kernel) (by simp only [exact, Nat.reducePow]; omega)
    · exact fin 896 (by decide +kernel) (by decide +kernel) (by simp only [exact, Nat.reducePow]; omega)
    · exact fin 112 (by decide +kernel) (by decide +kernel) (by simp only [exact, Nat.reducePow]; omega)
    · exact fin 14 (by decide +kernel) (by decide +kernel) (by simp only [exact, Nat.reducePow]; omega)
    · exact fin 1 (by decide +kernel) (by decide +kernel) (by simp only [exact, Nat.reducePow]; omega)

end Mapping
end Dccrg
