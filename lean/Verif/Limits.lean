import Verif.MappingRefine
/-!
# Floating point check of the maximum refinement level: helper lemmas
-/
namespace Dccrg

theorem dbl_lower (x : Nat) : x * 2 ^ 53 ≤ dbl x * 2 ^ 53 + x := by
  unfold dbl
  split
  · omega
  · rename_i hx
    have hx0 : x ≠ 0 := by omega
    have hlog : 53 ≤ Nat.log2 x := (Nat.le_log2 hx0).2 (by omega)
    have hle : 2 ^ Nat.log2 x ≤ x := Nat.log2_self_le hx0
    have hu : 2 ^ (Nat.log2 x - 52) * 2 ^ 52 = 2 ^ Nat.log2 x := by
      rw [← Nat.pow_add, Nat.sub_add_cancel (by omega)]
    have hpos : 0 < 2 ^ (Nat.log2 x - 52) := Nat.pow_pos (by omega)
    have h1 := Nat.div_add_mod x (2 ^ (Nat.log2 x - 52))
    have h2 := Nat.mod_lt x hpos
    have hc := Nat.mul_comm (x / 2 ^ (Nat.log2 x - 52)) (2 ^ (Nat.log2 x - 52))
    have hs : (x / 2 ^ (Nat.log2 x - 52) + 1) * 2 ^ (Nat.log2 x - 52)
        = x / 2 ^ (Nat.log2 x - 52) * 2 ^ (Nat.log2 x - 52) + 2 ^ (Nat.log2 x - 52) :=
      Nat.succ_mul _ _
    dsimp only
    generalize 2 ^ (Nat.log2 x - 52) = u at *
    generalize x % u = r at *
    generalize hq : x / u = q at *
    generalize q * u = qu at *
    rw [hs]
    split
    · omega
    · split
      · split <;> omega
      · omega

theorem dbl_upper (x : Nat) : dbl x * 2 ^ 53 ≤ x * 2 ^ 53 + x := by
  unfold dbl
  split
  · omega
  · rename_i hx
    have hx0 : x ≠ 0 := by omega
    have hlog : 53 ≤ Nat.log2 x := (Nat.le_log2 hx0).2 (by omega)
    have hle : 2 ^ Nat.log2 x ≤ x := Nat.log2_self_le hx0
    have hu : 2 ^ (Nat.log2 x - 52) * 2 ^ 52 = 2 ^ Nat.log2 x := by
      rw [← Nat.pow_add, Nat.sub_add_cancel (by omega)]
    have hpos : 0 < 2 ^ (Nat.log2 x - 52) := Nat.pow_pos (by omega)
    have h1 := Nat.div_add_mod x (2 ^ (Nat.log2 x - 52))
    have h2 := Nat.mod_lt x hpos
    have hc := Nat.mul_comm (x / 2 ^ (Nat.log2 x - 52)) (2 ^ (Nat.log2 x - 52))
    have hs : (x / 2 ^ (Nat.log2 x - 52) + 1) * 2 ^ (Nat.log2 x - 52)
        = x / 2 ^ (Nat.log2 x - 52) * 2 ^ (Nat.log2 x - 52) + 2 ^ (Nat.log2 x - 52) :=
      Nat.succ_mul _ _
    dsimp only
    generalize 2 ^ (Nat.log2 x - 52) = u at *
    generalize x % u = r at *
    generalize hq : x / u = q at *
    generalize q * u = qu at *
    rw [hs]
    split
    · omega
    · split
      · split <;> omega
      · omega

theorem dbl_le_two_pow_64 {x : Nat} (h : x ≤ 2 ^ 64 + 2048) : dbl x ≤ 2 ^ 64 := by
  unfold dbl
  split
  · omega
  · rename_i hx
    have hx0 : x ≠ 0 := by omega
    have hlog : 53 ≤ Nat.log2 x := (Nat.le_log2 hx0).2 (by omega)
    have hlt : x < 2 ^ (Nat.log2 x + 1) := Nat.lt_log2_self
    have hle : 2 ^ Nat.log2 x ≤ x := Nat.log2_self_le hx0
    by_cases h64 : x < 2 ^ 64
    · have hlog2 : Nat.log2 x < 64 := (Nat.log2_lt hx0).2 h64
      have hu : 2 ^ (Nat.log2 x - 52) * 2 ^ 53 = 2 ^ (Nat.log2 x + 1) := by
        rw [← Nat.pow_add]; congr 1; omega
      have hpos : 0 < 2 ^ (Nat.log2 x - 52) := Nat.pow_pos (by omega)
      have hq : x / 2 ^ (Nat.log2 x - 52) < 2 ^ 53 := by
        rw [Nat.div_lt_iff_lt_mul hpos, Nat.mul_comm, hu]; exact hlt
      have h2 : 2 ^ (Nat.log2 x + 1) ≤ 2 ^ 64 := Nat.pow_le_pow_right (by omega) (by omega)
      have h3 : (x / 2 ^ (Nat.log2 x - 52) + 1) * 2 ^ (Nat.log2 x - 52)
          ≤ 2 ^ 53 * 2 ^ (Nat.log2 x - 52) := Nat.mul_le_mul_right _ (by omega)
      have h4 : x / 2 ^ (Nat.log2 x - 52) * 2 ^ (Nat.log2 x - 52)
          ≤ 2 ^ 53 * 2 ^ (Nat.log2 x - 52) := Nat.mul_le_mul_right _ (by omega)
      have hc := Nat.mul_comm (2 ^ 53) (2 ^ (Nat.log2 x - 52))
      dsimp only
      split
      · omega
      · split
        · split <;> omega
        · omega
    · have hlog2 : Nat.log2 x = 64 := by
        have h1 : 64 ≤ Nat.log2 x := (Nat.le_log2 hx0).2 (by omega)
        have h2 : Nat.log2 x < 65 := (Nat.log2_lt hx0).2 (by omega)
        omega
      dsimp only
      rw [hlog2]
      simp only [Nat.reduceSub, Nat.reducePow]
      simp only [Nat.reducePow] at h h64
      split
      · omega
      · split
        · split <;> omega
        · omega

theorem pair_sum {x y : Nat} (hx : 2 ≤ x) (hy : 2 ≤ y) : 2 * x + 2 * y ≤ x * y + 4 := by
  obtain ⟨a, rfl⟩ := Nat.exists_eq_add_of_le hx
  obtain ⟨b, rfl⟩ := Nat.exists_eq_add_of_le hy
  have : (2 + a) * (2 + b) = 4 + 2 * a + 2 * b + a * b := by
    rw [Nat.add_mul, Nat.mul_add, Nat.mul_add]; omega
  omega

theorem triple_sum {x y z : Nat} (hx : 2 ≤ x) (hy : 2 ≤ y) (hz : 0 < z)
    (h : x * y * z < 2 ^ 64) : x + y + z ≤ 2 ^ 63 + 2 ^ 62 + 2 := by
  have h1 := pair_sum hx hy
  have h2 : x * y ≤ x * y * z := Nat.le_mul_of_pos_right _ hz
  have h3 : 4 * z ≤ x * y * z := Nat.mul_le_mul_right _ (Nat.mul_le_mul hx hy)
  omega

/-- The check of `Grid_Length::set` passes for all lengths whose product fits. -/
theorem sum_check {a b c : Nat} (ha : 0 < a) (hb : 0 < b) (hc : 0 < c)
    (h : a * b * c < 2 ^ 64) : dbl (dbl (dbl a + dbl b) + dbl c) ≤ 2 ^ 64 := by
  have small : a + b + c ≤ 2 ^ 63 + 2 ^ 62 + 2 → dbl (dbl (dbl a + dbl b) + dbl c) ≤ 2 ^ 64 := by
    intro hs
    have h1 := dbl_upper a
    have h2 := dbl_upper b
    have h3 := dbl_upper c
    have h4 := dbl_upper (dbl a + dbl b)
    have h5 := dbl_upper (dbl (dbl a + dbl b) + dbl c)
    generalize dbl a = a' at *
    generalize dbl b = b' at *
    generalize dbl c = c' at *
    generalize dbl (a' + b') = d' at *
    omega
  have d1 : dbl 1 = 1 := by decide
  by_cases ha2 : 2 ≤ a
  · by_cases hb2 : 2 ≤ b
    · exact small (triple_sum ha2 hb2 hc h)
    · have hb1 : b = 1 := by omega
      by_cases hc2 : 2 ≤ c
      · have := triple_sum ha2 hc2 hb (by rw [hb1] at h ⊢; simpa using h)
        exact small (by omega)
      · have hc1 : c = 1 := by omega
        subst hb1 hc1
        have h1 : dbl a ≤ 2 ^ 64 := dbl_le_two_pow_64 (by omega)
        have h2 : dbl (dbl a + dbl 1) ≤ 2 ^ 64 := dbl_le_two_pow_64 (by omega)
        exact dbl_le_two_pow_64 (by omega)
  · have ha1 : a = 1 := by omega
    by_cases hb2 : 2 ≤ b
    · by_cases hc2 : 2 ≤ c
      · have := triple_sum hb2 hc2 ha (by rw [ha1] at h ⊢; simpa using h)
        exact small (by omega)
      · have hc1 : c = 1 := by omega
        subst ha1 hc1
        have h1 : dbl b ≤ 2 ^ 64 := dbl_le_two_pow_64 (by omega)
        have h2 : dbl (dbl 1 + dbl b) ≤ 2 ^ 64 := dbl_le_two_pow_64 (by omega)
        exact dbl_le_two_pow_64 (by omega)
    · have hb1 : b = 1 := by omega
      subst ha1 hb1
      have h1 : dbl c ≤ 2 ^ 64 := dbl_le_two_pow_64 (by omega)
      have d2 : dbl (dbl 1 + dbl 1) = 2 := by decide
      exact dbl_le_two_pow_64 (by omega)

theorem dbl_max : dbl (W - 1) = 2 ^ 64 := by decide +kernel

namespace Mapping

/-- Value of `current_last` after `j` iterations (dccrg_mapping.hpp:322-327). -/
def curSeq (total : Nat) : Nat → Nat
  | 0 => 0
  | j + 1 => dbl (curSeq total j + dbl (dbl total * 8 ^ j))

theorem loop_bound (t fuel l : Nat) :
    ∀ j, l ≤ j → j < maxPossibleLoop t fuel l (curSeq t l) → curSeq t j ≤ 2 ^ 64 := by
  induction fuel generalizing l with
  | zero => intro j h1 h2; simp only [maxPossibleLoop] at h2; omega
  | succ f ih =>
    intro j h1 h2
    rw [maxPossibleLoop, dbl_max] at h2
    split at h2
    · rename_i hc
      rcases Nat.eq_or_lt_of_le h1 with rfl | h3
      · exact hc
      · exact ih (l + 1) j h3 h2
    · omega

/-- Exact number of cells of levels below `j` when there are `t` level 0 cells. -/
def exact (t : Nat) : Nat → Nat
  | 0 => 0
  | j + 1 => exact t j + t * 8 ^ j

theorem exact_mono (t : Nat) {i j : Nat} (h : i ≤ j) : exact t i ≤ exact t j := by
  induction h with
  | refl => exact Nat.le_refl _
  | step _ ih => exact Nat.le_trans ih (by rw [exact]; omega)

theorem exact_eq_base (m : Mapping) (j : Nat) : exact m.cfg.total j = m.cfg.base j := by
  induction j with
  | zero => rfl
  | succ j ih => rw [exact, Cfg.base_succ, ih]

/-! ## Levels that fit are accepted -/

theorem loop_passes (t l' : Nat) (fuel l : Nat) (hf : l' < l + fuel) (hl : l ≤ l')
    (h : ∀ i, i ≤ l' → curSeq t i ≤ 2 ^ 64) : l' < maxPossibleLoop t fuel l (curSeq t l) := by
  induction fuel generalizing l with
  | zero => omega
  | succ f ih =>
    rw [maxPossibleLoop, dbl_max, if_pos (h l hl)]
    rcases Nat.eq_or_lt_of_le hl with rfl | h3
    · have : ∀ f k c, k ≤ maxPossibleLoop t f k c := by
        intro f
        induction f with
        | zero => intro k c; exact Nat.le_refl _
        | succ f ih =>
          intro k c
          rw [maxPossibleLoop]
          split
          · have := ih (k + 1) (dbl (c + dbl (dbl t * 8 ^ k)))
            omega
          · exact Nat.le_refl _
      exact this _ _ _
    · exact ih (l + 1) (by omega) h3

end Mapping
end Dccrg
