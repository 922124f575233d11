import Verif.StretchedDoubleExact
import Verif.GeomDoubleError
/-!
# When the search for a coordinate in a level 0 cell stops
-/
namespace Dccrg
open Cfg

/-- Smallest positive `double`. -/
theorem unit_zero : unit 0 = 1 / 2 ^ 1074 := by unfold unit; decide +kernel

/-- Numbers of type `double` are multiples of the smallest positive one. -/
theorem Has53.multiple {x : Rat} (h : Has53 x) : ∃ z : Int, x = (z : Rat) * unit 0 := by
  obtain ⟨z, k, -, e⟩ := h
  refine ⟨z * ((2 ^ k : Nat) : Int), ?_⟩
  rw [e, Rat.intCast_mul, natCast_int, unit_zero]
  grind

theorem Has53.mul_pow {x : Rat} (h : Has53 x) (j : Nat) : Has53 (((2 ^ j : Nat) : Rat) * x) := by
  obtain ⟨z, k, hz, e⟩ := h
  refine ⟨z, k + j, hz, ?_⟩
  rw [e, Nat.pow_add, Rat.natCast_mul]
  grind

theorem diff_units {a b : Rat} (ha : Has53 a) (hb : Has53 b) (hab : a < b) : ∃ N : Nat, 0 < N ∧ b - a = (N : Rat) * unit 0 := by
  obtain ⟨z, hz⟩ := ha.multiple
  obtain ⟨w, hw⟩ := hb.multiple
  have hu := unit_pos 0
  have hlt : z < w := by
    apply Classical.byContradiction
    intro hn
    have h1 : (w : Rat) ≤ (z : Rat) := Rat.intCast_le_intCast.2 (by omega)
    have := Rat.mul_le_mul_of_nonneg_right h1 (Rat.le_of_lt hu)
    grind
  refine ⟨(w - z).toNat, by omega, ?_⟩
  rw [← natCast_int, show (((w - z).toNat : Nat) : Int) = w - z by omega, Rat.intCast_sub, hz, hw]
  grind

theorem rnd_units {N : Nat} : ((N : Rat) * unit 0 ≤ 2 * rnd ((N : Rat) * unit 0)) ∧
    (N ≤ 2 ^ 53 → rnd ((N : Rat) * unit 0) = (N : Rat) * unit 0) ∧
    (2 ^ 53 ≤ N → ((2 ^ 53 : Nat) : Rat) * unit 0 ≤ rnd ((N : Rat) * unit 0)) := by
  have hu := unit_pos 0
  have hex : N ≤ 2 ^ 53 → rnd ((N : Rat) * unit 0) = (N : Rat) * unit 0 := by
    intro hN
    have := rnd_exact (has53_units (z := (N : Int)) (k := 0) (by omega))
    rw [natCast_int] at this
    exact this
  have h0 : 0 ≤ (N : Rat) * unit 0 := Rat.mul_nonneg (by exact_mod_cast Nat.zero_le N) (Rat.le_of_lt hu)
  refine ⟨?_, hex, fun hN => ?_⟩
  · by_cases hN : N ≤ 2 ^ 53
    · rw [hex hN]; grind
    · have h1 := rnd_err ((N : Rat) * unit 0)
      rcases ulp_le ((N : Rat) * unit 0) with h | h
      · rw [mag_of_nonneg h0] at h
        have hp := ulp_pos ((N : Rat) * unit 0)
        have e : (2 : Rat) ^ 52 = 4503599627370496 := by decide +kernel
        rw [e] at h
        grind
      · have e : ulp ((N : Rat) * unit 0) = unit 0 := by
          generalize ulp ((N : Rat) * unit 0) = t at *
          rw [unit_zero]; have := pow1074_ne; grind
        rw [e] at h1
        have h2 : (1 : Rat) ≤ (N : Rat) := by
          have : 1 ≤ N := by omega
          exact_mod_cast this
        have := Rat.mul_le_mul_of_nonneg_right h2 (Rat.le_of_lt hu)
        grind
  · have h1 := rnd_mono (Rat.mul_le_mul_of_nonneg_right (Rat.natCast_le_natCast.2 hN) (Rat.le_of_lt hu))
    have h2 := rnd_exact (has53_units (z := ((2 ^ 53 : Nat) : Int)) (k := 0) (by omega))
    rw [natCast_int] at h2
    rw [h2] at h1
    exact h1

/-- Rounding a number that is more than half of the smallest positive one. -/
theorem rnd_half {y : Rat} (hy : unit 0 < 2 * y) : 2 * y ≤ 3 * rnd y := by
  have hu := unit_pos 0
  have h0 : 0 ≤ y := by grind
  have h1 := rnd_err y
  have hn := rnd_nonneg h0
  rcases ulp_le y with h | h
  · rw [mag_of_nonneg h0] at h
    have hp := ulp_pos y
    have e : (2 : Rat) ^ 52 = 4503599627370496 := by decide +kernel
    rw [e] at h
    grind
  · have e : ulp y = unit 0 := by rw [unit_zero]; have := pow1074_ne; grind
    rw [e] at h1
    have hpos : unit 0 ≤ rnd y := by
      obtain ⟨z, hz⟩ := (rnd_has53 y).multiple
      have h2 : 0 < z := by
        apply Classical.byContradiction
        intro hn
        have h3 : (z : Rat) ≤ ((0 : Int) : Rat) := Rat.intCast_le_intCast.2 (by omega)
        have := Rat.mul_le_mul_of_nonneg_right h3 (Rat.le_of_lt hu)
        have e0 : ((0 : Int) : Rat) = 0 := rfl
        grind
      have h3 : ((1 : Int) : Rat) ≤ (z : Rat) := Rat.intCast_le_intCast.2 (by omega)
      have := Rat.mul_le_mul_of_nonneg_right h3 (Rat.le_of_lt hu)
      have e1 : ((1 : Int) : Rat) = 1 := rfl
      grind
    grind

theorem rnd_small {y : Rat} (h0 : 0 ≤ y) (hy : 2 * y ≤ unit 0) : rnd y = 0 := by
  have h1 := rnd_mono (show y ≤ 1 / 2 ^ 1075 by
    have e : unit 0 = 2 * (1 / 2 ^ 1075) := by unfold unit; decide +kernel
    grind)
  have h2 : rnd (1 / 2 ^ 1075) = 0 := by decide +kernel
  have h3 := rnd_nonneg h0
  grind

theorem Val.ofNat_fin {r : Nat} (h : r < W) : ∃ q : Rat, Val.ofNat r = .fin q := by
  refine ⟨_, ofRat_bound ?_⟩
  rw [mag_of_nonneg (by exact_mod_cast Nat.zero_le r)]
  have h1 : (r : Rat) ≤ ((2 ^ 64 : Nat) : Rat) := Rat.natCast_le_natCast.2 (Nat.le_of_lt h)
  have h2 : ((2 ^ 64 : Nat) : Rat) ≤ 2 ^ 1001 := by decide +kernel
  generalize (2 : Rat) ^ 1001 = P at *
  generalize ((2 ^ 64 : Nat) : Rat) = Q at *
  grind

/-- Not less than a number that is not less. -/
theorem ofRat_not_lt {y x b : Rat} (hb : (Val.fin b).IsDouble) (hy : b ≤ y) (hx : x ≤ b) : ¬ (Val.ofRat y).lt (.fin x) := by
  have h1 := rnd_mono hy
  have h2 : rnd b = b := rnd_exact hb.1
  have h3 := (mag_le_iff.1 (show mag b ≤ mag b from Rat.le_refl)).2
  have h4 : mag b < huge := hb.2
  unfold Val.ofRat
  generalize huge = H at *
  by_cases e1 : H ≤ rnd y
  · rw [if_pos e1]; exact fun h => by cases h
  · rw [if_neg e1, if_neg (by grind)]
    intro h
    replace h : rnd y < x := h
    grind

section
variable {M : Nat} {a b x : Rat}

/-- If a level 0 cell is not too short then the search stops. -/
theorem search_stops (ha : (Val.fin a).IsDouble) (hb : (Val.fin b).IsDouble) (hab : a < b) (hx : x ≤ b) (hM : M ≤ 21)
    (hl : ((2 ^ M : Nat) : Rat) < (b - a) * 2 ^ 1075) : ∃ j, j ≤ 2 ^ (M + 2) ∧
    ¬ ((Val.fin a).add ((Val.ofNat j).mul (((Val.fin b).sub (.fin a)).div (.fin ((2 ^ M : Nat) : Rat))))).lt (.fin x) := by
  have hu := unit_pos 0
  have hX := pow_pos' M
  obtain ⟨N, hN, eN⟩ := diff_units ha.1 hb.1 hab
  rw [Val.sub_fin]
  have hpos : 0 < b - a := by grind
  have hbig : (0 : Rat) < huge := by unfold huge; decide +kernel
  by_cases ho : huge ≤ rnd (b - a)
  · refine ⟨0, Nat.zero_le _, ?_⟩
    have e : Val.ofRat (b - a) = .inf false := by unfold Val.ofRat; rw [if_pos ho]
    rw [e]
    have e2 : (Val.inf false).div (.fin ((2 ^ M : Nat) : Rat)) = .inf false := by
      show Val.inf (false != decide _) = _
      rw [decide_eq_false (by grind)]; rfl
    rw [e2, ofNat_exact (Nat.zero_le _)]
    have e3 : (Val.fin ((0 : Nat) : Rat)).mul (.inf false) = .nan := by decide +kernel
    rw [e3]
    exact id
  · have hn := rnd_nonneg (Rat.le_of_lt hpos)
    have e : Val.ofRat (b - a) = .fin (rnd (b - a)) := by
      unfold Val.ofRat
      generalize huge = H at *
      rw [if_neg ho, if_neg (by grind)]
    have hr := rnd_units (N := N)
    rw [← eN] at hr
    obtain ⟨r1, r2, r3⟩ := hr
    have hy : unit 0 < 2 * (rnd (b - a) / ((2 ^ M : Nat) : Rat)) := by
      have k : unit 0 * ((2 ^ M : Nat) : Rat) < 2 * rnd (b - a) := by
        by_cases hc : N ≤ 2 ^ 53
        · rw [r2 hc]
          have e1 : (2 : Rat) ^ 1075 = 2 * 2 ^ 1074 := by decide +kernel
          rw [e1] at hl
          rw [unit_zero]
          have := pow1074_ne
          have hP : (0 : Rat) < 2 ^ 1074 := by decide +kernel
          generalize (2 : Rat) ^ 1074 = P at *
          generalize ((2 ^ M : Nat) : Rat) = X at *
          generalize b - a = l at *
          apply Classical.byContradiction
          intro hn
          have := Rat.mul_le_mul_of_nonneg_right (show 2 * l ≤ 1 / P * X by grind) (Rat.le_of_lt hP)
          have e3 : 1 / P * X * P = X := by grind
          grind
        · have h1 := r3 (by omega)
          have h2 : ((2 ^ M : Nat) : Rat) ≤ ((2 ^ 53 : Nat) : Rat) :=
            Rat.natCast_le_natCast.2 (Nat.pow_le_pow_right (by omega) (by omega))
          have h3 := Rat.mul_le_mul_of_nonneg_left h2 (Rat.le_of_lt hu)
          have h4 : 0 < ((2 ^ 53 : Nat) : Rat) * unit 0 := Rat.mul_pos (pow_pos' 53) hu
          generalize ((2 ^ 53 : Nat) : Rat) = P at *
          grind
      generalize rnd (b - a) = l at *
      generalize ((2 ^ M : Nat) : Rat) = X at *
      apply Classical.byContradiction
      intro hn
      have := Rat.mul_le_mul_of_nonneg_right (show 2 * (l / X) ≤ unit 0 by grind) (Rat.le_of_lt hX)
      have e3 : 2 * (l / X) * X = 2 * l := by grind
      grind
    have hh := rnd_half hy
    have hh0 := rnd_nonneg (show 0 ≤ rnd (b - a) / ((2 ^ M : Nat) : Rat) by grind)
    have hlt : rnd (rnd (b - a) / ((2 ^ M : Nat) : Rat)) ≤ rnd (b - a) := by
      have h1 : rnd (b - a) / ((2 ^ M : Nat) : Rat) ≤ rnd (b - a) := by
        have hX1 : (1 : Rat) ≤ ((2 ^ M : Nat) : Rat) := by
          have : 1 ≤ 2 ^ M := Nat.pow_pos (by omega)
          exact_mod_cast this
        have h2 := Rat.mul_le_mul_of_nonneg_left hX1 (show 0 ≤ rnd (b - a) / ((2 ^ M : Nat) : Rat) by grind)
        have e3 : rnd (b - a) / ((2 ^ M : Nat) : Rat) * ((2 ^ M : Nat) : Rat) = rnd (b - a) := by grind
        rw [e3] at h2
        grind
      have := rnd_mono h1
      rw [rnd_exact (rnd_has53 (b - a))] at this
      exact this
    have e2 : (Val.fin (rnd (b - a))).div (.fin ((2 ^ M : Nat) : Rat)) = .fin (rnd (rnd (b - a) / ((2 ^ M : Nat) : Rat))) := by
      rw [Val.div_fin (by grind)]
      unfold Val.ofRat
      generalize huge = H at *
      rw [if_neg (by grind), if_neg (by grind)]
    refine ⟨2 ^ (M + 2), Nat.le_refl _, ?_⟩
    rw [e, e2]
    have hj : 2 ^ (M + 2) ≤ 2 ^ 53 := Nat.pow_le_pow_right (by omega) (by omega)
    rw [ofNat_exact hj, Val.mul_fin]
    have hs : Has53 (((2 ^ (M + 2) : Nat) : Rat) * rnd (rnd (b - a) / ((2 ^ M : Nat) : Rat))) := (rnd_has53 _).mul_pow _
    have hge : b - a ≤ ((2 ^ (M + 2) : Nat) : Rat) * rnd (rnd (b - a) / ((2 ^ M : Nat) : Rat)) := by
      rw [Nat.pow_add, Rat.natCast_mul, show ((2 ^ 2 : Nat) : Rat) = 4 from rfl]
      generalize hl' : rnd (b - a) = l at *
      generalize hq : rnd (l / ((2 ^ M : Nat) : Rat)) = q at *
      generalize ((2 ^ M : Nat) : Rat) = X at *
      have h1 := Rat.mul_le_mul_of_nonneg_right hh (Rat.le_of_lt hX)
      have e3 : 2 * (l / X) * X = 2 * l := by grind
      rw [e3] at h1
      have h2 : 0 ≤ q * X := Rat.mul_nonneg hh0 (Rat.le_of_lt hX)
      grind
    generalize ((2 ^ (M + 2) : Nat) : Rat) * rnd (rnd (b - a) / ((2 ^ M : Nat) : Rat)) = t at *
    have ht0 : 0 ≤ t := by grind
    by_cases ht : huge ≤ t
    · have : Val.ofRat t = .inf false := by
        unfold Val.ofRat; rw [rnd_exact hs, if_pos ht]
      rw [this]
      exact fun h => by cases h
    · have : Val.ofRat t = .fin t := Val.ofRat_exact hs (by rw [mag_of_nonneg ht0]; grind)
      rw [this, Val.add_fin]
      exact ofRat_not_lt hb (by grind) hx

/-- If a level 0 cell is too short then the search does not stop. -/
theorem search_hangs (ha : (Val.fin a).IsDouble) (hb : (Val.fin b).IsDouble) (hab : a < b) (hx : a < x) (hM : M ≤ 21)
    (hl : (b - a) * 2 ^ 1075 ≤ ((2 ^ M : Nat) : Rat)) {j : Nat} (hj : j < W) :
    ((Val.fin a).add ((Val.ofNat j).mul (((Val.fin b).sub (.fin a)).div (.fin ((2 ^ M : Nat) : Rat))))).lt (.fin x) := by
  have hu := unit_pos 0
  have hX := pow_pos' M
  obtain ⟨N, hN, eN⟩ := diff_units ha.1 hb.1 hab
  have e1 : (2 : Rat) ^ 1075 = 2 * 2 ^ 1074 := by decide +kernel
  have hP : (0 : Rat) < 2 ^ 1074 := by decide +kernel
  have eu : unit 0 * 2 ^ 1074 = 1 := by rw [unit_zero]; have := pow1074_ne; grind
  have hNX : 2 * (N : Rat) ≤ ((2 ^ M : Nat) : Rat) := by
    rw [e1, eN] at hl
    have : (N : Rat) * unit 0 * (2 * 2 ^ 1074) = 2 * (N : Rat) * (unit 0 * 2 ^ 1074) := by grind
    rw [this, eu] at hl
    grind
  have hN53 : N ≤ 2 ^ 53 := by
    have h1 : 2 * N ≤ 2 ^ M := by
      have : ((2 * N : Nat) : Rat) ≤ ((2 ^ M : Nat) : Rat) := by
        rw [Rat.natCast_mul]; exact hNX
      exact Rat.natCast_le_natCast.1 this
    have h2 : 2 ^ M ≤ 2 ^ 53 := Nat.pow_le_pow_right (by omega) (by omega)
    omega
  rw [Val.sub_fin, eN]
  have e2 : Val.ofRat ((N : Rat) * unit 0) = .fin ((N : Rat) * unit 0) :=
    ofRat_units (N : Int) 0 (by omega) (by omega) (by rw [natCast_int])
  have hy : rnd ((N : Rat) * unit 0 / ((2 ^ M : Nat) : Rat)) = 0 := by
    have h0 : (0 : Rat) ≤ (N : Rat) := by exact_mod_cast Nat.zero_le N
    refine rnd_small (div_nonneg' (Rat.mul_nonneg h0 (Rat.le_of_lt hu)) hX) ?_
    generalize ((2 ^ M : Nat) : Rat) = X at *
    generalize unit 0 = U at *
    apply Classical.byContradiction
    intro hn
    have h1 := Rat.mul_lt_mul_of_pos_right (show U < 2 * ((N : Rat) * U / X) by grind) hX
    have e3 : 2 * ((N : Rat) * U / X) * X = 2 * (N : Rat) * U := by grind
    rw [e3] at h1
    have h2 := Rat.mul_le_mul_of_nonneg_right hNX (Rat.le_of_lt hu)
    grind
  have e3 : (Val.fin ((N : Rat) * unit 0)).div (.fin ((2 ^ M : Nat) : Rat)) = .fin 0 := by
    rw [Val.div_fin (by grind)]
    unfold Val.ofRat
    rw [hy]
    have hbig : (0 : Rat) < huge := by unfold huge; decide +kernel
    generalize huge = H at *
    rw [if_neg (by grind), if_neg (by grind)]
  obtain ⟨q, hq⟩ := Val.ofNat_fin hj
  have e4 : Val.ofRat 0 = .fin 0 := ofRat_units 0 0 (by decide) (by omega) (by push_cast; grind)
  rw [e2, e3, hq, Val.mul_fin, show q * 0 = 0 by grind, e4, Val.add_fin, show a + 0 = a by grind, ha.eq]
  exact hx

end

namespace Stretched
variable {m : Mapping} {G : Stretched}

/-- If the search stops at some offset then the coordinate is located. -/
theorem toD_locate_stop (h : m.OK) (hG : G.Ok m) {d : Fin 3} {x : Rat} {i : Nat} (hi : i < m.len d)
    (h1 : G.coord d i < x) (h2 : x ≤ G.coord d (i + 1)) {s : Val} (hs : ((Val.fin (G.coord d (i + 1))).sub (.fin (G.coord d i))).div
        (.fin ((2 ^ m.cfg.maxLvl : Nat) : Rat)) = s) {j : Nat} (hj : j < W)
    (h4 : ¬ ((Val.fin (G.coord d i)).add ((Val.ofNat j).mul s)).lt (.fin x)) : ∃ r, r ≤ j ∧
    (∀ r', r' < r → ((Val.fin (G.coord d i)).add ((Val.ofNat r').mul s)).lt (.fin x)) ∧
    ¬ ((Val.fin (G.coord d i)).add ((Val.ofNat r).mul s)).lt (.fin x) ∧
    G.toD.locate m d (.fin x) = .ok (wadd (i * 2 ^ m.cfg.maxLvl) (wsub r 1)) := by
  rcases skipOffsetsD_spec (a := .fin (G.coord d i)) (h := s) (x := .fin x) (j + 1) 0 with ⟨-, e2⟩ | ⟨r, e1, -, e3, e4⟩
  · have := e2 j (by omega)
    rw [Nat.zero_add] at this
    exact absurd this h4
  · simp only [Nat.zero_add] at e3 e4
    exact ⟨r, by omega, e3, e4, toD_locate_at h hG hi h1 h2 hs (by omega) e3 e4⟩

end Stretched
end Dccrg
