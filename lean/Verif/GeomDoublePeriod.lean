import Verif.GeomDoubleError
/-!
# Coordinates of periodic grids, with `double`
-/
namespace Dccrg

theorem ofRat_bound' {x : Rat} (h : mag x ≤ 2 ^ 1010) : Val.ofRat x = .fin (rnd x) := by
  have h1 : Has53 ((2 : Rat) ^ 1010) := ⟨1, 2084, by decide, by decide +kernel⟩
  obtain ⟨a, b⟩ := mag_le_iff.1 h
  have h2 := rnd_mono a
  have h3 := rnd_mono b
  rw [rnd_neg] at h3
  rw [rnd_exact h1] at h2 h3
  have h4 : (2 : Rat) ^ 1010 < huge := by unfold huge; decide +kernel
  unfold Val.ofRat
  generalize (2 : Rat) ^ 1010 = P at *
  generalize huge = H at *
  rw [if_neg (by grind), if_neg (by grind)]

theorem realCoordD_in {per : Bool} {a b x : Rat} (h1 : a ≤ x) (h2 : x ≤ b) :
    realCoordD per (.fin a) (.fin b) (.fin x) = .fin x := if_pos ⟨h1, h2⟩

theorem realCoordD_below {a b x : Rat} (h : x < a) : realCoordD true (.fin a) (.fin b) (.fin x) =
    (Val.fin x).add ((Val.ofRat (b - a)).mul ((Val.ofRat (a - x)).div (Val.ofRat (b - a))).ceil) := by
  rw [← Val.sub_fin, ← Val.sub_fin]
  exact (if_neg (show ¬ (a ≤ x ∧ x ≤ b) by grind)).trans ((if_pos rfl).trans (if_pos h))

theorem realCoordD_above {a b x : Rat} (hab : a ≤ b) (h : b < x) : realCoordD true (.fin a) (.fin b) (.fin x) =
    (Val.fin x).sub ((Val.ofRat (b - a)).mul ((Val.ofRat (x - b)).div (Val.ofRat (b - a))).ceil) := by
  rw [← Val.sub_fin, ← Val.sub_fin]
  exact (if_neg (show ¬ (a ≤ x ∧ x ≤ b) by grind)).trans ((if_pos rfl).trans (if_neg (show ¬ x < a by grind)))

namespace SafeDim
variable {M n : Nat} {a l : Rat} (h : SafeDim M n a l)
include h

/-- Number of periods of a distance, and their length. -/
theorem periods_close {d v delta : Rat} {k : Nat} (hk : 1 ≤ k) (hdelta : delta = eps * (mag a + (n : Rat) * l))
    (hv : mag (v - (n : Rat) * l) ≤ delta * (33 / 10)) (hfit : ((k : Rat) + 1) * delta * 16 ≤ (n : Rat) * l)
    (h1 : ((k : Rat) - 1) * ((n : Rat) * l) + ((k : Rat) + 1) * delta * 7 ≤ d)
    (h2 : d ≤ (k : Rat) * ((n : Rat) * l) - ((k : Rat) + 1) * delta * 7) (hbig : (k : Rat) * ((n : Rat) * l) ≤ 2 ^ 1002) :
    ((Val.fin d).div (.fin v)).ceil = .fin (k : Rat) ∧ ∃ w, (Val.fin v).mul (.fin (k : Rat)) = .fin w ∧
      mag (w - (k : Rat) * ((n : Rat) * l)) ≤ ((k : Rat) + 1) * delta * (45 / 10) := by
  have hB0 := h.scale_pos
  have hm := mag_nonneg a
  have hle := h.delta_le
  have htiny := h.tiny_le
  have hl := h.len_pos
  have hln := h.len_le
  have hs := h.small
  rw [← hdelta] at hle htiny
  have hkR : (1 : Rat) ≤ (k : Rat) := by exact_mod_cast hk
  have hd0 : 0 < delta := by rw [hdelta]; exact Rat.mul_pos eps_pos hB0
  have hLB : (n : Rat) * l ≤ mag a + (n : Rat) * l := by grind
  generalize hL : (n : Rat) * l = L at *
  generalize hB : mag a + L = B at *
  have e0 : ((k : Rat) + 1) * delta = (k : Rat) * delta + delta := by grind
  have e1 : ((k : Rat) - 1) * L = (k : Rat) * L - L := by grind
  rw [e0] at h1 h2 hfit ⊢
  rw [e1] at h1
  have hkd : delta ≤ (k : Rat) * delta := by
    have := Rat.mul_le_mul_of_nonneg_right hkR (Rat.le_of_lt hd0); grind
  have hkL : L ≤ (k : Rat) * L := by
    have := Rat.mul_le_mul_of_nonneg_right hkR (show 0 ≤ L by grind); grind
  obtain ⟨v1, v2⟩ := mag_le_iff.1 hv
  have hvpos : 0 < v := by grind
  have kv1 : (k : Rat) * v ≤ (k : Rat) * L + (k : Rat) * delta * (33 / 10) := by
    have := Rat.mul_le_mul_of_nonneg_left (show v ≤ L + delta * (33 / 10) by grind) (show (0 : Rat) ≤ (k : Rat) by grind)
    grind
  have kv2 : (k : Rat) * L - (k : Rat) * delta * (33 / 10) ≤ (k : Rat) * v := by
    have := Rat.mul_le_mul_of_nonneg_left (show L - delta * (33 / 10) ≤ v by grind) (show (0 : Rat) ≤ (k : Rat) by grind)
    grind
  -- the quotient
  have ed : d / v * v = d := by grind
  have key : ∀ x y : Rat, x * v ≤ y * v → x ≤ y := by
    intro x y hxy
    apply Classical.byContradiction
    intro hn
    have := Rat.mul_lt_mul_of_pos_right (show y < x by grind) hvpos
    grind
  have hdpos : 0 ≤ d := by grind
  have hq0 : 0 ≤ d / v := div_nonneg' hdpos hvpos
  have hq1 : d / v ≤ (k : Rat) := key _ _ (by rw [ed]; grind)
  have hk53 : k ≤ 2 ^ 53 := by
    have : (k : Rat) ≤ ((2 ^ 53 : Nat) : Rat) := by
      have e2 : ((2 ^ 53 : Nat) : Rat) * eps = 1 := by unfold eps; decide +kernel
      have e3 : (k : Rat) * delta = (k : Rat) * eps * B := by rw [hdelta]; grind
      have e4 : (k : Rat) * eps * B ≤ 1 * B := by rw [← e3]; grind
      have e5 : (k : Rat) * eps ≤ 1 := by
        apply Classical.byContradiction
        intro hn
        have := Rat.mul_lt_mul_of_pos_right (show 1 < (k : Rat) * eps by grind) hB0
        grind
      apply Classical.byContradiction
      intro hn
      have := Rat.mul_lt_mul_of_pos_right (show ((2 ^ 53 : Nat) : Rat) < (k : Rat) by generalize ((2 ^ 53 : Nat) : Rat) = P at *; grind) eps_pos
      rw [e2] at this
      grind
    exact Rat.natCast_le_natCast.1 this
  have hkP : (k : Rat) ≤ ((2 ^ 53 : Nat) : Rat) := Rat.natCast_le_natCast.2 hk53
  have hP : ((2 ^ 53 : Nat) : Rat) ≤ 2 ^ 1000 := by decide +kernel
  have eq : Val.ofRat (d / v) = .fin (rnd (d / v)) := ofRat_rnd hq0 (by
    generalize ((2 ^ 53 : Nat) : Rat) = P at *; generalize (2 : Rat) ^ 1000 = Q at *; grind)
  have hr1 := rnd_mono hq1
  rw [rnd_exact (has53_nat hk53)] at hr1
  have hn := rnd_near (d / v)
  rw [mag_of_nonneg hq0] at hn
  have hn' := (mag_le_iff.1 hn).2
  have hr2 : (k : Rat) < rnd (d / v) + 1 := by
    apply Classical.byContradiction
    intro hcon
    have h3 := Rat.mul_le_mul_of_nonneg_right (show d / v - (eps * (d / v) + tiny) ≤ (k : Rat) - 1 by grind) (Rat.le_of_lt hvpos)
    have e3 : (d / v - (eps * (d / v) + tiny)) * v = d - eps * d - tiny * v := by
      have : (d / v - (eps * (d / v) + tiny)) * v = d / v * v - eps * (d / v * v) - tiny * v := by grind
      rw [this, ed]
    rw [e3] at h3
    have h4 : eps * d ≤ (k : Rat) * delta := by
      have : eps * d ≤ eps * ((k : Rat) * B) := by
        refine Rat.mul_le_mul_of_nonneg_left ?_ (Rat.le_of_lt eps_pos)
        have := Rat.mul_le_mul_of_nonneg_left hLB (show (0 : Rat) ≤ (k : Rat) by grind)
        grind
      have e : eps * ((k : Rat) * B) = (k : Rat) * delta := by rw [hdelta]; grind
      rw [e] at this
      exact this
    have h5 : tiny * v ≤ delta / 10 := by
      have h6 : tiny ≤ eps / 100 := by unfold tiny eps; decide +kernel
      have h7 := Rat.mul_le_mul_of_nonneg_right h6 (Rat.le_of_lt hvpos)
      have h8 := Rat.mul_le_mul_of_nonneg_left (show v ≤ 2 * B by grind) (Rat.le_of_lt eps_pos)
      have e : eps * (2 * B) = 2 * delta := by rw [hdelta]; grind
      rw [e] at h8
      grind
    grind
  have hceil : (rnd (d / v)).ceil = (k : Int) := ceil_eq (by rw [natCast_int]; exact hr2) (by rw [natCast_int]; exact hr1)
  refine ⟨?_, ?_⟩
  · rw [Val.div_fin (by grind), eq]
    show Val.fin ((rnd (d / v)).ceil : Rat) = _
    rw [hceil, natCast_int]
  · have hp1002 : (2 : Rat) ^ 1010 = 256 * 2 ^ 1002 := by decide +kernel
    have hmag : mag (v * (k : Rat)) ≤ 2 ^ 1010 := by
      rw [mag_of_nonneg (Rat.mul_nonneg (Rat.le_of_lt hvpos) (by grind)), hp1002]
      generalize (2 : Rat) ^ 1002 = P at *
      grind
    rw [Val.mul_fin, ofRat_bound' hmag]
    refine ⟨_, rfl, ?_⟩
    have hcl := rnd_close (x := v * (k : Rat)) (B := (k : Rat) * B) (delta := (k : Rat) * delta) (by rw [hdelta]; grind) (by grind)
      (by
        have : 0 ≤ (k : Rat) * B := Rat.mul_nonneg (by grind) (Rat.le_of_lt hB0)
        have := Rat.mul_nonneg (Rat.le_of_lt hvpos) (show (0 : Rat) ≤ (k : Rat) by grind)
        grind) (by
        have h6 := Rat.mul_le_mul_of_nonneg_left hLB (show (0 : Rat) ≤ (k : Rat) by grind)
        have h7 := Rat.mul_le_mul_of_nonneg_left hle (show (0 : Rat) ≤ (k : Rat) by grind)
        grind)
    refine mag_le_iff.2 ?_
    constructor <;> grind

/-- Real coordinates of periodic images of coordinates that are not close to the start or end of the grid. -/
theorem real_close {b x y delta K : Rat} {k : Int} (hb : (Val.fin a).add ((Val.ofNat n).mul (.fin l)) = .fin b)
    (hx : mag x ≤ 2 ^ 1000) (hy : y = x + (k : Rat) * ((n : Rat) * l)) (hdelta : delta = eps * (mag a + (n : Rat) * l))
    (hK : K = mag (k : Rat) + 1) (h1 : a + K * delta * 10 ≤ y) (h2 : y ≤ a + (n : Rat) * l - K * delta * 10) :
    ∃ r, realCoordD true (.fin a) (.fin b) (.fin x) = .fin r ∧ mag (r - y) ≤ K * delta * 7 := by
  obtain ⟨b', hb', hab, hbc⟩ := h.end_close
  rw [hb] at hb'
  injection hb' with hb'
  subst hb'
  have hB0 := h.scale_pos
  have hm := mag_nonneg a
  have hle := h.delta_le
  have htiny := h.tiny_le
  have hl := h.len_pos
  have hln := h.len_le
  have hsb := h.start_bounds
  have hbig := h.scale_big
  have hper := fun d v k h1 h2 h3 h4 h5 h6 h7 => h.periods_close (d := d) (v := v) (delta := delta) (k := k) h1 h2 h3 h4 h5 h6 h7
  have hsum := fun x h1 h2 => h.sum_close (x := x) h1 h2
  rw [← hdelta] at hle htiny hbc hsum
  have hd0 : 0 < delta := by rw [hdelta]; exact Rat.mul_pos eps_pos hB0
  have hLB : (n : Rat) * l ≤ mag a + (n : Rat) * l := by grind
  generalize hL : (n : Rat) * l = L at *
  generalize hB : mag a + L = B at *
  obtain ⟨b1, b2⟩ := mag_le_iff.1 hbc
  obtain ⟨x1, x2⟩ := mag_le_iff.1 hx
  have hk0 := mag_nonneg (k : Rat)
  have hKd : delta ≤ K * delta := by
    have := Rat.mul_le_mul_of_nonneg_right (show 1 ≤ K by grind) (Rat.le_of_lt hd0); grind
  -- the length of the grid
  have hlen := hsum (b - a) (by grind) (by grind)
  have hlenv : mag (rnd (b - a) - L) ≤ delta * (33 / 10) := by
    refine mag_le_iff.2 ?_
    constructor <;> grind
  have e1010 : (2 : Rat) ^ 1010 = 1024 * 2 ^ 1000 := by decide +kernel
  have e1002 : (2 : Rat) ^ 1002 = 4 * 2 ^ 1000 := by decide +kernel
  rcases Int.lt_trichotomy k 0 with hk | hk | hk
  · -- above
    obtain ⟨j, rfl⟩ : ∃ j : Nat, k = -(j : Int) := ⟨k.natAbs, by omega⟩
    have hj : 1 ≤ j := by omega
    have hjR : (1 : Rat) ≤ (j : Rat) := by exact_mod_cast hj
    have ej : ((-(j : Int) : Int) : Rat) = -(j : Rat) := by rw [Rat.intCast_neg, natCast_int]
    rw [ej] at hy hK
    rw [mag_neg, mag_of_nonneg (by grind)] at hK
    subst hK
    have hjL : L ≤ (j : Rat) * L := by
      have := Rat.mul_le_mul_of_nonneg_right hjR (show 0 ≤ L by grind); grind
    have hjd : 2 * delta ≤ ((j : Rat) + 1) * delta :=
      Rat.mul_le_mul_of_nonneg_right (by grind) (Rat.le_of_lt hd0)
    have hxb : b < x := by grind
    rw [realCoordD_above hab hxb, hlen.1]
    have hdist : mag (x - b) ≤ 2 ^ 1010 := by
      rw [mag_of_nonneg (by grind), e1010]
      generalize (2 : Rat) ^ 1000 = P at *
      grind
    rw [ofRat_bound' hdist]
    have hKB : (j : Rat) * L ≤ (j : Rat) * B := Rat.mul_le_mul_of_nonneg_left hLB (by grind)
    have hcl := rnd_close (x := x - b) (B := ((j : Rat) + 1) * B) (delta := ((j : Rat) + 1) * delta) (by rw [hdelta]; grind) (by grind)
      (by
        have : 0 ≤ ((j : Rat) + 1) * B := Rat.mul_nonneg (by grind) (Rat.le_of_lt hB0)
        grind) (by
        have : ((j : Rat) + 1) * B = (j : Rat) * B + B := by grind
        grind)
    obtain ⟨c1, w, c2, c3⟩ := hper (rnd (x - b)) (rnd (b - a)) j hj hdelta hlenv (by grind)
      (by
        have : ((j : Rat) - 1) * L = (j : Rat) * L - L := by grind
        grind) (by grind) (by
        rw [e1002]
        generalize (2 : Rat) ^ 1000 = P at *
        grind)
    rw [c1, c2, Val.sub_fin]
    obtain ⟨w1, w2⟩ := mag_le_iff.1 c3
    have hs := hsum (x - w) (by grind) (by grind)
    rw [hs.1]
    refine ⟨_, rfl, mag_le_iff.2 ?_⟩
    constructor <;> grind
  · subst hk
    have : ((0 : Int) : Rat) = 0 := rfl
    rw [realCoordD_in (by grind) (by grind)]
    refine ⟨x, rfl, mag_le_iff.2 ?_⟩
    constructor <;> grind
  · -- below
    obtain ⟨j, rfl⟩ : ∃ j : Nat, k = (j : Int) := ⟨k.natAbs, by omega⟩
    have hj : 1 ≤ j := by omega
    have hjR : (1 : Rat) ≤ (j : Rat) := by exact_mod_cast hj
    rw [natCast_int] at hy hK
    rw [mag_of_nonneg (by grind)] at hK
    subst hK
    have hjL : L ≤ (j : Rat) * L := by
      have := Rat.mul_le_mul_of_nonneg_right hjR (show 0 ≤ L by grind); grind
    have hxa : x < a := by grind
    rw [realCoordD_below hxa, hlen.1]
    have hdist : mag (a - x) ≤ 2 ^ 1010 := by
      rw [mag_of_nonneg (by grind), e1010]
      generalize (2 : Rat) ^ 1000 = P at *
      grind
    rw [ofRat_bound' hdist]
    have hKB : (j : Rat) * L ≤ (j : Rat) * B := Rat.mul_le_mul_of_nonneg_left hLB (by grind)
    have hcl := rnd_close (x := a - x) (B := ((j : Rat) + 1) * B) (delta := ((j : Rat) + 1) * delta) (by rw [hdelta]; grind) (by grind)
      (by
        have : 0 ≤ ((j : Rat) + 1) * B := Rat.mul_nonneg (by grind) (Rat.le_of_lt hB0)
        grind) (by
        have : ((j : Rat) + 1) * B = (j : Rat) * B + B := by grind
        grind)
    obtain ⟨c1, w, c2, c3⟩ := hper (rnd (a - x)) (rnd (b - a)) j hj hdelta hlenv (by grind)
      (by
        have : ((j : Rat) - 1) * L = (j : Rat) * L - L := by grind
        grind) (by grind) (by
        rw [e1002]
        generalize (2 : Rat) ^ 1000 = P at *
        grind)
    rw [c1, c2, Val.add_fin]
    obtain ⟨w1, w2⟩ := mag_le_iff.1 c3
    have hs := hsum (x + w) (by grind) (by grind)
    rw [hs.1]
    refine ⟨_, rfl, mag_le_iff.2 ?_⟩
    constructor <;> grind

end SafeDim
end Dccrg
