import Verif.GeomDoubleGrid
/-!
# `No_Geometry` computes what the default `Cartesian_Geometry` computes, with `double`
-/
namespace Dccrg

/-- Values that a `double` can have. -/
def Val.IsDouble : Val → Prop
  | .fin q => Has53 q ∧ mag q < huge
  | _ => True

/-- Every value of 64 bits is a number of type `double`. -/
theorem Bits.val_double (b : Nat) : (Bits.val b).IsDouble := by
  unfold Bits.val
  simp only []
  generalize hs : b / 2 ^ 63 % 2 = s
  have he : b / 2 ^ 52 % 2 ^ 11 < 2 ^ 11 := Nat.mod_lt _ (by decide)
  have hf : b % 2 ^ 52 < 2 ^ 52 := Nat.mod_lt _ (by decide)
  generalize b / 2 ^ 52 % 2 ^ 11 = e at *
  generalize b % 2 ^ 52 = f at *
  have sgn : ∀ (n k : Nat) (q : Rat), n < 2 ^ 53 → k ≤ 2045 →
      q = (if s = 1 then (-1 : Rat) else 1) * (n : Rat) * unit k → (Val.fin q).IsDouble := by
    intro n k q hn hk hq
    have e1 : (if s = 1 then (-1 : Rat) else 1) * (n : Rat) = (((if s = 1 then -1 else 1) * (n : Int) : Int) : Rat) := by
      split <;> push_cast <;> rfl
    have ha : (((if s = 1 then -1 else 1) * (n : Int) : Int)).natAbs = n := by split <;> omega
    rw [e1] at hq
    generalize (if s = 1 then (-1 : Int) else 1) * (n : Int) = z at *
    rw [hq]
    refine ⟨has53_units (by omega), ?_⟩
    have hp := unit_pos k
    rw [mag_mul hp, mag_int, ha]
    have h1 := Rat.mul_lt_mul_of_pos_right (Rat.natCast_lt_natCast.2 hn) hp
    have h2 : unit k ≤ unit 2045 := by
      rcases Nat.lt_or_ge k 2045 with h | h
      · exact Rat.le_of_lt (unit_lt h)
      · rw [show k = 2045 by omega]; grind
    have h3 := Rat.mul_le_mul_of_nonneg_left h2 (Rat.le_of_lt (pow_pos' 53))
    have h4 : ((2 ^ 53 : Nat) : Rat) * unit 2045 = huge := by unfold unit huge; decide +kernel
    generalize huge = H at *
    generalize unit 2045 = U at *
    generalize unit k = U' at *
    generalize ((2 ^ 53 : Nat) : Rat) = P at *
    grind
  split
  · split <;> exact True.intro
  · split
    · refine sgn f 0 _ (by omega) (by omega) ?_
      unfold unit
      generalize (2 : Rat) ^ 1074 = P
      rw [show ((2 ^ 0 : Nat) : Rat) = 1 by rfl]
      grind
    · refine sgn (2 ^ 52 + f) (e - 1) _ (by omega) (by omega) ?_
      obtain ⟨j, rfl⟩ : ∃ j, e = j + 1 := ⟨e - 1, by omega⟩
      have e2 : (2 : Rat) ^ 1075 = 2 * 2 ^ 1074 := by decide +kernel
      have e3 : (2 : Rat) ^ (j + 1) = 2 * ((2 ^ j : Nat) : Rat) := by
        rw [Rat.natCast_pow, Rat.pow_succ]
        have : ((2 : Nat) : Rat) = 2 := rfl
        grind
      have e4 : (0 : Rat) < 2 ^ 1074 := by decide +kernel
      unfold unit
      rw [e2, e3, show j + 1 - 1 = j by omega]
      generalize (2 : Rat) ^ 1074 = P at *
      generalize (2 ^ 52 + f : Nat) = N at *
      generalize ((2 ^ j : Nat) : Rat) = Q at *
      generalize (if s = 1 then (-1 : Rat) else 1) * (N : Rat) = A at *
      grind

theorem Val.ofRat_double (x : Rat) : (Val.ofRat x).IsDouble := by
  by_cases h1 : huge ≤ rnd x
  · have e : Val.ofRat x = .inf false := if_pos h1
    rw [e]
    exact True.intro
  · by_cases h2 : rnd x ≤ -huge
    · have e : Val.ofRat x = .inf true := (if_neg h1).trans (if_pos h2)
      rw [e]
      exact True.intro
    · have e : Val.ofRat x = .fin (rnd x) := (if_neg h1).trans (if_neg h2)
      rw [e]
      refine ⟨rnd_has53 x, ?_⟩
      unfold mag
      generalize huge = H at *
      split <;> grind

theorem Val.ofNat_double (n : Nat) : (Val.ofNat n).IsDouble := Val.ofRat_double _

theorem Val.IsDouble.eq {q : Rat} (h : (Val.fin q).IsDouble) : Val.ofRat q = .fin q := Val.ofRat_exact h.1 h.2

theorem Val.add_double (a b : Val) : (a.add b).IsDouble := by
  unfold Val.add
  split
  · exact True.intro
  · exact True.intro
  · split <;> exact True.intro
  · exact True.intro
  · exact True.intro
  · exact Val.ofRat_double _

theorem Val.mul_double (a b : Val) : (a.mul b).IsDouble := by
  unfold Val.mul
  split
  · exact True.intro
  · exact True.intro
  · exact True.intro
  · split <;> exact True.intro
  · split <;> exact True.intro
  · exact Val.ofRat_double _

theorem Val.div_double (a b : Val) : (a.div b).IsDouble := by
  unfold Val.div
  split
  · exact True.intro
  · exact True.intro
  · exact True.intro
  · exact True.intro
  · exact ⟨⟨0, 0, by decide, by grind⟩, by unfold mag huge; decide +kernel⟩
  · split
    · split <;> exact True.intro
    · exact Val.ofRat_double _

theorem Val.neg_double {a : Val} (h : a.IsDouble) : a.neg.IsDouble := by
  cases a with
  | nan => exact True.intro
  | inf s => exact True.intro
  | fin q => exact ⟨h.1.neg, by rw [mag_neg]; exact h.2⟩

theorem Val.zero_add' {a : Val} (h : a.IsDouble) : (Val.fin 0).add a = a := by
  cases a with
  | nan => rfl
  | inf s => rfl
  | fin q => rw [Val.add_fin, show 0 + q = q by grind, h.eq]

theorem Val.sub_zero' {a : Val} (h : a.IsDouble) : a.sub (.fin 0) = a := by
  cases a with
  | nan => rfl
  | inf s => rfl
  | fin q => rw [Val.sub_fin, show q - 0 = q by grind, h.eq]

theorem Val.zero_sub' {a : Val} (h : a.IsDouble) : (Val.fin 0).sub a = a.neg := Val.zero_add' (Val.neg_double h)

theorem Val.mul_one' {a : Val} (h : a.IsDouble) : a.mul (.fin 1) = a := by
  cases a with
  | nan => rfl
  | inf s => cases s <;> rfl
  | fin q => rw [Val.mul_fin, show q * 1 = q by grind, h.eq]

theorem Val.one_mul' {a : Val} (h : a.IsDouble) : (Val.fin 1).mul a = a := by
  cases a with
  | nan => rfl
  | inf s => cases s <;> rfl
  | fin q => rw [Val.mul_fin, show 1 * q = q by grind, h.eq]

/-- Dividing by the inverse of a power of two is multiplying with the power. -/
theorem Val.div_inv {a : Val} {t : Rat} (ht : 0 < t) : a.div (.fin (1 / t)) = a.mul (.fin t) := by
  have hi : 0 < 1 / t := by
    rw [Rat.lt_div_iff ht]; grind
  cases a with
  | nan => rfl
  | inf s =>
    show Val.inf _ = if t = 0 then _ else Val.inf _
    rw [if_neg (by grind)]
    congr 1
    rw [decide_eq_false (by grind : ¬ 1 / t < 0), decide_eq_false (by grind : ¬ t < 0)]
  | fin q =>
    rw [Val.div_fin (by grind), Val.mul_fin]
    congr 1
    grind

theorem realCoordD_double {per : Bool} {a b x : Val} (hx : x.IsDouble) : (realCoordD per a b x).IsDouble := by
  unfold realCoordD
  simp only []
  split
  · exact hx
  · split
    · split
      · exact Val.add_double _ _
      · exact Val.add_double _ _
    · exact True.intro

namespace NoGeometryD
variable {m : Mapping} {per : V3 Bool}

theorem getStart_eq : getStart = CartesianD.init.getStart := (v3_of (CartesianD.init.start)).symm

theorem getEnd_eq (m : Mapping) : getEnd m = CartesianD.init.getEnd m := by
  unfold getEnd CartesianD.getEnd
  rw [← getStart_eq]
  have e : ∀ n, (Val.fin 0).add ((Val.ofNat n).mul (.fin 1)) = Val.ofNat n := by
    intro n
    rw [Val.zero_add' (Val.mul_double _ _), Val.mul_one' (Val.ofNat_double _)]
  show _ = v3 ((Val.fin 0).add ((Val.ofNat _).mul (.fin 1))) ((Val.fin 0).add ((Val.ofNat _).mul (.fin 1)))
    ((Val.fin 0).add ((Val.ofNat _).mul (.fin 1)))
  rw [e, e, e]

theorem getLength_eq (m : Mapping) (c : Nat) : getLength m c = CartesianD.init.getLength m c := by
  unfold getLength CartesianD.getLength
  simp only []
  split
  · rfl
  · refine Eq.trans ?_ (v3_of fun _ => (Val.fin 1).mul ((Val.fin 1).div (scaleD (m.getLevel c)))).symm
    funext d
    rw [Val.one_mul' (Val.div_double _ _)]

theorem getCenter_eq (m : Mapping) (c : Nat) : getCenter m c = CartesianD.init.getCenter m c := by
  unfold getCenter CartesianD.getCenter
  simp only []
  split
  · rfl
  · rw [getLength_eq, ← getStart_eq]
    have e : ∀ n, (Val.fin 0).add (((Val.ofNat n).mul (.fin 1)).div (scaleD m.maxLvl)) = (Val.ofNat n).div (scaleD m.maxLvl) := by
      intro n
      rw [Val.zero_add' (Val.div_double _ _), Val.mul_one' (Val.ofNat_double _)]
    simp only [CartesianD.init, getStart, e]

theorem getMin_eq (m : Mapping) (c : Nat) : getMin m c = CartesianD.init.getMin m c := by
  unfold getMin CartesianD.getMin
  rw [getCenter_eq, getLength_eq]

theorem getMax_eq (m : Mapping) (c : Nat) : getMax m c = CartesianD.init.getMax m c := by
  unfold getMax CartesianD.getMax
  rw [getCenter_eq, getLength_eq]

theorem getCenterAt_eq (m : Mapping) (l : Int) (p : V3 Nat) :
    getCenterAt m l p = CartesianD.init.getCenterAt m l p := by
  unfold getCenterAt CartesianD.getCenterAt
  split
  · rfl
  · split
    · rfl
    · rw [← getStart_eq]
      have e : ∀ n f, (Val.fin 0).add (((Val.ofNat n).mul (.fin 1)).mul f) = (Val.ofNat n).mul f := by
        intro n f
        rw [Val.zero_add' (Val.mul_double _ _), Val.mul_one' (Val.ofNat_double _)]
      have e' : ∀ a b, (Val.fin 1).mul (Val.div a b) = Val.div a b := fun a b => Val.one_mul' (Val.div_double _ _)
      simp only [CartesianD.init, getStart, e, e']

theorem realCoord0_eq {per : Bool} {b x : Val} (hb : b.IsDouble) (hx : x.IsDouble) :
    realCoord0 per b x = realCoordD per (.fin 0) b x := by
  unfold realCoord0 realCoordD
  simp only [Val.sub_zero' hb, Val.zero_sub' hx]

theorem getEnd_double (m : Mapping) (d : Fin 3) : (getEnd m d).IsDouble := by
  have : getEnd m d = .ofNat (m.len d) := v3_at (fun d => Val.ofNat (m.len d)) d
  rw [this]
  exact Val.ofRat_double _

theorem getRealCoordinate_eq {x : V3 Val} (hx : ∀ d, (x d).IsDouble) :
    getRealCoordinate m per x = CartesianD.init.getRealCoordinate m per x := by
  funext d
  unfold getRealCoordinate CartesianD.getRealCoordinate
  rw [← getStart_eq, ← getEnd_eq]
  exact realCoord0_eq (getEnd_double m d) (hx d)

theorem locate_eq (h : m.OK) {d : Fin 3} {y : Val} (hy : y.IsDouble) : locate m d y = CartesianD.init.locate m d y := by
  unfold locate CartesianD.locate
  have h2 := Cartesian.max_le h
  rw [← getStart_eq, ← getEnd_eq, scaleD_eq h2]
  show _ = if (Val.fin 0).le y ∧ y.le (getEnd m d) then
    ((y.sub (.fin 0)).div ((Val.fin 1).div (.fin _))).floor.toU64 else _
  rw [Val.sub_zero' hy, div_scale_one (by omega), Val.div_inv (pow_pos' _)]

theorem getIndices_eq (h : m.OK) {x : V3 Val} (hx : ∀ d, (x d).IsDouble) :
    getIndices m per x = CartesianD.init.getIndices m per x := by
  unfold getIndices CartesianD.getIndices
  have e : ∀ d, (CartesianD.init.getRealCoordinate m per x d).IsDouble := fun d => realCoordD_double (hx d)
  rw [getRealCoordinate_eq hx, locate_eq h (e 0), locate_eq h (e 1), locate_eq h (e 2)]

theorem getCell_eq (h : m.OK) {x : V3 Val} (hx : ∀ d, (x d).IsDouble) (l : Int) :
    getCell m per l x = CartesianD.init.getCell m per l x := by
  unfold getCell CartesianD.getCell
  rw [getIndices_eq h hx]

end NoGeometryD
end Dccrg
