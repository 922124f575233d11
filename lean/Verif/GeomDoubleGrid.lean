import Verif.GeomDoubleExact
import Verif.Props.CenterAt
import Verif.Props.Locate
/-!
# `Cartesian_Geometry` on grids on which `double` is exact
-/
namespace Dccrg
open Cfg

/-- The `double` of an exact result. -/
def Num.val : Num → Val
  | none => .nan
  | some x => .fin x

/-- A geometry with exact parameters as a geometry with `double` parameters. -/
def Cartesian.toD (G : Cartesian) : CartesianD := { start := fun d => .fin (G.start d), len := fun d => .fin (G.len d) }

theorem choose3 {α : Type} {P : Fin 3 → α → Prop} (h : ∀ d, ∃ a, P d a) : ∃ f : V3 α, ∀ d, P d (f d) :=
  ⟨fun d => Classical.choose (h d), fun d => Classical.choose_spec (h d)⟩

theorem v3_at {α : Type} (f : Fin 3 → α) (d : Fin 3) : v3 (f 0) (f 1) (f 2) d = f d := congrFun (v3_of f) d

section
variable {m : Mapping} {G : Cartesian} {per : V3 Bool} {u : V3 Nat} {A : V3 Int} {B : V3 Nat}

namespace Cartesian

/-- All dimensions are exact. -/
def BinGrid (G : Cartesian) (m : Mapping) (u : V3 Nat) (A : V3 Int) (B : V3 Nat) : Prop :=
  ∀ d, BinDim m.maxLvl.toNat (m.len d) (G.start d) (G.len d) (u d) (A d) (B d)

theorem max_le (h : m.OK) : m.maxLvl ≤ 21 := by
  have := Mapping.shift_counts h
  omega

theorem toD_start : G.toD.getStart = fun d => .fin (G.start d) := v3_of _

theorem toD_end (hG : G.BinGrid m u A B) (d : Fin 3) : G.toD.getEnd m d = .fin (G.getEnd m d) := by
  unfold CartesianD.getEnd
  rw [toD_start]
  refine (v3_at (fun d => (Val.fin (G.start d)).add ((Val.ofNat (m.len d)).mul (.fin (G.len d)))) d).trans ?_
  rw [getEnd_eq]
  exact (hG d).end_eq

theorem toD_length (h : m.OK) (hG : G.BinGrid m u A B) (c : Nat) (d : Fin 3) :
    G.toD.getLength m c d = (G.getLength m c d).val := by
  rw [getLength_eq h]
  unfold CartesianD.getLength
  simp only []
  by_cases hv : m.cfg.Valid c
  · have hm := Mapping.cfg_max h
    have h1 := lvl_le hv
    have h2 := max_le h
    rw [if_neg (by rw [invalid_iff h]; exact fun h => h hv), if_pos hv, Mapping.getLevel_eq h, if_pos hv,
      scaleD_eq (by omega), Int.toNat_natCast, div_scale_one (by omega)]
    refine (v3_at (fun d => (Val.fin (G.len d)).mul (.fin (1 / ((2 ^ m.cfg.lvl c : Nat) : Rat)))) d).trans ?_
    exact (hG d).length (by omega)
  · rw [if_pos ((invalid_iff h c).2 hv), if_neg hv]; rfl

theorem idx_le_n (h : m.OK) {c : Nat} (hv : m.cfg.Valid c) (d : Fin 3) :
    m.cfg.idx c d ≤ m.len d * 2 ^ m.maxLvl.toNat := by
  have := end_le h.wf hv d
  have e : m.cfg.n d = m.len d * 2 ^ m.maxLvl.toNat := rfl
  omega

theorem toD_center (h : m.OK) (hG : G.BinGrid m u A B) (c : Nat) (d : Fin 3) :
    G.toD.getCenter m c d = (G.getCenter m c d).val := by
  rw [getCenter_eq h]
  unfold CartesianD.getCenter
  simp only []
  by_cases hv : m.cfg.Valid c
  · have hm := Mapping.cfg_max h
    have h1 := lvl_le hv
    have h2 := max_le h
    rw [if_neg (by rw [invalid_iff h]; exact fun h => h hv), if_pos hv, toD_start, Mapping.getIndices_eq h, if_pos hv,
      scaleD_eq h2]
    refine (v3_at (fun d => ((Val.fin (G.start d)).add (((Val.ofNat (m.cfg.idx c d)).mul (.fin (G.len d))).div
      (.fin ((2 ^ m.maxLvl.toNat : Nat) : Rat)))).add ((G.toD.getLength m c d).div (.fin 2))) d).trans ?_
    show Val.add (Val.add _ (Val.div (Val.mul _ _) _)) (Val.div (G.toD.getLength m c d) _) = _
    rw [toD_length h hG, getLength_eq h, if_pos hv]
    have hp := idx_le_n h hv d
    rw [(hG d).idx_mul hp, (hG d).idx_div hp, (hG d).at_idx hp]
    show Val.add _ (Val.div (.fin _) _) = _
    rw [(hG d).half (by omega), (hG d).center hp (by omega)]
    rfl
  · rw [if_pos ((invalid_iff h c).2 hv), if_neg hv]; rfl

theorem toD_min_max (h : m.OK) (hG : G.BinGrid m u A B) (c : Nat) (d : Fin 3) :
    G.toD.getMin m c d = (G.getMin m c d).val ∧ G.toD.getMax m c d = (G.getMax m c d).val := by
  unfold CartesianD.getMin CartesianD.getMax getMin getMax
  rw [toD_center h hG, toD_length h hG, getCenter_eq h, getLength_eq h]
  by_cases hv : m.cfg.Valid c
  · have hm := Mapping.cfg_max h
    have h1 := lvl_le hv
    rw [if_pos hv, if_pos hv]
    show Val.sub (.fin _) (Val.div (.fin _) _) = .fin _ ∧ Val.add (.fin _) (Val.div (.fin _) _) = .fin _
    rw [(hG d).half (by omega)]
    have := (hG d).center_half (idx_le_n h hv d) (show m.cfg.lvl c ≤ m.maxLvl.toNat by omega)
    exact ⟨this.2, this.1⟩
  · rw [if_neg hv, if_neg hv]; exact ⟨rfl, rfl⟩

theorem half_scale {j : Nat} (hj : j ≤ 21) :
    (Val.fin (1 / ((2 ^ j : Nat) : Rat))).div (.fin 2) = .fin (1 / ((2 ^ (j + 1) : Nat) : Rat)) := by
  have hp := pow_pos' j
  have hp' := pow_pos' (j + 1)
  have e : 1 / ((2 ^ j : Nat) : Rat) / 2 = 1 / ((2 ^ (j + 1) : Nat) : Rat) := by
    rw [Nat.pow_succ, Rat.natCast_mul]
    have : ((2 : Nat) : Rat) = 2 := rfl
    grind
  rw [Val.div_fin (by decide), e]
  refine ofRat_units 1 (1074 - (j + 1)) (by decide) (by omega) ?_
  rw [unit_sub (by omega), unit_one]
  push_cast
  grind

theorem toD_centerAt (h : m.OK) (hG : G.BinGrid m u A B) (l : Int) (p : V3 Nat) (d : Fin 3) :
    G.toD.getCenterAt m l p d = (G.getCenterAt m l p d).val := by
  by_cases hl : 0 ≤ l ∧ l ≤ m.maxLvl
  · by_cases hp : ∀ d, p d ≤ m.cfg.n d
    · rw [getCenterAt_some h hl hp]
      unfold CartesianD.getCenterAt
      have h2 := max_le h
      rw [if_neg (by omega), if_neg (by
        simp only [Mapping.nIdx_eq h]
        have h0 := hp 0
        have h1 := hp 1
        have h2 := hp 2
        omega), toD_start]
      simp only []
      rw [scaleD_eq h2, scaleD_eq (by omega), div_scale_one (by omega), div_scale_one (by omega), half_scale (by omega)]
      refine (v3_at (fun d => ((Val.fin (G.start d)).add (((Val.ofNat (p d)).mul (.fin (G.len d))).mul
        (.fin (1 / ((2 ^ m.maxLvl.toNat : Nat) : Rat))))).add ((Val.fin (G.len d)).mul
        (.fin (1 / ((2 ^ (l.toNat + 1) : Nat) : Rat))))) d).trans ?_
      have hp' : p d ≤ m.len d * 2 ^ m.maxLvl.toNat := hp d
      have hj : l.toNat ≤ m.maxLvl.toNat := by omega
      have e := (hG d).half hj
      rw [Val.div_fin (by decide)] at e
      rw [(hG d).idx_mul hp', (hG d).idx_mul_div hp', (hG d).at_idx hp', Val.mul_fin,
        show G.len d * (1 / ((2 ^ (l.toNat + 1) : Nat) : Rat)) = G.len d / ((2 ^ l.toNat : Nat) : Rat) / 2 by
          rw [(hG d).half_eq]; grind, e, (hG d).center hp' hj]
      rfl
    · unfold CartesianD.getCenterAt getCenterAt
      have hx : p 0 > m.nIdx 0 ∨ p 1 > m.nIdx 1 ∨ p 2 > m.nIdx 2 := by
        simp only [Mapping.nIdx_eq h]
        rw [forall_fin3] at hp
        omega
      have hl' : ¬ (l < 0 ∨ l > m.maxLvl) := by omega
      rw [if_neg hl', if_neg hl', if_pos hx, if_pos hx]
      rfl
  · unfold CartesianD.getCenterAt getCenterAt
    rw [if_pos (by omega), if_pos (by omega)]
    rfl

theorem toD_real (hG : G.BinGrid m u A B) {x : V3 Rat} {z : V3 Int} (hz : ∀ d, (z d).natAbs ≤ 2 ^ 51)
    (hx : ∀ d, x d = (z d : Rat) * unit (u d)) (d : Fin 3) :
    G.toD.getRealCoordinate m per (fun d => .fin (x d)) d = (G.getRealCoordinate m per (nums x) d).val := by
  unfold CartesianD.getRealCoordinate getRealCoordinate nums
  rw [toD_end hG, toD_start]
  show realCoordD _ (.fin (G.start d)) _ (.fin (x d)) = _
  rw [hx, getEnd_eq, getStart_eq, (hG d).real (hz d)]
  cases realCoord (per d) (G.start d) (G.start d + (m.len d : Rat) * G.len d) (some ((z d : Rat) * unit (u d))) <;> rfl

/-- Real coordinates are multiples of the unit. -/
theorem real_units (h : m.OK) (hG : G.BinGrid m u A B) {x : V3 Rat} {z : V3 Int}
    (hx : ∀ d, x d = (z d : Rat) * unit (u d)) (d : Fin 3) {y : Rat}
    (hy : G.getRealCoordinate m per (nums x) d = some y) :
    ∃ w : Int, w.natAbs ≤ 2 ^ 51 ∧ y = (w : Rat) * unit (u d) ∧ G.start d ≤ y ∧ y ≤ G.getEnd m d := by
  have hlt := start_lt_end h (fun d => (hG d).len_pos) d
  have hr := realCoord_isReal (per := per d) hlt (x d)
  unfold getRealCoordinate nums at hy
  rw [hy] at hr
  rw [getStart_eq] at hr hlt hy
  obtain ⟨r1, r2, r3⟩ := hr
  have hd := hG d
  have hu := unit_pos (u d)
  have key : ∃ w : Int, y = (w : Rat) * unit (u d) ∧ G.start d ≤ y ∧ y ≤ G.getEnd m d := by
    by_cases hin : G.start d ≤ x d ∧ x d ≤ G.getEnd m d
    · have := r1 hin
      injection this with this
      rw [this]
      exact ⟨z d, hx d, hin⟩
    · cases hp : per d with
      | false => 
        have := r3 hp (by grind)
        exact nomatch this
      | true =>
        obtain ⟨r, k, e1, e2, e3, e4⟩ := r2 hp
        injection e1 with e1
        subst e1
        refine ⟨z d + k * ((m.len d * B d * 2 ^ (m.maxLvl.toNat + 1) : Nat) : Int), ?_, e2, e3⟩
        rw [e4, getEnd_eq, hd.end_units, Rat.intCast_add, Rat.intCast_add, Rat.intCast_mul, hx, hd.start, natCast_int]
        grind
  obtain ⟨w, e, e1, e2⟩ := key
  refine ⟨w, ?_, e, e1, e2⟩
  rw [e, hd.start] at e1
  rw [e, getEnd_eq, hd.end_units] at e2
  have hf := hd.fits
  generalize m.len d * B d * 2 ^ (m.maxLvl.toNat + 1) = N at *
  have c1 : A d ≤ w := by
    apply Classical.byContradiction
    intro hn
    have := Rat.mul_lt_mul_of_pos_right (Rat.intCast_lt_intCast.2 (show w < A d by omega)) hu
    grind
  have c2 : w ≤ A d + N := by
    apply Classical.byContradiction
    intro hn
    have := Rat.mul_lt_mul_of_pos_right (Rat.intCast_lt_intCast.2 (show A d + (N : Int) < w by omega)) hu
    grind
  omega

theorem toD_locate (h : m.OK) (hG : G.BinGrid m u A B) {x : V3 Rat} {z : V3 Int} (hz : ∀ d, (z d).natAbs ≤ 2 ^ 51)
    (hx : ∀ d, x d = (z d : Rat) * unit (u d)) (d : Fin 3) :
    G.toD.locate m d (G.toD.getRealCoordinate m per (fun d => .fin (x d)) d) = some (G.getIndices m per (nums x) d) := by
  rw [toD_real hG hz hx]
  unfold getIndices
  have hr := fun y => real_units (per := per) (y := y) h hG hx d
  cases hy : G.getRealCoordinate m per (nums x) d with
  | none =>
    unfold CartesianD.locate
    rw [toD_start, toD_end hG]
    exact if_neg (fun h => h.1)
  | some y =>
    obtain ⟨w, w1, w2, w3, w4⟩ := hr y hy
    unfold CartesianD.locate
    rw [toD_start, toD_end hG, scaleD_eq (max_le h)]
    simp only []
    have e : (Val.fin (G.start d)).le (Num.val (some y)) ∧ (Num.val (some y)).le (.fin (G.getEnd m d)) := ⟨w3, w4⟩
    rw [if_pos e, getStart_eq, if_pos ⟨w3, w4⟩, scale_max h]
    have := (hG d).located w1 (by rw [← w2]; exact w3)
    rw [← w2] at this
    exact this

theorem toD_indices (h : m.OK) (hG : G.BinGrid m u A B) {x : V3 Rat} {z : V3 Int} (hz : ∀ d, (z d).natAbs ≤ 2 ^ 51)
    (hx : ∀ d, x d = (z d : Rat) * unit (u d)) :
    G.toD.getIndices m per (fun d => .fin (x d)) = some (G.getIndices m per (nums x)) := by
  unfold CartesianD.getIndices
  rw [toD_locate h hG hz hx, toD_locate h hG hz hx, toD_locate h hG hz hx]
  show some (v3 _ _ _) = _
  rw [v3_of]

theorem toD_cell (h : m.OK) (hG : G.BinGrid m u A B) {x : V3 Rat} {z : V3 Int} (hz : ∀ d, (z d).natAbs ≤ 2 ^ 51)
    (hx : ∀ d, x d = (z d : Rat) * unit (u d)) (l : Int) :
    G.toD.getCell m per l (fun d => .fin (x d)) = some (G.getCell m per l (nums x)) := by
  unfold CartesianD.getCell getCell
  split
  · rfl
  · rw [toD_indices h hG hz hx]; rfl

/-- Centers of cells are multiples of the unit. -/
theorem center_units (h : m.OK) (hG : G.BinGrid m u A B) {c : Nat} (hv : m.cfg.Valid c) (d : Fin 3) :
    ∃ z : Int, z.natAbs ≤ 2 ^ 51 ∧ G.getCenter m c d = some ((z : Rat) * unit (u d)) := by
  have hm := Mapping.cfg_max h
  have h1 := lvl_le hv
  obtain ⟨z, -, hz⟩ := (hG d).center_units (idx_le_n h hv d) (show m.cfg.lvl c ≤ m.maxLvl.toNat by omega)
  have hb := (C44_cartesian_consistent h (fun d => (hG d).len_pos)).box c ((Mapping.validId_iff h).2 hv) d
  obtain ⟨lo, hi, -, -, b1, b2, b3, -, b4⟩ := hb
  have b4' : G.getCenter m c d = some ((lo + hi) / 2) := b4
  have hc := getCenter_eq h G c d
  rw [if_pos hv] at hc
  have e : G.pos m d (m.cfg.idx c d) + G.len d / ((2 ^ m.cfg.lvl c : Nat) : Rat) / 2 = (z : Rat) * unit (u d) := hz
  rw [e] at hc
  refine ⟨z, ?_, hc⟩
  rw [hc] at b4'
  injection b4' with b4'
  have b1' : G.getStart d ≤ lo := b1
  have b3' : hi ≤ G.getEnd m d := b3
  rw [getStart_eq, (hG d).start] at b1'
  rw [getEnd_eq, (hG d).end_units] at b3'
  have hf := (hG d).fits
  have hu := unit_pos (u d)
  generalize m.len d * B d * 2 ^ (m.maxLvl.toNat + 1) = N at *
  have c1 : A d ≤ z := by
    apply Classical.byContradiction
    intro hn
    have := Rat.mul_lt_mul_of_pos_right (Rat.intCast_lt_intCast.2 (show z < A d by omega)) hu
    grind
  have c2 : z ≤ A d + N := by
    apply Classical.byContradiction
    intro hn
    have := Rat.mul_lt_mul_of_pos_right (Rat.intCast_lt_intCast.2 (show A d + (N : Int) < z by omega)) hu
    grind
  omega

end Cartesian
end
end Dccrg
