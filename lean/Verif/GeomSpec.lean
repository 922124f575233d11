import Verif.Axis
/-!
# Positions of cells in each geometry
-/
namespace Dccrg
open Cfg

theorem v3_of {α : Type} (f : V3 α) : v3 (f 0) (f 1) (f 2) = f := by
  funext d
  match d with
  | 0 => rfl
  | 1 => rfl
  | 2 => rfl

variable {m : Mapping}

theorem pow_cast_pos (k : Nat) : (0 : Rat) < ((2 ^ k : Nat) : Rat) := by
  have : 0 < 2 ^ k := Nat.pow_pos (by omega)
  exact_mod_cast this

theorem scale_eq (h : m.OK) {k : Int} (hk : k ≤ m.maxLvl) : scale k = ((2 ^ k.toNat : Nat) : Rat) := by
  unfold scale
  have e : m.cfg.maxLvl = m.maxLvl.toNat := rfl
  have := h.nonneg
  rw [Mapping.shl_eq h (by rw [e]; omega)]

theorem scale_max (h : m.OK) : scale m.maxLvl = ((2 ^ m.cfg.maxLvl : Nat) : Rat) := scale_eq h (Int.le_refl _)

/-- The test for invalid cells in geometry classes. -/
theorem invalid_iff (h : m.OK) (c : Nat) :
    (c = errorCell ∨ m.getLevel c < 0 ∨ m.getLevel c > m.maxLvl) ↔ ¬ m.cfg.Valid c := by
  rw [Mapping.getLevel_eq h]
  have e : m.cfg.maxLvl = m.maxLvl.toNat := rfl
  have h0 := h.nonneg
  by_cases hv : m.cfg.Valid c
  · have h1 := hv.1
    have h2 := lvl_le hv
    rw [if_pos hv]
    unfold errorCell
    constructor
    · intro h; omega
    · intro h; exact absurd hv h
  · rw [if_neg hv]
    constructor
    · intro _; exact hv
    · intro _; omega

theorem side_scale {g : Cfg} {c : Nat} (hv : g.Valid c) :
    ((2 ^ g.maxLvl : Nat) : Rat) = (g.side c : Rat) * ((2 ^ g.lvl c : Nat) : Rat) := by
  have : 2 ^ g.maxLvl = g.side c * 2 ^ g.lvl c := by
    unfold side
    rw [← Nat.pow_add]
    congr 1
    have := lvl_le hv
    omega
  rw [this]
  push_cast
  rfl

namespace Cartesian
variable {G : Cartesian}

/-- Position of an index. -/
def pos (G : Cartesian) (m : Mapping) (d : Fin 3) (a : Nat) : Rat :=
  G.start d + (a : Rat) * G.len d / ((2 ^ m.cfg.maxLvl : Nat) : Rat)

theorem getStart_eq (G : Cartesian) : G.getStart = G.start := v3_of _

theorem getEnd_eq (G : Cartesian) (m : Mapping) (d : Fin 3) :
    G.getEnd m d = G.start d + (m.len d : Rat) * G.len d := by
  unfold getEnd
  rw [getStart_eq]
  exact congrFun (v3_of fun d => G.start d + (m.len d : Rat) * G.len d) d

theorem pos_zero (d : Fin 3) : G.pos m d 0 = G.getStart d := by
  rw [getStart_eq]
  unfold pos
  grind

theorem pos_end (d : Fin 3) : G.pos m d (m.cfg.n d) = G.getEnd m d := by
  rw [getEnd_eq]
  unfold pos Cfg.n
  have := pow_cast_pos m.cfg.maxLvl
  have e : m.cfg.len d = m.len d := rfl
  rw [e]
  push_cast at this ⊢
  generalize (2 : Rat) ^ m.cfg.maxLvl = M at *
  grind

theorem getLength_eq (h : m.OK) (G : Cartesian) (c : Nat) (d : Fin 3) :
    G.getLength m c d = if m.cfg.Valid c then
      some (G.len d / ((2 ^ m.cfg.lvl c : Nat) : Rat)) else none := by
  unfold getLength
  simp only []
  by_cases hv : m.cfg.Valid c
  · have e : m.cfg.maxLvl = m.maxLvl.toNat := rfl
    have h0 := h.nonneg
    have h1 := lvl_le hv
    rw [if_neg (by rw [invalid_iff h]; exact fun h => h hv), if_pos hv, Mapping.getLevel_eq h, if_pos hv,
      scale_eq h (by omega)]
    refine (congrFun (v3_of fun d => some (G.len d * (1 / ((2 ^ m.cfg.lvl c : Nat) : Rat)))) d).trans ?_
    congr 1
    grind
  · rw [if_pos ((invalid_iff h c).2 hv), if_neg hv]

theorem getCenter_eq (h : m.OK) (G : Cartesian) (c : Nat) (d : Fin 3) :
    G.getCenter m c d = if m.cfg.Valid c then
      some (G.pos m d (m.cfg.idx c d) + G.len d / ((2 ^ m.cfg.lvl c : Nat) : Rat) / 2) else none := by
  unfold getCenter
  simp only []
  by_cases hv : m.cfg.Valid c
  · rw [if_neg (by rw [invalid_iff h]; exact fun h => h hv), if_pos hv, getStart_eq, Mapping.getIndices_eq h,
      if_pos hv, scale_max h]
    refine (congrFun (v3_of fun d => (G.getLength m c d).map fun x =>
      G.start d + (m.cfg.idx c d : Rat) * G.len d / ((2 ^ m.cfg.maxLvl : Nat) : Rat) + x / 2) d).trans ?_
    show Option.map _ (G.getLength m c d) = _
    rw [getLength_eq h, if_pos hv]
    rfl
  · rw [if_pos ((invalid_iff h c).2 hv), if_neg hv]

theorem getMin_eq (h : m.OK) (G : Cartesian) (c : Nat) (d : Fin 3) :
    G.getMin m c d = if m.cfg.Valid c then some (G.pos m d (m.cfg.idx c d)) else none := by
  unfold getMin
  rw [getCenter_eq h, getLength_eq h]
  by_cases hv : m.cfg.Valid c
  · rw [if_pos hv, if_pos hv, if_pos hv]
    show some _ = some _
    congr 1
    grind
  · rw [if_neg hv, if_neg hv, if_neg hv]; rfl

theorem getMax_eq (h : m.OK) (G : Cartesian) (c : Nat) (d : Fin 3) :
    G.getMax m c d = if m.cfg.Valid c then some (G.pos m d (m.cfg.idx c d + m.cfg.side c)) else none := by
  unfold getMax
  rw [getCenter_eq h, getLength_eq h]
  by_cases hv : m.cfg.Valid c
  · rw [if_pos hv, if_pos hv, if_pos hv]
    show some _ = some _
    congr 1
    unfold pos
    have h1 := side_scale hv
    have h2 := pow_cast_pos (m.cfg.lvl c)
    have h3 := pow_cast_pos m.cfg.maxLvl
    rw [h1] at h3 ⊢
    push_cast at *
    generalize (2 : Rat) ^ m.cfg.lvl c = L at *
    generalize (m.cfg.side c : Rat) = S at *
    have h4 : S ≠ 0 := by intro e; rw [e] at h3; grind
    grind
  · rw [if_neg hv, if_neg hv, if_neg hv]; rfl

/-- Lengths of cells are positive. -/
def Ok (G : Cartesian) : Prop := ∀ d, 0 < G.len d

theorem pos_mono (hG : G.Ok) (d : Fin 3) (N : Nat) : Increasing (G.pos m d) N := by
  apply Increasing.of_succ
  intro a _
  unfold pos
  have h1 := hG d
  have h2 := pow_cast_pos m.cfg.maxLvl
  generalize ((2 ^ m.cfg.maxLvl : Nat) : Rat) = M at *
  have h3 : 0 < G.len d / M := by
    rw [Rat.div_def]
    exact Rat.mul_pos h1 (Rat.inv_pos.2 h2)
  push_cast
  grind

theorem mesh (h : m.OK) (hG : G.Ok) : Mesh m.cfg (G.pos m) (G.getMin m) (G.getMax m) where
  inc d := pos_mono hG d _
  lo c hc d := by rw [getMin_eq h, if_pos hc]
  hi c hc d := by rw [getMax_eq h, if_pos hc]

end Cartesian

/-! ## No_Geometry is the default Cartesian geometry -/

namespace NoGeometry

theorem getStart_eq : getStart = Cartesian.init.getStart := by
  rw [Cartesian.getStart_eq]; rfl

theorem getEnd_eq (m : Mapping) : getEnd m = Cartesian.init.getEnd m := by
  funext d
  rw [Cartesian.getEnd_eq]
  refine (congrFun (v3_of fun d => (m.len d : Rat)) d).trans ?_
  simp only [Cartesian.init]
  grind

theorem getLength_eq (m : Mapping) (c : Nat) : getLength m c = Cartesian.init.getLength m c := by
  unfold getLength Cartesian.getLength
  simp only []
  split
  · rfl
  · refine Eq.trans ?_ (v3_of fun d => some (Cartesian.init.len d * (1 / scale (m.getLevel c)))).symm
    funext d
    simp only [Cartesian.init]
    congr 1
    grind

theorem getCenter_eq (m : Mapping) (c : Nat) : getCenter m c = Cartesian.init.getCenter m c := by
  unfold getCenter Cartesian.getCenter
  simp only []
  split
  · rfl
  · rw [getLength_eq, Cartesian.getStart_eq]
    have e : ∀ p : Nat, ∀ x : Rat, (p : Rat) / scale m.maxLvl + x / 2 =
        0 + (p : Rat) * 1 / scale m.maxLvl + x / 2 := by intro p x; grind
    simp only [Cartesian.init, e]

theorem getMin_eq (m : Mapping) (c : Nat) : getMin m c = Cartesian.init.getMin m c := by
  unfold getMin Cartesian.getMin
  rw [getCenter_eq, getLength_eq]

theorem getMax_eq (m : Mapping) (c : Nat) : getMax m c = Cartesian.init.getMax m c := by
  unfold getMax Cartesian.getMax
  rw [getCenter_eq, getLength_eq]

theorem getCenterAt_eq (m : Mapping) (l : Int) (p : V3 Nat) :
    getCenterAt m l p = Cartesian.init.getCenterAt m l p := by
  unfold getCenterAt Cartesian.getCenterAt
  split
  · rfl
  · split
    · rfl
    · rw [Cartesian.getStart_eq]
      have e : ∀ p : Nat, ∀ f f' : Rat, (p : Rat) * f + f' = 0 + (p : Rat) * 1 * f + 1 * f' := by
        intro p f f'; grind
      simp only [Cartesian.init, e]

theorem getRealCoordinate_eq (m : Mapping) (per : V3 Bool) (x : V3 Num) :
    getRealCoordinate m per x = Cartesian.init.getRealCoordinate m per x := by
  unfold getRealCoordinate Cartesian.getRealCoordinate
  rw [getEnd_eq, Cartesian.getStart_eq]
  rfl

theorem getIndices_eq (m : Mapping) (per : V3 Bool) (x : V3 Num) :
    getIndices m per x = Cartesian.init.getIndices m per x := by
  unfold getIndices Cartesian.getIndices
  rw [getRealCoordinate_eq, getEnd_eq, Cartesian.getStart_eq]
  funext d
  cases Cartesian.init.getRealCoordinate m per x d with
  | none => rfl
  | some y =>
    have e : y * scale m.maxLvl = (y - Cartesian.init.start d) / (Cartesian.init.len d / scale m.maxLvl) := by
      simp only [Cartesian.init]
      generalize scale m.maxLvl = M
      by_cases h : M = 0
      · grind
      · grind
    simp only [e]
    rfl

theorem getCell_eq (m : Mapping) (per : V3 Bool) (l : Int) (x : V3 Num) :
    getCell m per l x = Cartesian.init.getCell m per l x := by
  unfold getCell Cartesian.getCell
  rw [getIndices_eq]

end NoGeometry
end Dccrg
