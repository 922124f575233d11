import Verif.GeomSpec
/-!
# Locating coordinates
-/
namespace Dccrg
open Cfg

theorem ceil_mul {t L : Rat} (hL : 0 < L) :
    t ≤ L * ((t / L).ceil : Rat) ∧ L * ((t / L).ceil : Rat) < t + L := by
  have h1 : t / L ≤ ((t / L).ceil : Rat) := Rat.le_ceil
  have h2 : ((t / L).ceil : Rat) < t / L + 1 := Rat.ceil_lt
  have e : L * (t / L) = t := by grind
  have h3 := Rat.mul_le_mul_of_nonneg_left h1 (Rat.le_of_lt hL)
  have h4 := Rat.mul_lt_mul_of_pos_left h2 hL
  rw [e] at h3
  constructor
  · exact h3
  · grind

/-- `realCoord` of a coordinate below the grid. -/
theorem realCoord_below {per : Bool} {a b x : Rat} (hab : a < b) (hx : x < a) :
    realCoord per a b (some x) = if per then some (x + (b - a) * (((a - x) / (b - a)).ceil : Rat)) else none := by
  unfold realCoord
  simp only []
  rw [if_neg (by grind : ¬ (a ≤ x ∧ x ≤ b)), if_pos hx]

theorem realCoord_above {per : Bool} {a b x : Rat} (hab : a < b) (hx : b < x) :
    realCoord per a b (some x) = if per then some (x - (b - a) * (((x - b) / (b - a)).ceil : Rat)) else none := by
  unfold realCoord
  simp only []
  rw [if_neg (by grind : ¬ (a ≤ x ∧ x ≤ b)), if_neg (by grind : ¬ x < a)]

theorem realCoord_in {per : Bool} {a b x : Rat} (h1 : a ≤ x) (h2 : x ≤ b) : realCoord per a b (some x) = some x := by
  unfold realCoord
  simp only []
  rw [if_pos ⟨h1, h2⟩]

/-- Uniqueness of the representative in a half-open interval. -/
theorem shift_unique {L y y' : Rat} {k : Int} (hL : 0 < L) (e : y = y' + (k : Rat) * L) (h1 : y < y' + L)
    (h2 : y' < y + L) : k = 0 := by
  have a1 : (k : Rat) < 1 := by
    apply Classical.byContradiction
    intro h
    have : (1 : Rat) ≤ (k : Rat) := by grind
    have := Rat.mul_le_mul_of_nonneg_right this (Rat.le_of_lt hL)
    grind
  have a2 : (-1 : Rat) < (k : Rat) := by
    apply Classical.byContradiction
    intro h
    have : (k : Rat) ≤ -1 := by grind
    have := Rat.mul_le_mul_of_nonneg_right this (Rat.le_of_lt hL)
    grind
  have b1 : k < 1 := by exact_mod_cast a1
  have b2 : -1 < k := Rat.intCast_lt_intCast.1 (by rw [Rat.intCast_neg]; exact a2)
  omega

/-- Periodic images of a coordinate of the grid, except those at its end, have that coordinate as their
real coordinate. -/
theorem realCoord_image {a b x y : Rat} {k : Int} (hab : a < b) (h1 : a ≤ y) (h2 : y < b)
    (hx : x = y + (k : Rat) * (b - a)) (hk : ¬ (y = a ∧ 0 < k)) : realCoord true a b (some x) = some y := by
  have hL : 0 < b - a := by grind
  by_cases h3 : x < a
  · rw [realCoord_below hab h3, if_pos rfl]
    have h4 := ceil_mul (t := a - x) hL
    generalize ((a - x) / (b - a)).ceil = q at *
    congr 1
    -- the result is in [a, b)
    have h5 : (x + (b - a) * (q : Rat)) = y + ((k + q : Int) : Rat) * (b - a) := by
      rw [hx]; push_cast; grind
    have := shift_unique hL h5 (by grind) (by grind)
    rw [this] at h5
    rw [h5]
    push_cast
    grind
  · by_cases h6 : x ≤ b
    · rw [realCoord_in (by grind) h6]
      congr 1
      by_cases h7 : x = b
      · -- then y = a and k = 1
        exfalso
        have hk' : ((k - 1 : Int) : Rat) * (b - a) = a - y := by push_cast; grind
        have h5 : a = y + ((k - 1 : Int) : Rat) * (b - a) := by grind
        have := shift_unique hL h5 (by grind) (by grind)
        rw [this] at h5
        apply hk
        constructor
        · push_cast at h5; grind
        · omega
      · have := shift_unique hL hx (by grind) (by grind)
        rw [this] at hx
        push_cast at hx
        grind
    · rw [realCoord_above hab (by grind), if_pos rfl]
      have h4 := ceil_mul (t := x - b) hL
      generalize ((x - b) / (b - a)).ceil = q at *
      congr 1
      have h5 : (x - (b - a) * (q : Rat)) = y + ((k - q : Int) : Rat) * (b - a) := by
        rw [hx]; push_cast; grind
      by_cases h8 : x - (b - a) * (q : Rat) = b
      · exfalso
        have h9 : a = y + ((k - q - 1 : Int) : Rat) * (b - a) := by
          push_cast at h5 ⊢; grind
        have := shift_unique hL h9 (by grind) (by grind)
        rw [this] at h9
        have hya : y = a := by push_cast at h9; grind
        -- the number of periods is positive
        apply hk
        refine ⟨hya, ?_⟩
        apply Classical.byContradiction
        intro hn
        have hk0 : (k : Rat) ≤ 0 := by
          have : k ≤ 0 := by omega
          exact_mod_cast this
        have := Rat.mul_le_mul_of_nonneg_right hk0 (Rat.le_of_lt hL)
        grind
      · have := shift_unique hL h5 (by grind) (by grind)
        rw [this] at h5
        rw [h5]
        push_cast
        grind

/-- Coordinates that are a positive number of periods after the start of the grid have the end of the
grid as their real coordinate. -/
theorem realCoord_end {a b x : Rat} {k : Nat} (hab : a < b) (hx : x = b + (k : Rat) * (b - a)) :
    realCoord true a b (some x) = some b := by
  have hL : 0 < b - a := by grind
  by_cases h0 : k = 0
  · subst h0
    have : x = b := by rw [hx]; push_cast; grind
    subst this
    exact realCoord_in (by grind) (by grind)
  · have hk : (1 : Rat) ≤ (k : Rat) := by
      have : 1 ≤ k := by omega
      exact_mod_cast this
    have := Rat.mul_le_mul_of_nonneg_right hk (Rat.le_of_lt hL)
    rw [realCoord_above hab (by grind), if_pos rfl]
    have e : (x - b) / (b - a) = ((k : Int) : Rat) := by
      rw [hx]; push_cast; grind
    rw [e, Rat.ceil_intCast]
    congr 1
    push_cast
    grind

namespace Cartesian
variable {m : Mapping} {per : V3 Bool} {G : Cartesian}

/-- Index computed for a coordinate. -/
def indexOf (G : Cartesian) (m : Mapping) (d : Fin 3) (y : Rat) : Nat :=
  ((y - G.start d) / (G.len d / ((2 ^ m.cfg.maxLvl : Nat) : Rat))).floor.toNat

theorem indexOf_at (hG : G.Ok) {d : Fin 3} {y : Rat} (h : G.start d ≤ y) :
    G.pos m d (G.indexOf m d y) ≤ y ∧ y < G.pos m d (G.indexOf m d y + 1) := by
  unfold pos indexOf
  have h1 := hG d
  have h2 := pow_cast_pos m.cfg.maxLvl
  generalize ((2 ^ m.cfg.maxLvl : Nat) : Rat) = M at *
  have h3 : 0 < G.len d / M := by
    rw [Rat.div_def]
    exact Rat.mul_pos h1 (Rat.inv_pos.2 h2)
  have e1 : ∀ a : Rat, a * G.len d / M = a * (G.len d / M) := by intro a; grind
  simp only [e1]
  generalize G.len d / M = t at *
  have h4 : 0 ≤ (y - G.start d) / t := by
    rw [Rat.div_def]
    exact Rat.mul_nonneg (by grind) (Rat.le_of_lt (Rat.inv_pos.2 h3))
  have h5 : 0 ≤ ((y - G.start d) / t).floor := Rat.le_floor_iff.2 (by push_cast; exact h4)
  have e2 : ((((y - G.start d) / t).floor.toNat : Nat) : Rat) = (((y - G.start d) / t).floor : Rat) := by
    have := Int.toNat_of_nonneg h5
    have h6 : (((((y - G.start d) / t).floor.toNat : Nat) : Int) : Rat) = (((y - G.start d) / t).floor : Rat) := by
      rw [this]
    exact_mod_cast h6
  have h6 := Rat.floor_le ((y - G.start d) / t)
  have h7 := Rat.lt_floor_add_one ((y - G.start d) / t)
  push_cast at h7 ⊢
  rw [e2]
  generalize (((y - G.start d) / t).floor : Rat) = q at *
  have e3 : (y - G.start d) / t * t = y - G.start d := by grind
  have h8 := Rat.mul_le_mul_of_nonneg_right h6 (Rat.le_of_lt h3)
  have h9 := Rat.mul_lt_mul_of_pos_right h7 h3
  rw [e3] at h8 h9
  constructor <;> grind

theorem start_lt_end (h : m.OK) (hG : G.Ok) (d : Fin 3) : G.getStart d < G.getEnd m d := by
  rw [← pos_zero (m := m), ← pos_end]
  exact pos_mono hG d (m.cfg.n d) 0 _ (Nat.mul_pos (h.pos d) (Nat.pow_pos (by omega))) (Nat.le_refl _)

theorem indexOf_lt (hG : G.Ok) {d : Fin 3} {y : Rat} (h1 : G.getStart d ≤ y) (h2 : y < G.getEnd m d) :
    G.indexOf m d y < m.cfg.n d := by
  rw [getStart_eq] at h1
  have h3 := indexOf_at (m := m) hG h1
  apply Classical.byContradiction
  intro hn
  have := (pos_mono (m := m) hG d (G.indexOf m d y)).le (a := m.cfg.n d) (by omega) (Nat.le_refl _)
  rw [pos_end] at this
  grind

theorem indexOf_end (h : m.OK) (hG : G.Ok) (d : Fin 3) : m.cfg.n d ≤ G.indexOf m d (G.getEnd m d) := by
  have h0 := start_lt_end h hG d
  rw [getStart_eq] at h0
  have h3 := indexOf_at (m := m) hG (Rat.le_of_lt h0)
  apply Classical.byContradiction
  intro hn
  have := (pos_mono (m := m) hG d (m.cfg.n d)).le (a := G.indexOf m d (G.getEnd m d) + 1) (by omega) (Nat.le_refl _)
  rw [pos_end] at this
  grind

/-- Indices of coordinates whose real coordinate is known. -/
theorem getIndices_real (h : m.OK) {x : V3 Num} {d : Fin 3} {y : Rat}
    (hy : realCoord (per d) (G.getStart d) (G.getEnd m d) (x d) = some y) (h1 : G.getStart d ≤ y)
    (h2 : y ≤ G.getEnd m d) : G.getIndices m per x d = G.indexOf m d y := by
  unfold getIndices getRealCoordinate
  rw [hy]
  show (if _ then _ else _) = _
  rw [if_pos ⟨h1, h2⟩, getStart_eq, scale_max h]
  rfl

theorem getIndices_none {x : V3 Num} {d : Fin 3}
    (hy : realCoord (per d) (G.getStart d) (G.getEnd m d) (x d) = none) : G.getIndices m per x d = errorIndex := by
  unfold getIndices getRealCoordinate
  rw [hy]

theorem n_lt (h : m.OK) (d : Fin 3) : m.cfg.n d ≤ errorIndex := by
  have : m.len d * 2 ^ m.cfg.maxLvl < W := (Mapping.lens_lt h (Nat.le_refl _)).1 d
  show m.len d * 2 ^ m.cfg.maxLvl ≤ W - 1
  omega

theorem getCell_out (h : m.OK) {l : Int} {x : V3 Num} {d : Fin 3} (hd : m.cfg.n d ≤ G.getIndices m per x d) :
    G.getCell m per l x = errorCell := by
  unfold getCell
  split
  · rfl
  · rw [Mapping.cellFromIndices_eq h, if_neg]
    · rfl
    · rintro ⟨h1, -⟩
      have := h1 d
      omega

end Cartesian
end Dccrg
