import Verif.GeomLocate
/-!
# Stretched Cartesian geometry
-/
namespace Dccrg
open Cfg
namespace Stretched
variable {m : Mapping} {per : V3 Bool} {G : Stretched}

/-- One more coordinate than level 0 cells in each dimension, in strictly increasing order. -/
def Ok (G : Stretched) (m : Mapping) : Prop :=
  ∀ d, (G.coords d).length = m.len d + 1 ∧ (G.coords d).Pairwise (· < ·)

theorem coord_lt (hG : G.Ok m) {d : Fin 3} {i j : Nat} (h : i < j) (hj : j ≤ m.len d) :
    G.coord d i < G.coord d j := by
  obtain ⟨h1, h2⟩ := hG d
  unfold coord
  rw [List.getD_eq_getElem?_getD, List.getD_eq_getElem?_getD, List.getElem?_eq_getElem (by omega),
    List.getElem?_eq_getElem (by omega)]
  exact List.pairwise_iff_getElem.1 h2 i j (by omega) (by omega) h

/-- Position of an index. -/
def pos (G : Stretched) (m : Mapping) (d : Fin 3) (a : Nat) : Rat :=
  G.coord d (a / 2 ^ m.cfg.maxLvl) +
    (G.coord d (a / 2 ^ m.cfg.maxLvl + 1) - G.coord d (a / 2 ^ m.cfg.maxLvl)) /
      ((2 ^ m.cfg.maxLvl : Nat) : Rat) * ((a % 2 ^ m.cfg.maxLvl : Nat) : Rat)

/-- Positions in a level 0 cell, including its end. -/
theorem pos_in (G : Stretched) (m : Mapping) (d : Fin 3) {q r : Nat} (hr : r ≤ 2 ^ m.cfg.maxLvl) :
    G.pos m d (q * 2 ^ m.cfg.maxLvl + r) = G.coord d q +
      (G.coord d (q + 1) - G.coord d q) / ((2 ^ m.cfg.maxLvl : Nat) : Rat) * (r : Rat) := by
  unfold pos
  have h1 := pow_cast_pos m.cfg.maxLvl
  have h2 : 0 < 2 ^ m.cfg.maxLvl := Nat.pow_pos (by omega)
  by_cases e : r = 2 ^ m.cfg.maxLvl
  · have e1 : (q * 2 ^ m.cfg.maxLvl + r) = (q + 1) * 2 ^ m.cfg.maxLvl := by rw [e, Nat.succ_mul]
    rw [e1, Nat.mul_div_cancel _ h2, Nat.mul_mod_left, e]
    push_cast at *
    generalize (2 : Rat) ^ m.cfg.maxLvl = M at *
    grind
  · have e1 : (q * 2 ^ m.cfg.maxLvl + r) / 2 ^ m.cfg.maxLvl = q := by
      rw [Nat.add_comm, Nat.add_mul_div_right _ _ h2, Nat.div_eq_of_lt (by omega), Nat.zero_add]
    have e2 : (q * 2 ^ m.cfg.maxLvl + r) % 2 ^ m.cfg.maxLvl = r := by
      rw [Nat.add_comm, Nat.add_mul_mod_self_right, Nat.mod_eq_of_lt (by omega)]
    rw [e1, e2]

theorem getStart_eq (G : Stretched) : G.getStart = fun d => G.coord d 0 := v3_of fun d => G.coord d 0

theorem getEnd_eq (G : Stretched) (m : Mapping) : G.getEnd m = fun d => G.coord d (m.len d) :=
  v3_of fun d => G.coord d (m.len d)

theorem pos_zero (d : Fin 3) : G.pos m d 0 = G.getStart d := by
  have := pos_in G m d (q := 0) (r := 0) (Nat.zero_le _)
  rw [Nat.zero_mul, Nat.add_zero] at this
  rw [this, getStart_eq]
  push_cast
  grind

theorem pos_end (d : Fin 3) : G.pos m d (m.cfg.n d) = G.getEnd m d := by
  have := pos_in G m d (q := m.len d) (r := 0) (Nat.zero_le _)
  rw [Nat.add_zero] at this
  rw [getEnd_eq]
  refine Eq.trans this ?_
  push_cast
  grind

theorem step_pos (hG : G.Ok m) {d : Fin 3} {q : Nat} (hq : q < m.len d) :
    0 < (G.coord d (q + 1) - G.coord d q) / ((2 ^ m.cfg.maxLvl : Nat) : Rat) := by
  have h1 := coord_lt hG (d := d) (i := q) (j := q + 1) (by omega) (by omega)
  rw [Rat.div_def]
  exact Rat.mul_pos (by grind) (Rat.inv_pos.2 (pow_cast_pos _))

theorem pos_mono (hG : G.Ok m) (d : Fin 3) : Increasing (G.pos m d) (m.cfg.n d) := by
  apply Increasing.of_succ
  intro a ha
  have h2 : 0 < 2 ^ m.cfg.maxLvl := Nat.pow_pos (by omega)
  have hq : a / 2 ^ m.cfg.maxLvl < m.len d := Nat.div_lt_of_lt_mul (by rw [Nat.mul_comm]; exact ha)
  have hr : a % 2 ^ m.cfg.maxLvl < 2 ^ m.cfg.maxLvl := Nat.mod_lt _ h2
  have e : a = a / 2 ^ m.cfg.maxLvl * 2 ^ m.cfg.maxLvl + a % 2 ^ m.cfg.maxLvl := by
    rw [Nat.mul_comm]; exact (Nat.div_add_mod _ _).symm
  have h3 := step_pos hG hq
  have e1 := pos_in G m d (q := a / 2 ^ m.cfg.maxLvl) (Nat.le_of_lt hr)
  have e2 := pos_in G m d (q := a / 2 ^ m.cfg.maxLvl) (r := a % 2 ^ m.cfg.maxLvl + 1) (by omega)
  rw [← Nat.add_assoc, ← e] at e2
  rw [← e] at e1
  rw [e1, e2]
  push_cast
  grind

theorem startIndex_eq (h : m.OK) {c : Nat} (hv : m.cfg.Valid c) (d : Fin 3) :
    startIndex m c d = m.cfg.idx c d / 2 ^ m.cfg.maxLvl := by
  unfold startIndex
  simp only []
  rw [if_neg (by rw [invalid_iff h]; exact fun h => h hv), Mapping.getIndices_eq h, if_pos hv,
    show m.maxLvl.toNat = m.cfg.maxLvl from rfl, Mapping.shl_eq h (Nat.le_refl _)]
  exact congrFun (v3_of fun d => m.cfg.idx c d / 2 ^ m.cfg.maxLvl) d

theorem getLength_eq (h : m.OK) (G : Stretched) (c : Nat) (d : Fin 3) :
    G.getLength m c d = if m.cfg.Valid c then
      some ((G.coord d (m.cfg.idx c d / 2 ^ m.cfg.maxLvl + 1) - G.coord d (m.cfg.idx c d / 2 ^ m.cfg.maxLvl)) /
        ((2 ^ m.cfg.lvl c : Nat) : Rat)) else none := by
  unfold getLength
  simp only []
  by_cases hv : m.cfg.Valid c
  · have e : m.cfg.maxLvl = m.maxLvl.toNat := rfl
    have h0 := h.nonneg
    have h1 := lvl_le hv
    rw [if_neg (by rw [invalid_iff h]; exact fun h => h hv), if_pos hv, Mapping.getLevel_eq h, if_pos hv,
      scale_eq h (by omega)]
    simp only [startIndex_eq h hv]
    exact congrFun (v3_of fun d => some ((G.coord d (m.cfg.idx c d / 2 ^ m.cfg.maxLvl + 1) -
      G.coord d (m.cfg.idx c d / 2 ^ m.cfg.maxLvl)) / ((2 ^ m.cfg.lvl c : Nat) : Rat))) d
  · rw [if_pos ((invalid_iff h c).2 hv), if_neg hv]

theorem idx_offset (h : m.OK) {c : Nat} (hv : m.cfg.Valid c) (d : Fin 3) :
    wsub (m.cfg.idx c d) (wmul (m.cfg.idx c d / 2 ^ m.cfg.maxLvl) (2 ^ m.cfg.maxLvl)) =
      m.cfg.idx c d % 2 ^ m.cfg.maxLvl := by
  have h1 := idx_inGrid h.wf hv d
  have h2 : m.cfg.n d < W := (Mapping.lens_lt h (Nat.le_refl _)).1 d
  have h3 : m.cfg.idx c d / 2 ^ m.cfg.maxLvl * 2 ^ m.cfg.maxLvl ≤ m.cfg.idx c d := Nat.div_mul_le_self _ _
  rw [wmul_eq (by omega), wsub_eq h3 (by omega)]
  have := Nat.div_add_mod (m.cfg.idx c d) (2 ^ m.cfg.maxLvl)
  rw [Nat.mul_comm] at this
  omega

theorem getCenter_eq (h : m.OK) (G : Stretched) (c : Nat) (d : Fin 3) :
    G.getCenter m c d = if m.cfg.Valid c then
      some (G.pos m d (m.cfg.idx c d) +
        (G.coord d (m.cfg.idx c d / 2 ^ m.cfg.maxLvl + 1) - G.coord d (m.cfg.idx c d / 2 ^ m.cfg.maxLvl)) /
          ((2 ^ m.cfg.lvl c : Nat) : Rat) / 2) else none := by
  unfold getCenter
  simp only []
  by_cases hv : m.cfg.Valid c
  · rw [if_neg (by rw [invalid_iff h]; exact fun h => h hv), if_pos hv, Mapping.getIndices_eq h,
      if_pos hv, scale_max h, show m.maxLvl.toNat = m.cfg.maxLvl from rfl, Mapping.shl_eq h (Nat.le_refl _)]
    simp only [startIndex_eq h hv, idx_offset h hv, v3_0, v3_1, v3_2]
    refine (congrFun (v3_of fun d => (G.getLength m c d).map fun x => G.pos m d (m.cfg.idx c d) + x / 2) d).trans ?_
    show Option.map _ (G.getLength m c d) = _
    rw [getLength_eq h, if_pos hv]
    rfl
  · rw [if_pos ((invalid_iff h c).2 hv), if_neg hv]

theorem getMin_eq (h : m.OK) (G : Stretched) (c : Nat) (d : Fin 3) :
    G.getMin m c d = if m.cfg.Valid c then some (G.pos m d (m.cfg.idx c d)) else none := by
  unfold getMin
  rw [getCenter_eq h, getLength_eq h]
  by_cases hv : m.cfg.Valid c
  · rw [if_pos hv, if_pos hv, if_pos hv]
    show some _ = some _
    congr 1
    grind
  · rw [if_neg hv, if_neg hv, if_neg hv]; rfl

/-- A cell is inside of one level 0 cell. -/
theorem idx_side (h : m.OK) {c : Nat} (hv : m.cfg.Valid c) (d : Fin 3) :
    m.cfg.idx c d % 2 ^ m.cfg.maxLvl + m.cfg.side c ≤ 2 ^ m.cfg.maxLvl := by
  have h1 : m.cfg.side c ∣ m.cfg.idx c d := by
    obtain ⟨k, -, e⟩ := idx_div_bounds h.wf hv d
    rw [e]; unfold side; exact Nat.dvd_mul_left _ _
  have h2 : m.cfg.side c ∣ 2 ^ m.cfg.maxLvl := by
    unfold side; exact Nat.pow_dvd_pow 2 (by omega)
  have h3 : m.cfg.side c ∣ m.cfg.idx c d % 2 ^ m.cfg.maxLvl := (Nat.dvd_mod_iff h2).2 h1
  have h4 : 0 < 2 ^ m.cfg.maxLvl := Nat.pow_pos (by omega)
  have h5 : m.cfg.idx c d % 2 ^ m.cfg.maxLvl < 2 ^ m.cfg.maxLvl := Nat.mod_lt _ h4
  obtain ⟨a, ha⟩ := h2
  obtain ⟨b, hb⟩ := h3
  rw [hb, ha] at h5
  have h6 : b < a := Nat.lt_of_mul_lt_mul_left h5
  rw [hb, ha, ← Nat.mul_succ]
  exact Nat.mul_le_mul_left _ h6

theorem getMax_eq (h : m.OK) (G : Stretched) (c : Nat) (d : Fin 3) :
    G.getMax m c d = if m.cfg.Valid c then some (G.pos m d (m.cfg.idx c d + m.cfg.side c)) else none := by
  unfold getMax
  rw [getCenter_eq h, getLength_eq h]
  by_cases hv : m.cfg.Valid c
  · rw [if_pos hv, if_pos hv, if_pos hv]
    show some _ = some _
    congr 1
    have e : m.cfg.idx c d = m.cfg.idx c d / 2 ^ m.cfg.maxLvl * 2 ^ m.cfg.maxLvl +
        m.cfg.idx c d % 2 ^ m.cfg.maxLvl := by
      rw [Nat.mul_comm]; exact (Nat.div_add_mod _ _).symm
    have hs := idx_side h hv d
    have h1 := side_scale hv
    have h2 := pow_cast_pos (m.cfg.lvl c)
    have h3 := pow_cast_pos m.cfg.maxLvl
    have e1 := pos_in G m d (q := m.cfg.idx c d / 2 ^ m.cfg.maxLvl) (r := m.cfg.idx c d % 2 ^ m.cfg.maxLvl)
      (by omega)
    have e2 := pos_in G m d (q := m.cfg.idx c d / 2 ^ m.cfg.maxLvl) hs
    rw [← Nat.add_assoc, ← e] at e2
    rw [← e] at e1
    rw [e1, e2]
    rw [h1] at h3 ⊢
    push_cast at *
    generalize (2 : Rat) ^ m.cfg.lvl c = L at *
    generalize (m.cfg.side c : Rat) = S at *
    have h4 : S ≠ 0 := by intro e; rw [e] at h3; grind
    have h5 : L ≠ 0 := by grind
    generalize ((m.cfg.idx c d % 2 ^ m.cfg.maxLvl : Nat) : Rat) = r
    generalize G.coord d (m.cfg.idx c d / 2 ^ m.cfg.maxLvl + 1) = b
    generalize G.coord d (m.cfg.idx c d / 2 ^ m.cfg.maxLvl) = a
    grind
  · rw [if_neg hv, if_neg hv, if_neg hv]; rfl

theorem mesh (h : m.OK) (hG : G.Ok m) : Mesh m.cfg (G.pos m) (G.getMin m) (G.getMax m) where
  inc d := pos_mono hG d
  lo c hc d := by rw [getMin_eq h, if_pos hc]
  hi c hc d := by rw [getMax_eq h, if_pos hc]

/-! ## Locating coordinates -/

theorem skipSmaller_spec {x : Rat} (l : List Rat) (i : Nat) :
    (skipSmaller x l i = none ∧ ∀ a ∈ l, a < x) ∨
    ∃ j, skipSmaller x l i = some (i + j) ∧ (∀ k, k < j → ∀ hk : k < l.length, l[k] < x) ∧
      ∃ hj : j < l.length, ¬ l[j] < x := by
  induction l generalizing i with
  | nil => left; exact ⟨rfl, fun a h => by cases h⟩
  | cons a l ih =>
    unfold skipSmaller
    by_cases h : a < x
    · rw [if_pos h]
      rcases ih (i + 1) with ⟨h1, h2⟩ | ⟨j, h1, h2, h3, h4⟩
      · left
        refine ⟨h1, fun b hb => ?_⟩
        rcases List.mem_cons.1 hb with rfl | hb
        · exact h
        · exact h2 b hb
      · right
        refine ⟨j + 1, by rw [h1]; congr 1; omega, fun k hk hkl => ?_, by simp; omega, by simpa using h4⟩
        cases k with
        | zero => exact h
        | succ k => simpa using h2 k (by omega) (by simpa using hkl)
    · rw [if_neg h]
      right
      exact ⟨0, rfl, fun k hk => by omega, by simp, h⟩

theorem skipOffsets_spec {a h x : Rat} (fuel k : Nat) :
    (skipOffsets a h x fuel k = none ∧ a + ((k + fuel : Nat) : Rat) * h < x) ∨
    ∃ j, j ≤ fuel ∧ skipOffsets a h x fuel k = some (k + j) ∧
      (∀ i, i < j → a + ((k + i : Nat) : Rat) * h < x) ∧ ¬ a + ((k + j : Nat) : Rat) * h < x := by
  induction fuel generalizing k with
  | zero =>
    unfold skipOffsets
    by_cases e : a + (k : Rat) * h < x
    · left; rw [if_pos e]; exact ⟨rfl, e⟩
    · right; rw [if_neg e]; exact ⟨0, by omega, rfl, fun i hi => by omega, e⟩
  | succ fuel ih =>
    unfold skipOffsets
    by_cases e : a + (k : Rat) * h < x
    · rw [if_pos e]
      rcases ih (k + 1) with ⟨h1, h2⟩ | ⟨j, h1, h2, h3, h4⟩
      · left; exact ⟨h1, by rw [show k + (fuel + 1) = k + 1 + fuel by omega]; exact h2⟩
      · right
        refine ⟨j + 1, by omega, by rw [h2]; congr 1; omega, fun i hi => ?_, ?_⟩
        · cases i with
          | zero => exact e
          | succ i => rw [show k + (i + 1) = k + 1 + i by omega]; exact h3 i (by omega)
        · rw [show k + (j + 1) = k + 1 + j by omega]; exact h4
    · rw [if_neg e]
      right; exact ⟨0, by omega, rfl, fun i hi => by omega, e⟩

/-- Coordinates inside of the grid, except its start, are given the index of the smallest cell that
contains it, or ends at it. -/
theorem locate_at (h : m.OK) (hG : G.Ok m) {d : Fin 3} {x : Rat} (h1 : G.getStart d < x) (h2 : x ≤ G.getEnd m d) :
    ∃ p, G.locate m d (some x) = .at p ∧ p < m.cfg.n d ∧ G.pos m d p < x ∧ x ≤ G.pos m d (p + 1) := by
  have hlen := (hG d).1
  rw [getStart_eq] at h1
  rw [getEnd_eq] at h2
  have hc : ∀ i (hi : i < (G.coords d).length), (G.coords d)[i] = G.coord d i := by
    intro i hi
    unfold coord
    rw [List.getD_eq_getElem?_getD, List.getElem?_eq_getElem hi]; rfl
  unfold locate
  simp only []
  rw [if_pos (by rw [getStart_eq, getEnd_eq]; exact ⟨Rat.le_of_lt h1, h2⟩)]
  rcases skipSmaller_spec (x := x) (G.coords d) 0 with ⟨-, e2⟩ | ⟨j, e1, e2, hj, e3⟩
  · have := e2 ((G.coords d)[m.len d]'(by omega)) (List.getElem_mem _)
    rw [hc] at this
    grind
  · rw [hc] at e3
    cases j with
    | zero => exact absurd h1 e3
    | succ i =>
      have e4 := e2 i (by omega) (by omega)
      rw [hc] at e4
      rw [e1, Nat.zero_add]
      simp only []
      rw [scale_max h, show m.maxLvl.toNat = m.cfg.maxLvl from rfl, Mapping.shl_eq h (Nat.le_refl _)]
      have hil : i < m.len d := by omega
      have hstep := step_pos (m := m) hG hil
      have hM := pow_cast_pos m.cfg.maxLvl
      have hend : G.coord d i + ((0 + 2 ^ m.cfg.maxLvl : Nat) : Rat) *
          ((G.coord d (i + 1) - G.coord d i) / ((2 ^ m.cfg.maxLvl : Nat) : Rat)) = G.coord d (i + 1) := by
        rw [Nat.zero_add]
        generalize ((2 ^ m.cfg.maxLvl : Nat) : Rat) = M at *
        grind
      rcases skipOffsets_spec (a := G.coord d i)
        (h := (G.coord d (i + 1) - G.coord d i) / ((2 ^ m.cfg.maxLvl : Nat) : Rat)) (x := x)
        (2 ^ m.cfg.maxLvl) 0 with ⟨-, f2⟩ | ⟨k, f1, f2, f3, f4⟩
      · rw [hend] at f2
        exact absurd f2 e3
      · rw [f2]
        simp only [Nat.zero_add] at f3 f4 ⊢
        cases k with
        | zero =>
          exfalso; apply f4
          push_cast
          grind
        | succ k =>
          have f5 := f3 k (by omega)
          have hlt : i * 2 ^ m.cfg.maxLvl + (k + 1) ≤ m.cfg.n d := by
            have : (i + 1) * 2 ^ m.cfg.maxLvl ≤ m.len d * 2 ^ m.cfg.maxLvl := Nat.mul_le_mul_right _ hil
            rw [Nat.succ_mul] at this
            show _ ≤ m.len d * 2 ^ m.cfg.maxLvl
            omega
          have hW : m.cfg.n d < W := (Mapping.lens_lt h (Nat.le_refl _)).1 d
          refine ⟨i * 2 ^ m.cfg.maxLvl + k, ?_, by omega, ?_, ?_⟩
          · rw [wmul_eq (by omega), wsub_eq (by omega) (by omega), wadd_eq (by omega)]
            rfl
          · rw [pos_in G m d (by omega)]
            grind
          · rw [Nat.add_assoc, pos_in G m d f1]
            grind

theorem locate_start (h : m.OK) (hG : G.Ok m) (d : Fin 3) : G.locate m d (some (G.getStart d)) = .undefined := by
  have hlen := (hG d).1
  have h1 : G.getStart d < G.getEnd m d := by
    rw [getStart_eq, getEnd_eq]; exact coord_lt hG (h.pos d) (Nat.le_refl _)
  unfold locate
  simp only []
  rw [if_pos ⟨Rat.le_refl, Rat.le_of_lt h1⟩]
  have hs : skipSmaller (G.getStart d) (G.coords d) 0 = some 0 := by
    rw [getStart_eq]
    unfold coord
    cases e : G.coords d with
    | nil => rw [e] at hlen; simp at hlen
    | cons a l =>
      unfold skipSmaller
      rw [if_neg]
      show ¬ a < (G.coords d).getD 0 0
      rw [e]
      exact Rat.lt_irrefl
  rw [hs]

theorem locate_outside {d : Fin 3} {x : Num} (hx : ∀ y, x = some y → y < G.getStart d ∨ G.getEnd m d < y) :
    G.locate m d x = .outside := by
  unfold locate
  cases x with
  | none => rfl
  | some y =>
    simp only []
    rw [if_neg]
    rintro ⟨h1, h2⟩
    rcases hx y rfl with h | h <;> grind

end Stretched
end Dccrg
