import Verif.StretchedDouble
import Verif.GeomStretched
import Verif.GeomDoubleNone
/-!
# `Stretched_Cartesian_Geometry` on grids on which `double` is exact
-/
namespace Dccrg
open Cfg

/-- A geometry with exact coordinates as a geometry with `double` coordinates. -/
def Stretched.toD (G : Stretched) : StretchedD := { coords := fun d => (G.coords d).map .fin }

section
variable {m : Mapping} {per : V3 Bool}

namespace StretchedD

theorem getStart_eq (G : StretchedD) : G.getStart = fun d => G.coord d 0 := v3_of fun d => G.coord d 0

theorem getEnd_eq (G : StretchedD) (m : Mapping) : G.getEnd m = fun d => G.coord d (m.len d) :=
  v3_of fun d => G.coord d (m.len d)

theorem getLength_eq (h : m.OK) (G : StretchedD) (c : Nat) (d : Fin 3) :
    G.getLength m c d = if m.cfg.Valid c then
      ((G.coord d (m.cfg.idx c d / 2 ^ m.cfg.maxLvl + 1)).sub (G.coord d (m.cfg.idx c d / 2 ^ m.cfg.maxLvl))).div
        (.fin ((2 ^ m.cfg.lvl c : Nat) : Rat)) else .nan := by
  unfold getLength
  simp only []
  by_cases hv : m.cfg.Valid c
  · have hm := Mapping.cfg_max h
    have h1 := lvl_le hv
    have h2 := Cartesian.max_le h
    rw [if_neg (by rw [invalid_iff h]; exact fun h => h hv), if_pos hv, Mapping.getLevel_eq h, if_pos hv,
      scaleD_eq (by omega), Int.toNat_natCast]
    simp only [Stretched.startIndex_eq h hv]
    exact v3_at (fun d => ((G.coord d (m.cfg.idx c d / 2 ^ m.cfg.maxLvl + 1)).sub
      (G.coord d (m.cfg.idx c d / 2 ^ m.cfg.maxLvl))).div (.fin ((2 ^ m.cfg.lvl c : Nat) : Rat))) d
  · rw [if_pos ((invalid_iff h c).2 hv), if_neg hv]

theorem getCenter_eq (h : m.OK) (G : StretchedD) (c : Nat) (d : Fin 3) :
    G.getCenter m c d = if m.cfg.Valid c then
      ((G.coord d (m.cfg.idx c d / 2 ^ m.cfg.maxLvl)).add
        ((((G.coord d (m.cfg.idx c d / 2 ^ m.cfg.maxLvl + 1)).sub (G.coord d (m.cfg.idx c d / 2 ^ m.cfg.maxLvl))).div
          (.fin ((2 ^ m.cfg.maxLvl : Nat) : Rat))).mul (.ofNat (m.cfg.idx c d % 2 ^ m.cfg.maxLvl)))).add
        ((((G.coord d (m.cfg.idx c d / 2 ^ m.cfg.maxLvl + 1)).sub (G.coord d (m.cfg.idx c d / 2 ^ m.cfg.maxLvl))).div
          (.fin ((2 ^ m.cfg.lvl c : Nat) : Rat))).div (.fin 2)) else .nan := by
  unfold getCenter
  simp only []
  by_cases hv : m.cfg.Valid c
  · rw [if_neg (by rw [invalid_iff h]; exact fun h => h hv), if_pos hv, Mapping.getIndices_eq h,
      if_pos hv, scaleD_eq (Cartesian.max_le h), show m.maxLvl.toNat = m.cfg.maxLvl from rfl,
      Mapping.shl_eq h (Nat.le_refl _)]
    simp only [Stretched.startIndex_eq h hv, Stretched.idx_offset h hv, v3_0, v3_1, v3_2]
    refine (v3_at (fun d => ((G.coord d (m.cfg.idx c d / 2 ^ m.cfg.maxLvl)).add
        ((((G.coord d (m.cfg.idx c d / 2 ^ m.cfg.maxLvl + 1)).sub (G.coord d (m.cfg.idx c d / 2 ^ m.cfg.maxLvl))).div
          (.fin ((2 ^ m.cfg.maxLvl : Nat) : Rat))).mul (.ofNat (m.cfg.idx c d % 2 ^ m.cfg.maxLvl)))).add
        ((G.getLength m c d).div (.fin 2))) d).trans ?_
    show Val.add _ (Val.div (G.getLength m c d) _) = _
    rw [getLength_eq h, if_pos hv]
  · rw [if_pos ((invalid_iff h c).2 hv), if_neg hv]

end StretchedD

theorem skipSmallerD_eq (x : Rat) (l : List Rat) (i : Nat) :
    skipSmallerD (.fin x) (l.map .fin) i = skipSmaller x l i := by
  induction l generalizing i with
  | nil => rfl
  | cons a l ih =>
    show (if (Val.fin a).lt (.fin x) then skipSmallerD (.fin x) (l.map .fin) (i + 1) else some i) = _
    unfold skipSmaller
    by_cases e : a < x
    · rw [if_pos e, if_pos (show (Val.fin a).lt (.fin x) from e)]; exact ih _
    · rw [if_neg e, if_neg (show ¬ (Val.fin a).lt (.fin x) from e)]

theorem skipOffsetsD_spec {a h x : Val} (fuel k : Nat) :
    (skipOffsetsD a h x fuel k = none ∧ ∀ j, j < fuel → (a.add ((Val.ofNat (k + j)).mul h)).lt x) ∨
    ∃ j, j < fuel ∧ skipOffsetsD a h x fuel k = some (k + j) ∧
      (∀ i, i < j → (a.add ((Val.ofNat (k + i)).mul h)).lt x) ∧ ¬ (a.add ((Val.ofNat (k + j)).mul h)).lt x := by
  induction fuel generalizing k with
  | zero => left; exact ⟨rfl, fun j hj => by omega⟩
  | succ fuel ih =>
    unfold skipOffsetsD
    by_cases e : (a.add ((Val.ofNat k).mul h)).lt x
    · rw [if_pos e]
      rcases ih (k + 1) with ⟨h1, h2⟩ | ⟨j, h1, h2, h3, h4⟩
      · left
        refine ⟨h1, fun j hj => ?_⟩
        cases j with
        | zero => exact e
        | succ j => rw [show k + (j + 1) = k + 1 + j by omega]; exact h2 j (by omega)
      · right
        refine ⟨j + 1, by omega, by rw [h2]; congr 1; omega, fun i hi => ?_, ?_⟩
        · cases i with
          | zero => exact e
          | succ i => rw [show k + (i + 1) = k + 1 + i by omega]; exact h3 i (by omega)
        · rw [show k + (j + 1) = k + 1 + j by omega]; exact h4
    · rw [if_neg e]
      right; exact ⟨0, by omega, rfl, fun i hi => by omega, e⟩

/-- The second loop stops at the first offset at which the position is not less than the coordinate. -/
theorem skipOffsetsD_first {a h x : Val} {fuel j : Nat} (hj : j < fuel)
    (h1 : ∀ i, i < j → (a.add ((Val.ofNat i).mul h)).lt x) (h2 : ¬ (a.add ((Val.ofNat j).mul h)).lt x) :
    skipOffsetsD a h x fuel 0 = some j := by
  rcases skipOffsetsD_spec (a := a) (h := h) (x := x) fuel 0 with ⟨-, e2⟩ | ⟨j', e1, e2, e3, e4⟩
  · have := e2 j hj
    rw [Nat.zero_add] at this
    exact absurd this h2
  · simp only [Nat.zero_add] at e2 e3 e4
    rw [e2]
    congr 1
    rcases Nat.lt_trichotomy j j' with hl | hl | hl
    · exact absurd (e3 j hl) h2
    · exact hl.symm
    · exact absurd (h1 j' hl) e4

theorem skipOffsetsD_never {a h x : Val} {fuel : Nat} (h1 : ∀ i, i < fuel → (a.add ((Val.ofNat i).mul h)).lt x) :
    skipOffsetsD a h x fuel 0 = none := by
  rcases skipOffsetsD_spec (a := a) (h := h) (x := x) fuel 0 with ⟨e1, -⟩ | ⟨j', e1, -, -, e4⟩
  · exact e1
  · rw [Nat.zero_add] at e4
    exact absurd (h1 j' e1) e4

namespace Stretched
variable {G : Stretched}

theorem toD_coord (hG : G.Ok m) {d : Fin 3} {i : Nat} (hi : i ≤ m.len d) : G.toD.coord d i = .fin (G.coord d i) := by
  have := (hG d).1
  unfold StretchedD.coord toD coord
  simp only []
  rw [List.getD_eq_getElem?_getD, List.getD_eq_getElem?_getD, List.getElem?_map,
    List.getElem?_eq_getElem (show i < (G.coords d).length by omega)]
  rfl

theorem toD_start (hG : G.Ok m) (d : Fin 3) : G.toD.getStart d = .fin (G.getStart d) := by
  rw [StretchedD.getStart_eq, getStart_eq]; exact toD_coord hG (Nat.zero_le _)

theorem toD_end (hG : G.Ok m) (d : Fin 3) : G.toD.getEnd m d = .fin (G.getEnd m d) := by
  rw [StretchedD.getEnd_eq, getEnd_eq]; exact toD_coord hG (Nat.le_refl _)

theorem idx_div_lt (h : m.OK) {c : Nat} (hv : m.cfg.Valid c) (d : Fin 3) :
    m.cfg.idx c d / 2 ^ m.cfg.maxLvl < m.len d :=
  Nat.div_lt_of_lt_mul (by rw [Nat.mul_comm]; exact idx_inGrid h.wf hv d)

/-- Level 0 cell in which a coordinate is located. -/
theorem locate_cell (hG : G.Ok m) {d : Fin 3} {x : Rat} (h1 : G.getStart d < x) (h2 : x ≤ G.getEnd m d) :
    ∃ i, i < m.len d ∧ skipSmaller x (G.coords d) 0 = some (i + 1) ∧ G.coord d i < x ∧ x ≤ G.coord d (i + 1) := by
  have hlen := (hG d).1
  rw [getStart_eq] at h1
  rw [getEnd_eq] at h2
  have hc : ∀ i (hi : i < (G.coords d).length), (G.coords d)[i] = G.coord d i := by
    intro i hi
    unfold coord
    rw [List.getD_eq_getElem?_getD, List.getElem?_eq_getElem hi]; rfl
  rcases skipSmaller_spec (x := x) (G.coords d) 0 with ⟨-, e2⟩ | ⟨j, e1, e2, hj, e3⟩
  · have := e2 ((G.coords d)[m.len d]'(by omega)) (List.getElem_mem _)
    rw [hc] at this
    grind
  · rw [hc] at e3
    cases j with
    | zero => exact absurd h1 e3
    | succ i =>
      have e4 := e2 i (by omega) (by omega)
      rw [hc] at e4
      exact ⟨i, by omega, by rw [e1, Nat.zero_add], e4, by grind⟩

/-- Level 0 cells of coordinates are unique. -/
theorem cell_unique (hG : G.Ok m) {d : Fin 3} {x : Rat} {i j : Nat} (hi : i < m.len d) (hj : j < m.len d)
    (h1 : G.coord d i < x) (h2 : x ≤ G.coord d (i + 1)) (h3 : G.coord d j < x) (h4 : x ≤ G.coord d (j + 1)) : i = j := by
  have key : ∀ i j, i < j → j < m.len d → x ≤ G.coord d (i + 1) → ¬ G.coord d j < x := by
    intro i j hij hj hx hn
    by_cases e : i + 1 = j
    · rw [e] at hx; grind
    · have := coord_lt hG (d := d) (i := i + 1) (j := j) (by omega) (by omega)
      grind
  rcases Nat.lt_trichotomy i j with hl | hl | hl
  · exact absurd h3 (key i j hl hj h2)
  · exact hl
  · exact absurd h1 (key j i hl hi h4)

/-- What the second loop is given. -/
theorem toD_locate (h : m.OK) (hG : G.Ok m) {d : Fin 3} {x : Rat} {i : Nat} (hi : i < m.len d)
    (h1 : G.coord d i < x) (h2 : x ≤ G.coord d (i + 1)) :
    G.toD.locate m d (.fin x) =
      match skipOffsetsD (.fin (G.coord d i)) (((Val.fin (G.coord d (i + 1))).sub (.fin (G.coord d i))).div
        (.fin ((2 ^ m.cfg.maxLvl : Nat) : Rat))) (.fin x) W 0 with
      | none => .hangs
      | some k => .ok (wadd (i * 2 ^ m.cfg.maxLvl) (wsub k 1)) := by
  have hle : ∀ i j, i ≤ j → j ≤ m.len d → G.coord d i ≤ G.coord d j := by
    intro i j hij hj
    by_cases e : i = j
    · subst e; exact Rat.le_refl
    · exact Rat.le_of_lt (coord_lt hG (by omega) hj)
  have hs : G.getStart d < x := by
    rw [getStart_eq]; have := hle 0 i (Nat.zero_le _) (by omega); grind
  have he : x ≤ G.getEnd m d := by
    rw [getEnd_eq]; have := hle (i + 1) (m.len d) (by omega) (by omega); grind
  obtain ⟨j, j1, j2, j3, j4⟩ := locate_cell hG hs he
  have e := cell_unique hG hi j1 h1 h2 j3 j4
  subst e
  unfold StretchedD.locate
  rw [toD_start hG, toD_end hG,
    if_pos (show (Val.fin _).le (.fin x) ∧ (Val.fin x).le (.fin _) from ⟨Rat.le_of_lt hs, he⟩)]
  have hsk : skipSmallerD (.fin x) (G.toD.coords d) 0 = some (i + 1) := (skipSmallerD_eq _ _ _).trans j2
  rw [hsk]
  simp only []
  rw [toD_coord hG (by omega), toD_coord hG (by omega), scaleD_eq (Cartesian.max_le h),
    show m.maxLvl.toNat = m.cfg.maxLvl from rfl, Mapping.shl_eq h (Nat.le_refl _), wmul_eq (by
      have hW : m.cfg.n d < W := (Mapping.lens_lt h (Nat.le_refl _)).1 d
      have : i * 2 ^ m.cfg.maxLvl ≤ m.len d * 2 ^ m.cfg.maxLvl := Nat.mul_le_mul_right _ (by omega)
      have : m.cfg.n d = m.len d * 2 ^ m.cfg.maxLvl := rfl
      omega)]
  generalize skipOffsetsD _ _ _ _ _ = o
  cases o <;> rfl

/-- The second loop stops at an offset. -/
theorem toD_locate_at (h : m.OK) (hG : G.Ok m) {d : Fin 3} {x : Rat} {i : Nat} (hi : i < m.len d)
    (h1 : G.coord d i < x) (h2 : x ≤ G.coord d (i + 1)) {s : Val} (hs : ((Val.fin (G.coord d (i + 1))).sub (.fin (G.coord d i))).div
        (.fin ((2 ^ m.cfg.maxLvl : Nat) : Rat)) = s) {j : Nat} (hj : j < W)
    (h3 : ∀ r, r < j → ((Val.fin (G.coord d i)).add ((Val.ofNat r).mul s)).lt (.fin x))
    (h4 : ¬ ((Val.fin (G.coord d i)).add ((Val.ofNat j).mul s)).lt (.fin x)) :
    G.toD.locate m d (.fin x) = .ok (wadd (i * 2 ^ m.cfg.maxLvl) (wsub j 1)) := by
  have e := toD_locate h hG hi h1 h2
  rw [hs] at e
  have f := skipOffsetsD_first hj h3 h4
  generalize skipOffsetsD _ _ _ _ _ = o at e f
  subst f
  exact e

/-- The second loop never stops. -/
theorem toD_locate_hangs (h : m.OK) (hG : G.Ok m) {d : Fin 3} {x : Rat} {i : Nat} (hi : i < m.len d)
    (h1 : G.coord d i < x) (h2 : x ≤ G.coord d (i + 1)) {s : Val} (hs : ((Val.fin (G.coord d (i + 1))).sub (.fin (G.coord d i))).div
        (.fin ((2 ^ m.cfg.maxLvl : Nat) : Rat)) = s)
    (h3 : ∀ r, r < W → ((Val.fin (G.coord d i)).add ((Val.ofNat r).mul s)).lt (.fin x)) :
    G.toD.locate m d (.fin x) = .hangs := by
  have e := toD_locate h hG hi h1 h2
  rw [hs] at e
  have f := skipOffsetsD_never h3
  generalize skipOffsetsD _ _ _ _ _ = o at e f
  subst f
  exact e

theorem toD_locate_start (h : m.OK) (hG : G.Ok m) (d : Fin 3) :
    G.toD.locate m d (.fin (G.getStart d)) = .undefined := by
  have hlen := (hG d).1
  have h1 : G.getStart d < G.getEnd m d := by
    rw [getStart_eq, getEnd_eq]; exact coord_lt hG (h.pos d) (Nat.le_refl _)
  unfold StretchedD.locate
  rw [toD_start hG, toD_end hG,
    if_pos (show (Val.fin _).le (.fin _) ∧ (Val.fin _).le (.fin _) from ⟨Rat.le_refl, Rat.le_of_lt h1⟩)]
  have hs : skipSmallerD (.fin (G.getStart d)) (G.toD.coords d) 0 = some 0 := by
    refine (skipSmallerD_eq _ _ _).trans ?_
    rw [getStart_eq]
    unfold coord
    cases e : G.coords d with
    | nil => rw [e] at hlen; simp at hlen
    | cons a l =>
      unfold skipSmaller
      rw [if_neg]
      show ¬ a < (G.coords d).getD 0 0
      rw [e]
      exact Rat.lt_irrefl
  rw [hs]

theorem toD_locate_outside (hG : G.Ok m) {d : Fin 3} {v : Val}
    (hv : ∀ x, v = .fin x → x < G.getStart d ∨ G.getEnd m d < x) : G.toD.locate m d v = .ok errorIndex := by
  unfold StretchedD.locate
  rw [toD_start hG, toD_end hG, if_neg]
  rintro ⟨h1, h2⟩
  cases v with
  | nan => exact h1
  | inf s => cases s <;> simp [Val.le] at h1 h2
  | fin x =>
    replace h1 : G.getStart d ≤ x := h1
    replace h2 : x ≤ G.getEnd m d := h2
    rcases hv x rfl with h | h <;> grind

end Stretched
end
end Dccrg
