import Verif.GeomDoublePeriod
/-!
# `Cartesian_Geometry` computed with `double` is close to the exact geometry
-/
namespace Dccrg
open Cfg

/-- Largest distance of coordinates of a dimension from zero, or from each other. -/
def Cartesian.scaleOf (G : Cartesian) (m : Mapping) (d : Fin 3) : Rat := mag (G.start d) + (m.len d : Rat) * G.len d

namespace Cartesian
variable {m : Mapping} {G : Cartesian} {per : V3 Bool}

/-- All dimensions are safe. -/
def SafeGrid (G : Cartesian) (m : Mapping) : Prop :=
  ∀ d, SafeDim m.maxLvl.toNat (m.len d) (G.start d) (G.len d)

theorem pos_def (G : Cartesian) (m : Mapping) (d : Fin 3) (p : Nat) :
    G.pos m d p = G.start d + (p : Rat) * G.len d / ((2 ^ m.maxLvl.toNat : Nat) : Rat) := rfl

theorem safe_len (hG : G.SafeGrid m) (d : Fin 3) : 0 < G.len d := (hG d).len_pos

theorem safe_end (hG : G.SafeGrid m) (d : Fin 3) : ∃ b, G.toD.getEnd m d = .fin b ∧ G.start d ≤ b ∧
    (Val.fin (G.start d)).add ((Val.ofNat (m.len d)).mul (.fin (G.len d))) = .fin b ∧
    mag (b - G.getEnd m d) ≤ eps * G.scaleOf m d * (21 / 10) := by
  obtain ⟨b, h1, h2, h3⟩ := (hG d).end_close
  refine ⟨b, ?_, h2, h1, by rw [getEnd_eq]; exact h3⟩
  unfold CartesianD.getEnd
  rw [toD_start]
  exact (v3_at (fun d => (Val.fin (G.start d)).add ((Val.ofNat (m.len d)).mul (.fin (G.len d)))) d).trans h1

theorem safe_length (h : m.OK) (hG : G.SafeGrid m) (c : Nat) (d : Fin 3) :
    G.toD.getLength m c d = (G.getLength m c d).val := by
  rw [getLength_eq h]
  unfold CartesianD.getLength
  simp only []
  by_cases hv : m.cfg.Valid c
  · have hm := Mapping.cfg_max h
    have h1 := lvl_le hv
    have h2 := max_le h
    rw [if_neg (by rw [invalid_iff h]; exact fun h => h hv), if_pos hv, Mapping.getLevel_eq h, if_pos hv,
      scaleD_eq (by omega), Int.toNat_natCast, div_scale_one (by omega)]
    refine (v3_at (fun d => (Val.fin (G.len d)).mul (.fin (1 / ((2 ^ m.cfg.lvl c : Nat) : Rat)))) d).trans ?_
    show (Val.fin (G.len d)).mul (.fin (1 / ((2 ^ m.cfg.lvl c : Nat) : Rat))) = _
    rw [Val.mul_fin, show G.len d * (1 / ((2 ^ m.cfg.lvl c : Nat) : Rat)) = G.len d / ((2 ^ m.cfg.lvl c : Nat) : Rat) by grind,
      (hG d).part_fin (by omega)]
    rfl
  · rw [if_pos ((invalid_iff h c).2 hv), if_neg hv]; rfl

theorem center_le (h : m.OK) (hG : G.SafeGrid m) {c : Nat} (hv : m.cfg.Valid c) (d : Fin 3) :
    (m.cfg.idx c d : Rat) * G.len d / ((2 ^ m.maxLvl.toNat : Nat) : Rat) + G.len d / ((2 ^ m.cfg.lvl c : Nat) : Rat) / 2 ≤
      (m.len d : Rat) * G.len d := by
  have hb := (C44_cartesian_consistent h (safe_len hG)).box c ((Mapping.validId_iff h).2 hv) d
  obtain ⟨lo, hi, b0, b0', b1, b2, b3, -, -⟩ := hb
  have b4 : G.getMin m c d = some lo := b0
  have b5 : G.getMax m c d = some hi := b0'
  have b3' : hi ≤ G.getEnd m d := b3
  have hc := getCenter_eq h G c d
  have hlen := getLength_eq h G c d
  rw [if_pos hv] at hc hlen
  unfold getMax at b5
  rw [hc, hlen] at b5
  injection b5 with b5
  rw [getEnd_eq] at b3'
  rw [pos_def] at b5
  have := (hG d).part_le (j := m.cfg.lvl c)
  grind

theorem safe_center (h : m.OK) (hG : G.SafeGrid m) {c : Nat} (hv : m.cfg.Valid c) (d : Fin 3) : ∃ y : Rat,
    G.toD.getCenter m c d = .fin y ∧ G.toD.getCenterAt m (m.getLevel c) (m.getIndices c) d = .fin y ∧
    mag (y - (G.pos m d (m.cfg.idx c d) + G.len d / ((2 ^ m.cfg.lvl c : Nat) : Rat) / 2)) ≤ eps * G.scaleOf m d * (32 / 10) := by
  have hm := Mapping.cfg_max h
  have h1 := lvl_le hv
  have h2 := max_le h
  have hp := idx_le_n h hv d
  obtain ⟨y, e1, e2, e3⟩ := (hG d).center_close hp (show m.cfg.lvl c ≤ m.maxLvl.toNat by omega) (center_le h hG hv d)
  refine ⟨y, ?_, ?_, e3⟩
  · unfold CartesianD.getCenter
    simp only []
    rw [if_neg (by rw [invalid_iff h]; exact fun h => h hv), toD_start, Mapping.getIndices_eq h, if_pos hv, scaleD_eq h2]
    refine (v3_at (fun d => ((Val.fin (G.start d)).add (((Val.ofNat (m.cfg.idx c d)).mul (.fin (G.len d))).div
      (.fin ((2 ^ m.maxLvl.toNat : Nat) : Rat)))).add ((G.toD.getLength m c d).div (.fin 2))) d).trans ?_
    show Val.add (Val.add _ (Val.div (Val.mul _ _) _)) (Val.div (G.toD.getLength m c d) _) = _
    rw [← e1, safe_length h hG, getLength_eq h, if_pos hv]
    have : (Val.fin (G.len d)).mul (.fin (1 / ((2 ^ m.cfg.lvl c : Nat) : Rat))) = .fin (G.len d / ((2 ^ m.cfg.lvl c : Nat) : Rat)) := by
      rw [Val.mul_fin, show G.len d * (1 / ((2 ^ m.cfg.lvl c : Nat) : Rat)) = G.len d / ((2 ^ m.cfg.lvl c : Nat) : Rat) by grind,
        (hG d).part_fin (by omega)]
    rw [this]
    rfl
  · rw [Mapping.getIndices_eq h, if_pos hv, Mapping.getLevel_eq h, if_pos hv]
    unfold CartesianD.getCenterAt
    rw [if_neg (by omega), if_neg (by
      simp only [Mapping.nIdx_eq h]
      have h0 := end_le h.wf hv 0
      have h1 := end_le h.wf hv 1
      have h2 := end_le h.wf hv 2
      omega), toD_start]
    simp only []
    rw [scaleD_eq h2, scaleD_eq (by omega), div_scale_one (by omega), Int.toNat_natCast, div_scale_one (by omega),
      half_scale (by omega)]
    exact (v3_at (fun d => ((Val.fin (G.start d)).add (((Val.ofNat (m.cfg.idx c d)).mul (.fin (G.len d))).mul
      (.fin (1 / ((2 ^ m.maxLvl.toNat : Nat) : Rat))))).add ((Val.fin (G.len d)).mul
      (.fin (1 / ((2 ^ (m.cfg.lvl c + 1) : Nat) : Rat))))) d).trans e2

theorem scaleOf_pos (hG : G.SafeGrid m) (d : Fin 3) : 0 < G.scaleOf m d := (hG d).scale_pos

theorem safe_corners (h : m.OK) (hG : G.SafeGrid m) {c : Nat} (hv : m.cfg.Valid c) (d : Fin 3) : ∃ lo y hi : Rat,
    G.toD.getMin m c d = .fin lo ∧ G.toD.getCenter m c d = .fin y ∧ G.toD.getMax m c d = .fin hi ∧ lo ≤ y ∧ y ≤ hi ∧
    mag (lo - G.pos m d (m.cfg.idx c d)) ≤ eps * G.scaleOf m d * (43 / 10) ∧
    mag (hi - G.pos m d (m.cfg.idx c d + m.cfg.side c)) ≤ eps * G.scaleOf m d * (43 / 10) := by
  have hm := Mapping.cfg_max h
  have h1 := lvl_le hv
  have h2 := max_le h
  obtain ⟨y, e1, -, e3⟩ := safe_center h hG hv d
  have hl := safe_length h hG c d
  have hle := getLength_eq h G c d
  rw [if_pos hv] at hle
  rw [hle] at hl
  have hl' : G.toD.getLength m c d = .fin (G.len d / ((2 ^ m.cfg.lvl c : Nat) : Rat)) := hl
  have hmax := getMax_eq h G c d
  have hc := getCenter_eq h G c d
  rw [if_pos hv] at hmax hc
  unfold getMax at hmax
  rw [hc, hle] at hmax
  injection hmax with hmax
  -- half of the length
  have hpart := (hG d).part_le (j := m.cfg.lvl c)
  have eh : G.len d / ((2 ^ m.cfg.lvl c : Nat) : Rat) / 2 = G.len d / ((2 ^ (m.cfg.lvl c + 1) : Nat) : Rat) := by
    rw [Nat.pow_succ, Rat.natCast_mul]
    have := pow_pos' (m.cfg.lvl c)
    have e : ((2 : Nat) : Rat) = 2 := rfl
    grind
  have e5 : (Val.fin (G.len d / ((2 ^ m.cfg.lvl c : Nat) : Rat))).div (.fin 2) = .fin (G.len d / ((2 ^ m.cfg.lvl c : Nat) : Rat) / 2) := by
    rw [Val.div_fin (by decide), eh, (hG d).part_fin (by omega)]
  have hy53 : Has53 y := by
    have : (G.toD.getCenter m c d).IsDouble := by
      unfold CartesianD.getCenter
      simp only []
      rw [if_neg (by rw [invalid_iff h]; exact fun h => h hv)]
      match d with
      | 0 => exact Val.add_double _ _
      | 1 => exact Val.add_double _ _
      | 2 => exact Val.add_double _ _
    rw [e1] at this
    exact this.1
  obtain ⟨m1, m2⟩ := mag_le_iff.1 e3
  have hsb := (hG d).start_bounds
  have hd := (hG d).delta_le
  have hB := (hG d).scale_pos
  have hcl := center_le h hG hv d
  have hin := (hG d).idx_le_len (idx_le_n h hv d)
  have hmag := mag_nonneg (G.start d)
  have hd0 : 0 ≤ eps * (mag (G.start d) + (m.len d : Rat) * G.len d) := Rat.mul_nonneg (Rat.le_of_lt eps_pos) (Rat.le_of_lt hB)
  have hend := end_le h.wf hv d
  have hpe : G.pos m d (m.cfg.idx c d + m.cfg.side c) ≤ G.start d + (m.len d : Rat) * G.len d := by
    have := (pos_mono (m := m) (safe_len hG) d (m.cfg.n d)).le hend (Nat.le_refl _)
    rw [pos_end, getEnd_eq] at this
    exact this
  have hsum := fun x a b => (hG d).sum_close (x := x) a b
  unfold scaleOf at *
  unfold CartesianD.getMin CartesianD.getMax
  rw [e1, hl', e5, Val.sub_fin, Val.add_fin]
  rw [pos_def] at m1 m2 hmax ⊢
  generalize G.len d / ((2 ^ m.cfg.lvl c : Nat) : Rat) = L at *
  generalize G.pos m d (m.cfg.idx c d + m.cfg.side c) = top at *
  generalize (m.cfg.idx c d : Rat) * G.len d / ((2 ^ m.maxLvl.toNat : Nat) : Rat) = q at *
  have s1 := hsum (y - L / 2) (by
    generalize eps * (mag (G.start d) + (m.len d : Rat) * G.len d) = D at *; grind) (by
    generalize eps * (mag (G.start d) + (m.len d : Rat) * G.len d) = D at *; grind)
  have s2 := hsum (y + L / 2) (by
    generalize eps * (mag (G.start d) + (m.len d : Rat) * G.len d) = D at *; grind) (by
    generalize eps * (mag (G.start d) + (m.len d : Rat) * G.len d) = D at *; grind)
  rw [s1.1, s2.1]
  have r1 := rnd_mono (show y - L / 2 ≤ y by grind)
  have r2 := rnd_mono (show y ≤ y + L / 2 by grind)
  rw [rnd_exact hy53] at r1 r2
  refine ⟨_, _, _, rfl, rfl, rfl, r1, r2, mag_le_iff.2 ?_, mag_le_iff.2 ?_⟩
  · generalize eps * (mag (G.start d) + (m.len d : Rat) * G.len d) = D at *
    constructor <;> grind
  · generalize eps * (mag (G.start d) + (m.len d : Rat) * G.len d) = D at *
    constructor <;> grind

/-! ## Coordinates -/

/-- A coordinate is the real coordinate of itself. -/
theorem safe_real_in (hG : G.SafeGrid m) {x : V3 Val} {d : Fin 3} {y : Rat} (hx : x d = .fin y) (h1 : G.start d ≤ y)
    (h2 : y ≤ G.getEnd m d - eps * G.scaleOf m d * 3) : G.toD.getRealCoordinate m per x d = .fin y := by
  obtain ⟨b, e1, e2, e3, e4⟩ := safe_end hG d
  unfold CartesianD.getRealCoordinate
  rw [e1, toD_start, hx]
  have := mag_le_iff.1 e4
  have := Rat.mul_pos eps_pos (scaleOf_pos hG d)
  exact realCoordD_in h1 (by grind)

/-- Index of a real coordinate that is three errors inside of a range of indices. -/
theorem safe_locate (h : m.OK) (hG : G.SafeGrid m) {d : Fin 3} {y : Rat} {p q : Nat} (hpq : p ≤ q) (hq : q ≤ m.cfg.n d)
    (h1 : G.pos m d p + eps * G.scaleOf m d * 3 ≤ y) (h2 : y ≤ G.pos m d q - eps * G.scaleOf m d * 3) :
    ∃ k, G.toD.locate m d (.fin y) = some k ∧ p ≤ k ∧ k < q := by
  obtain ⟨b, e1, e2, e3, e4⟩ := safe_end hG d
  obtain ⟨k, k1, k2, k3⟩ := (hG d).index_close hpq hq h1 h2
  refine ⟨k, ?_, k2, k3⟩
  have hpos := Rat.mul_pos eps_pos (scaleOf_pos hG d)
  have a1 : G.start d ≤ G.pos m d p := by
    have := (pos_mono (m := m) (safe_len hG) d (m.cfg.n d)).le (Nat.zero_le p) (by omega)
    rw [pos_zero, getStart_eq] at this
    exact this
  have a2 : G.pos m d q ≤ G.getEnd m d := by
    have := (pos_mono (m := m) (safe_len hG) d (m.cfg.n d)).le hq (Nat.le_refl _)
    rw [pos_end] at this
    exact this
  obtain ⟨m1, m2⟩ := mag_le_iff.1 e4
  unfold CartesianD.locate
  rw [e1, toD_start, scaleD_eq (max_le h)]
  rw [← k1]
  refine if_pos (show G.start d ≤ y ∧ y ≤ b from ⟨by grind, ?_⟩)
  generalize eps * G.scaleOf m d = D at *
  grind

/-- Cell of a coordinate whose real coordinate is three errors inside of the cell. -/
theorem safe_cell (h : m.OK) (hG : G.SafeGrid m) {x : V3 Val} {y : V3 Rat} {c : Nat} (hc : m.ValidId c)
    (hr : ∀ d, G.toD.getRealCoordinate m per x d = .fin (y d))
    (h1 : ∀ d, G.pos m d (m.cfg.idx c d) + eps * G.scaleOf m d * 3 ≤ y d)
    (h2 : ∀ d, y d ≤ G.pos m d (m.cfg.idx c d + m.cfg.side c) - eps * G.scaleOf m d * 3) :
    G.toD.getCell m per (m.getLevel c) x = some c := by
  have hv := (Mapping.validId_iff h).1 hc
  obtain ⟨k, hk⟩ := choose3 fun d => safe_locate h hG (d := d) (Nat.le_add_right _ _) (end_le h.wf hv d) (h1 d) (h2 d)
  have hi : G.toD.getIndices m per x = some k := by
    unfold CartesianD.getIndices
    rw [hr, hr, hr, (hk 0).1, (hk 1).1, (hk 2).1]
    show some (v3 _ _ _) = _
    rw [v3_of]
  obtain ⟨r1, r2, -⟩ := Mapping.C01_id_roundtrip h hc
  unfold CartesianD.getCell
  rw [if_neg (by omega), hi]
  show some _ = some _
  have hin : m.Inside k c := (Mapping.inside_iff h hc).2 fun d => (hk d).2
  have hk' : m.InsideGrid k := fun d => Nat.lt_of_lt_of_le (hk d).2.2 (end_le h.wf hv d)
  exact congrArg some ((Mapping.C02_index_roundtrip h hk' r1 r2).2.2.2.2.2 c hc rfl hin).symm

end Cartesian
end Dccrg
