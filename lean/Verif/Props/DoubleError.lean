import Verif.GeomDoubleClose
/-!
# C83 - C86: rounding errors of `Cartesian_Geometry`

Numbers are IEEE 754 binary64 here, every operation is rounded (`Verif.Double`); the exact geometry is that of
`Verif.Geom`. `eps` is `2^-53`.
-/
namespace Dccrg
open Cfg

/-- Specification: parameters are numbers of type `double` which do not overflow or vanish in calculations, and in each
dimension there are at most `2^53` indices. -/
structure Cartesian.Moderate (G : Cartesian) (m : Mapping) : Prop where
  doubles : ∀ d, (Val.fin (G.start d)).IsDouble ∧ (Val.fin (G.len d)).IsDouble
  small : ∀ d, 1 ≤ G.len d * 2 ^ 900
  big : ∀ d, mag (G.start d) + ((m.len d * 2 ^ m.maxLvl.toNat : Nat) : Rat) * G.len d ≤ 2 ^ 1000
  idx : ∀ d, m.len d * 2 ^ m.maxLvl.toNat ≤ 2 ^ 53

/-- Specification: rounding error of one operation on coordinates: `2^-53` times the distance of the start of the grid from
zero plus the length of the grid. -/
def Cartesian.err (G : Cartesian) (m : Mapping) (d : Fin 3) : Rat :=
  1 / 2 ^ 53 * (mag (G.start d) + (m.len d : Rat) * G.len d)

/-- Specification: a computed number is within `e` of an exact one. -/
def Within (e : Rat) (v : Val) (q : Num) : Prop := ∃ x y : Rat, v = .fin x ∧ q = some y ∧ mag (x - y) ≤ e

/-- Specification: the coordinate is in the exact box of the cell and at least `e d` away from its faces. -/
def Cartesian.DeepIn (G : Cartesian) (m : Mapping) (c : Nat) (e : V3 Rat) (y : V3 Rat) : Prop :=
  ∀ d, ∃ lo hi : Rat, G.getMin m c d = some lo ∧ G.getMax m c d = some hi ∧ lo + e d ≤ y d ∧ y d ≤ hi - e d

section
variable {m : Mapping} {G : Cartesian} {per : V3 Bool}

theorem Cartesian.Moderate.safe (h : m.OK) (hG : G.Moderate m) : G.SafeGrid m := fun d =>
  ⟨(hG.doubles d).1.1, (hG.doubles d).2.1, h.pos d, hG.small d, hG.idx d, hG.big d, by
    have := Cartesian.max_le h; omega⟩

theorem Cartesian.err_eq (d : Fin 3) : G.err m d = eps * G.scaleOf m d := rfl

theorem Cartesian.err_pos (h : m.OK) (hG : G.Moderate m) (d : Fin 3) : 0 < G.err m d :=
  Rat.mul_pos eps_pos (Cartesian.scaleOf_pos (hG.safe h) d)

/-- C83: start and lengths are exact; the end is within three errors; center and corners of a cell are finite numbers
within four and five errors and the center is between the corners; both functions for the center return the same. -/
theorem C83_positions (h : m.OK) (hG : G.Moderate m) (d : Fin 3) :
    G.toD.getStart d = .fin (G.getStart d) ∧ Within (3 * G.err m d) (G.toD.getEnd m d) (some (G.getEnd m d)) ∧
    ∀ c, m.ValidId c → G.toD.getLength m c d = (G.getLength m c d).val ∧
      Within (4 * G.err m d) (G.toD.getCenter m c d) (G.getCenter m c d) ∧
      Within (5 * G.err m d) (G.toD.getMin m c d) (G.getMin m c d) ∧
      Within (5 * G.err m d) (G.toD.getMax m c d) (G.getMax m c d) ∧
      (G.toD.getMin m c d).le (G.toD.getCenter m c d) ∧ (G.toD.getCenter m c d).le (G.toD.getMax m c d) ∧
      G.toD.getCenterAt m (m.getLevel c) (m.getIndices c) d = G.toD.getCenter m c d := by
  have hs := hG.safe h
  have he := Cartesian.err_pos h hG d
  rw [Cartesian.err_eq] at *
  refine ⟨by rw [Cartesian.toD_start, Cartesian.getStart_eq], ?_, ?_⟩
  · obtain ⟨b, h1, -, -, h2⟩ := Cartesian.safe_end hs d
    exact ⟨b, _, h1, rfl, by grind⟩
  · intro c hc
    have hv := (Mapping.validId_iff h).1 hc
    obtain ⟨y, e1, e2, e3⟩ := Cartesian.safe_center h hs hv d
    obtain ⟨lo, y', hi, f1, f2, f3, f4, f5, f6, f7⟩ := Cartesian.safe_corners h hs hv d
    rw [e1] at f2
    injection f2 with f2
    subst f2
    have c1 := Cartesian.getCenter_eq h G c d
    have c2 := Cartesian.getMin_eq h G c d
    have c3 := Cartesian.getMax_eq h G c d
    rw [if_pos hv] at c1 c2 c3
    refine ⟨Cartesian.safe_length h hs c d, ⟨y, _, e1, c1, by grind⟩, ⟨lo, _, f1, c2, by grind⟩, ⟨hi, _, f3, c3, by grind⟩, ?_, ?_,
      by rw [e1, e2]⟩
    · rw [f1, e1]; exact f4
    · rw [f3, e1]; exact f5

theorem DeepIn.pos (h : m.OK) {c : Nat} (hc : m.ValidId c) {e y : V3 Rat} (hy : G.DeepIn m c e y) (d : Fin 3) :
    G.pos m d (m.cfg.idx c d) + e d ≤ y d ∧ y d ≤ G.pos m d (m.cfg.idx c d + m.cfg.side c) - e d := by
  have hv := (Mapping.validId_iff h).1 hc
  obtain ⟨lo, hi, h1, h2, h3, h4⟩ := hy d
  rw [Cartesian.getMin_eq h, if_pos hv] at h1
  rw [Cartesian.getMax_eq h, if_pos hv] at h2
  injection h1 with h1
  injection h2 with h2
  subst h1 h2
  exact ⟨h3, h4⟩

theorem DeepIn.grid (h : m.OK) (hG : G.Moderate m) {c : Nat} (hc : m.ValidId c) {e y : V3 Rat} (hy : G.DeepIn m c e y) (d : Fin 3) :
    G.start d + e d ≤ y d ∧ y d ≤ G.getEnd m d - e d := by
  have hv := (Mapping.validId_iff h).1 hc
  have hs := hG.safe h
  obtain ⟨h1, h2⟩ := DeepIn.pos h hc hy d
  have hi := end_le h.wf hv d
  have a1 := (Cartesian.pos_mono (m := m) (Cartesian.safe_len hs) d (m.cfg.n d)).le (Nat.zero_le (m.cfg.idx c d)) (by omega)
  rw [Cartesian.pos_zero, Cartesian.getStart_eq] at a1
  have a2 := (Cartesian.pos_mono (m := m) (Cartesian.safe_len hs) d (m.cfg.n d)).le hi (Nat.le_refl _)
  rw [Cartesian.pos_end] at a2
  exact ⟨by grind, by grind⟩

/-- C83: a coordinate at least three errors inside of a cell is located in the cell. -/
theorem C83_located (h : m.OK) (hG : G.Moderate m) {c : Nat} (hc : m.ValidId c) {x : V3 Rat}
    (hx : G.DeepIn m c (fun d => 3 * G.err m d) x) :
    G.toD.getCell m per (m.getLevel c) (fun d => .fin (x d)) = some c := by
  have hs := hG.safe h
  refine Cartesian.safe_cell h hs (y := x) hc (fun d => ?_) (fun d => ?_) (fun d => ?_)
  · have h1 := DeepIn.grid h hG hc hx d
    have he := Cartesian.err_pos h hG d
    rw [Cartesian.err_eq] at *
    exact Cartesian.safe_real_in hs rfl (by grind) (by grind)
  · have h1 := DeepIn.pos h hc hx d
    rw [Cartesian.err_eq] at h1
    grind
  · have h1 := DeepIn.pos h hc hx d
    rw [Cartesian.err_eq] at h1
    grind

/-- C84, for cells whose length is at least `2^-49` of the distance of the start of the grid from zero plus the length of
the grid: the center of a cell is located in the cell. Missing: smaller cells, for which it is false (`C84_false`). -/
theorem C84_center_partial (h : m.OK) (hG : G.Moderate m) {c : Nat} (hc : m.ValidId c)
    (hl : ∀ d, ∃ l, G.getLength m c d = some l ∧ 1 / 2 ^ 49 * (mag (G.start d) + (m.len d : Rat) * G.len d) ≤ l) :
    G.toD.getCell m per (m.getLevel c) (G.toD.getCenter m c) = some c := by
  have hs := hG.safe h
  have hv := (Mapping.validId_iff h).1 hc
  obtain ⟨y, hy⟩ := choose3 fun d => Cartesian.safe_center h hs hv d
  have e : G.toD.getCenter m c = fun d => .fin (y d) := funext fun d => (hy d).1
  rw [e]
  refine C83_located h hG hc fun d => ?_
  obtain ⟨l, h1, h2⟩ := hl d
  have he := Cartesian.err_pos h hG d
  have e3 := mag_le_iff.1 (hy d).2.2
  have c1 := Cartesian.getCenter_eq h G c d
  have c2 := Cartesian.getMin_eq h G c d
  have c3 := Cartesian.getMax_eq h G c d
  rw [if_pos hv] at c1 c2 c3
  refine ⟨_, _, c2, c3, ?_⟩
  unfold Cartesian.getMin at c2
  unfold Cartesian.getMax at c3
  rw [c1, h1] at c2 c3
  injection c2 with c2
  injection c3 with c3
  rw [show (1 / 2 ^ 49 : Rat) = 16 * (1 / 2 ^ 53) by decide +kernel] at h2
  have h2' : 16 * G.err m d ≤ l := by
    unfold Cartesian.err
    generalize mag (G.start d) + (m.len d : Rat) * G.len d = S at *
    generalize (1 / 2 ^ 53 : Rat) = E at *
    grind
  rw [← Cartesian.err_eq] at e3
  have hL := Cartesian.getLength_eq h G c d
  rw [if_pos hv, h1] at hL
  injection hL with hL
  rw [← hL] at e3 c2 c3
  clear h2 hy hl e
  rw [← c2, ← c3]
  generalize G.pos m d (m.cfg.idx c d) = P at *
  constructor
  · show P + l / 2 - l / 2 + 3 * G.err m d ≤ y d
    grind
  · show y d ≤ P + l / 2 + l / 2 - 3 * G.err m d
    grind

/-- C85, for coordinates away from faces of cells: a coordinate that is `k` periods away from a coordinate in a cell is
located in the cell if that coordinate is at least `10 * (|k| + 1)` errors inside of the cell. Missing: coordinates closer
to faces, for which it is false (`C85_false`). -/
theorem C85_periodic_partial (h : m.OK) (hG : G.Moderate m) {c : Nat} (hc : m.ValidId c) {x : V3 Rat} {k : V3 Int}
    (hk : ∀ d, per d = false → k d = 0) (hx : ∀ d, mag (x d) ≤ 2 ^ 1000)
    (hy : G.DeepIn m c (fun d => 10 * (mag (k d) + 1) * G.err m d) (fun d => x d + (k d : Rat) * ((m.len d : Rat) * G.len d))) :
    G.toD.getCell m per (m.getLevel c) (fun d => .fin (x d)) = some c := by
  have hs := hG.safe h
  have key : ∀ d, ∃ r, G.toD.getRealCoordinate m per (fun d => .fin (x d)) d = .fin r ∧
      mag (r - (x d + (k d : Rat) * ((m.len d : Rat) * G.len d))) ≤ (mag (k d) + 1) * G.err m d * 7 := by
    intro d
    have he := Cartesian.err_pos h hG d
    have hg := DeepIn.grid h hG hc hy d
    have hk0 := mag_nonneg (k d : Rat)
    have hK : 0 ≤ mag (k d : Rat) * G.err m d := Rat.mul_nonneg hk0 (Rat.le_of_lt he)
    replace hg : _ + 10 * (mag (k d : Rat) + 1) * G.err m d ≤ x d + _ ∧ x d + _ ≤ _ - 10 * (mag (k d : Rat) + 1) * G.err m d := hg
    by_cases hp : per d = true
    · obtain ⟨b, e1, e2, e3, e4⟩ := Cartesian.safe_end hs d
      rw [Cartesian.getEnd_eq] at hg
      obtain ⟨r, r1, r2⟩ := (hs d).real_close (k := k d) e3 (hx d) rfl rfl rfl
        (show G.start d + (mag (k d : Rat) + 1) * G.err m d * 10 ≤ _ by grind)
        (show _ ≤ G.start d + (m.len d : Rat) * G.len d - (mag (k d : Rat) + 1) * G.err m d * 10 by grind)
      refine ⟨r, ?_, r2⟩
      unfold CartesianD.getRealCoordinate
      rw [e1, Cartesian.toD_start, hp]
      exact r1
    · have h0 := hk d (by simpa using hp)
      rw [h0] at hg hK ⊢
      have e0 : ((0 : Int) : Rat) = 0 := rfl
      rw [e0, mag_of_nonneg (show (0 : Rat) ≤ 0 by decide)] at *
      refine ⟨x d, Cartesian.safe_real_in hs rfl (by grind) (by rw [← Cartesian.err_eq]; grind), ?_⟩
      rw [mag_of_nonneg (by grind)]
      grind
  obtain ⟨r, hr⟩ := choose3 key
  refine Cartesian.safe_cell h hs (y := r) hc (fun d => (hr d).1) (fun d => ?_) (fun d => ?_)
  all_goals
    have h1 := DeepIn.pos h hc hy d
    have h2 := mag_le_iff.1 (hr d).2
    have he := Cartesian.err_pos h hG d
    have hk0 := mag_nonneg (k d : Rat)
    have hK : 0 ≤ mag (k d : Rat) * G.err m d := Rat.mul_nonneg hk0 (Rat.le_of_lt he)
    replace h1 : _ + 10 * (mag (k d : Rat) + 1) * G.err m d ≤ x d + _ ∧ x d + _ ≤ _ - 10 * (mag (k d : Rat) + 1) * G.err m d := h1
    rw [← Cartesian.err_eq]
    grind

/-- C86, for moderate parameters: indices and cell of all coordinates, infinities and NaN included, are defined. Missing:
other parameters that are accepted, for which it is false (`C86_false`). -/
theorem C86_defined_partial (h : m.OK) (hG : G.Moderate m) (x : V3 Val) :
    (G.toD.getIndices m per x).isSome ∧ ∀ l, (G.toD.getCell m per l x).isSome := by
  have hs := hG.safe h
  have key : ∀ d (v : Val), ∃ k, G.toD.locate m d v = some k := by
    intro d v
    obtain ⟨b, e1, e2, e3, e4⟩ := Cartesian.safe_end hs d
    unfold CartesianD.locate
    rw [e1, Cartesian.toD_start, scaleD_eq (Cartesian.max_le h)]
    split
    · rename_i hv
      cases v with
      | nan => exact absurd hv.1 (by simp [Val.le])
      | inf s =>
        have h1 := hv.1
        have h2 := hv.2
        cases s <;> simp [Val.le] at h1 h2
      | fin y => exact (hs d).index_defined e3 hv.1 hv.2
    · exact ⟨_, rfl⟩
  have h1 : (G.toD.getIndices m per x).isSome := by
    unfold CartesianD.getIndices
    obtain ⟨a, ha⟩ := key 0 (G.toD.getRealCoordinate m per x 0)
    obtain ⟨b, hb⟩ := key 1 (G.toD.getRealCoordinate m per x 1)
    obtain ⟨c, hc⟩ := key 2 (G.toD.getRealCoordinate m per x 2)
    rw [ha, hb, hc]
    rfl
  refine ⟨h1, fun l => ?_⟩
  unfold CartesianD.getCell
  split
  · rfl
  · simpa using h1

end

/-! ## What is false -/

/-- Values of parameters of the geometry. -/
def CartPar.toD (p : CartPar) : CartesianD := { start := fun d => Bits.val (p.start d), len := fun d => Bits.val (p.len d) }

/-- Two unrefined cells along x. -/
def pairM : Mapping := { len := v3 2 1 1, maxLvl := 0, lastCell := 2 }

/-- 49 unrefined cells along x. -/
def rowM : Mapping := { len := v3 49 1 1, maxLvl := 0, lastCell := 49 }

theorem pairM_ok : pairM.OK where
  pos := by rw [forall_fin3]; decide
  nonneg := by decide
  fits := by decide
  last := by decide

theorem rowM_ok : rowM.OK where
  pos := by rw [forall_fin3]; decide
  nonneg := by decide
  fits := by decide
  last := by decide

/-- C83 does not hold closer to faces: with start -1 and length 1 the coordinate `-2^-1000` is inside of the first cell but
is located in the second one. -/
theorem C83_faces_false : ∃ (m : Mapping) (G : Cartesian) (x : V3 Rat), m.OK ∧ G.Moderate m ∧
    (∀ d, (Val.fin (x d)).IsDouble) ∧ m.ValidId 1 ∧ G.DeepIn m 1 (fun _ => 0) x ∧
    G.toD.getCell m (fun _ => false) 0 (fun d => .fin (x d)) = some 2 := by
  refine ⟨pairM, { start := fun _ => -1, len := fun _ => 1 }, v3 (-1 / 2 ^ 1000) (-1 / 2) (-1 / 2), pairM_ok, ?_, ?_, ?_, ?_, ?_⟩
  · refine ⟨fun _ => ⟨⟨⟨-1, 1074, by decide, by decide +kernel +revert⟩, by decide +kernel +revert⟩,
      ⟨⟨1, 1074, by decide, by decide +kernel +revert⟩, by decide +kernel +revert⟩⟩, fun _ => by decide +kernel +revert, ?_, ?_⟩
    · rw [forall_fin3]; decide +kernel
    · rw [forall_fin3]; decide +kernel
  · rw [forall_fin3]
    exact ⟨⟨⟨-1, 74, by decide, by decide +kernel⟩, by decide +kernel⟩, ⟨⟨-1, 1073, by decide, by decide +kernel⟩, by decide +kernel⟩,
      ⟨⟨-1, 1073, by decide, by decide +kernel⟩, by decide +kernel⟩⟩
  · unfold Mapping.ValidId; decide
  · unfold Cartesian.DeepIn
    rw [forall_fin3]
    refine ⟨⟨-1, 0, ?_⟩, ⟨-1, 0, ?_⟩, ⟨-1, 0, ?_⟩⟩ <;> decide +kernel
  · decide +kernel

/-- C84 is false: two cells of length 1 from `2^60` are accepted, the center of the second one is located in the first
one. -/
theorem C84_false : ∃ (m : Mapping) (old p : CartPar), m.OK ∧ (old.set p).1 = true ∧ m.ValidId 2 ∧
    m.getLevel 2 = 0 ∧ p.toD.getCell m (fun _ => false) 0 (p.toD.getCenter m 2) = some 1 := by
  refine ⟨pairM, ⟨fun _ => 0, fun _ => 0x3ff0000000000000⟩, ⟨fun _ => 1083 * 2 ^ 52, fun _ => 0x3ff0000000000000⟩, pairM_ok, ?_⟩
  unfold Mapping.ValidId
  decide +kernel

/-- C85 is false: in a row of 49 cells of length 1 from 0, periodic in all dimensions, the coordinates `-2^-100` and `-2^100`
are in no cell. In exact numbers they are in cell 49 and another cell. -/
theorem C85_false : ∃ (m : Mapping) (x x' : V3 Rat), m.OK ∧ Cartesian.init.Moderate m ∧
    (∀ d, (Val.fin (x d)).IsDouble ∧ (Val.fin (x' d)).IsDouble) ∧
    Cartesian.init.getCell m (fun _ => true) 0 (nums x) = 49 ∧
    Cartesian.init.toD.getCell m (fun _ => true) 0 (fun d => .fin (x d)) = some errorCell ∧
    m.ValidId (Cartesian.init.getCell m (fun _ => true) 0 (nums x')) ∧
    Cartesian.init.toD.getCell m (fun _ => true) 0 (fun d => .fin (x' d)) = some errorCell := by
  refine ⟨rowM, v3 (-1 / 2 ^ 100) (1 / 2) (1 / 2), v3 (-2 ^ 100) (1 / 2) (1 / 2), rowM_ok, ?_, ?_, ?_⟩
  · refine ⟨fun _ => ⟨⟨⟨0, 0, by decide, by decide +kernel +revert⟩, by decide +kernel +revert⟩,
      ⟨⟨1, 1074, by decide, by decide +kernel +revert⟩, by decide +kernel +revert⟩⟩, fun _ => by decide +kernel +revert, ?_, ?_⟩
    · rw [forall_fin3]; decide +kernel
    · rw [forall_fin3]; decide +kernel
  · rw [forall_fin3]
    have h : (Val.fin (1 / 2)).IsDouble := ⟨⟨1, 1073, by decide, by decide +kernel⟩, by decide +kernel⟩
    exact ⟨⟨⟨⟨-1, 974, by decide, by decide +kernel⟩, by decide +kernel⟩, ⟨⟨-1, 1174, by decide, by decide +kernel⟩, by decide +kernel⟩⟩,
      ⟨h, h⟩, ⟨h, h⟩⟩
  · unfold Mapping.ValidId
    decide +kernel

/-- C86 is false: cells of the smallest positive length are accepted and can be refined, but indices of the start of the
grid are then the conversion of NaN to an integer; and cells of length `2^1022` from `-2^1023` are accepted, but indices of
the coordinate `2^1023` are the conversion of infinity to an integer. Both are undefined behavior. -/
theorem C86_false : ∃ (m : Mapping) (old p p' : CartPar), m.OK ∧ (old.set p).1 = true ∧ (old.set p').1 = true ∧
    p.toD.getIndices m (fun _ => false) p.toD.getStart = none ∧
    p'.toD.getIndices m (fun _ => false) (fun _ => .fin (2 ^ 1023)) = none := by
  refine ⟨tinyM, ⟨fun _ => 0, fun _ => 0x3ff0000000000000⟩, ⟨fun _ => 0, fun _ => 1⟩,
    ⟨fun _ => 2 ^ 63 + 2046 * 2 ^ 52, fun _ => 2046 * 2 ^ 52⟩, tinyM_ok, ?_⟩
  decide +kernel

/-! ## Witnesses -/

/-- Start and length are the numbers of type `double` closest to 1/10 and 1/3. -/
def tenthCart : Cartesian := { start := fun _ => 3602879701896397 / 2 ^ 55, len := fun _ => 6004799503160661 / 2 ^ 54 }

theorem tenthCart_moderate : tenthCart.Moderate tinyM := by
  refine ⟨fun _ => ⟨⟨⟨3602879701896397, 1019, by decide, by decide +kernel +revert⟩, by decide +kernel +revert⟩,
    ⟨⟨6004799503160661, 1020, by decide, by decide +kernel +revert⟩, by decide +kernel +revert⟩⟩, fun _ => by decide +kernel +revert, ?_, ?_⟩
  · rw [forall_fin3]; decide +kernel
  · rw [forall_fin3]; decide +kernel

/-- Cell 7 of a refined grid: hypotheses of the theorems, for the center, and for a coordinate 1000 periods away along z. -/
example : tinyM.OK ∧ tenthCart.Moderate tinyM ∧ tinyM.ValidId 7 ∧
    tenthCart.DeepIn tinyM 7 (fun d => 3 * tenthCart.err tinyM d) (v3 (1 / 5) (2 / 5) (1 / 5)) ∧
    (∀ d, ∃ l, tenthCart.getLength tinyM 7 d = some l ∧
      1 / 2 ^ 49 * (mag (tenthCart.start d) + (tinyM.len d : Rat) * tenthCart.len d) ≤ l) ∧
    (∀ d, v3 false false true d = false → v3 (0 : Int) 0 (-1000) d = 0) ∧
    tenthCart.DeepIn tinyM 7 (fun d => 10 * (mag ((v3 0 0 (-1000) d : Int) : Rat) + 1) * tenthCart.err tinyM d)
      (fun d => v3 (1 / 5) (2 / 5) (1 / 5 + 1000 / 3) d + ((v3 0 0 (-1000) d : Int) : Rat) * ((tinyM.len d : Rat) * tenthCart.len d)) := by
  refine ⟨tinyM_ok, tenthCart_moderate, by unfold Mapping.ValidId; decide +kernel, ?_, ?_, by rw [forall_fin3]; decide, ?_⟩
  · unfold Cartesian.DeepIn
    rw [forall_fin3]
    refine ⟨⟨_, _, rfl, rfl, ?_⟩, ⟨_, _, rfl, rfl, ?_⟩, ⟨_, _, rfl, rfl, ?_⟩⟩ <;> decide +kernel
  · rw [forall_fin3]
    refine ⟨⟨_, rfl, ?_⟩, ⟨_, rfl, ?_⟩, ⟨_, rfl, ?_⟩⟩ <;> decide +kernel
  · unfold Cartesian.DeepIn
    rw [forall_fin3]
    refine ⟨⟨_, _, rfl, rfl, ?_⟩, ⟨_, _, rfl, rfl, ?_⟩, ⟨_, _, rfl, rfl, ?_⟩⟩ <;> decide +kernel

/-- The center of cell 7 is rounded and is located in the cell. -/
example : tenthCart.toD.getCenter tinyM 7 0 ≠ (tenthCart.getCenter tinyM 7 0).val ∧
    tenthCart.toD.getCell tinyM (fun _ => false) 1 (tenthCart.toD.getCenter tinyM 7) = some 7 := by decide +kernel

end Dccrg
