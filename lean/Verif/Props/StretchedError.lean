import Verif.StretchedDoubleClose
import Verif.Props.StretchedExact
import Verif.Props.DoubleError
/-!
# C91 - C93: rounding errors of `Stretched_Cartesian_Geometry`

Numbers are IEEE 754 binary64 here, every operation is rounded (`Verif.Double`); the exact geometry is that of
`Verif.Geom`.
-/
namespace Dccrg
open Cfg

/-- Specification: coordinates are finite numbers of type `double`. -/
def Stretched.Doubles (G : Stretched) (m : Mapping) : Prop := ∀ d i, i ≤ m.len d → (Val.fin (G.coord d i)).IsDouble

/-- Specification: coordinates are numbers of type `double` which do not overflow or vanish in calculations. -/
structure Stretched.Moderate (G : Stretched) (m : Mapping) : Prop where
  doubles : G.Doubles m
  small : ∀ d i, i < m.len d → 1 ≤ (G.coord d (i + 1) - G.coord d i) * 2 ^ 900
  big : ∀ d i, i ≤ m.len d → mag (G.coord d i) ≤ 2 ^ 970

/-- Specification: rounding error of one operation in the level 0 cell between the coordinates `q` and `q + 1`: `2^-53`
times its distance from zero plus its length. -/
def Stretched.err0 (G : Stretched) (d : Fin 3) (q : Nat) : Rat :=
  1 / 2 ^ 53 * (mag (G.coord d q) + (G.coord d (q + 1) - G.coord d q))

/-- Specification: rounding error of one operation in the level 0 cell of a cell. -/
def Stretched.err (G : Stretched) (m : Mapping) (c : Nat) (d : Fin 3) : Rat :=
  G.err0 d (m.getIndices c d / 2 ^ m.maxLvl.toNat)

/-- Specification: the coordinate is in the exact box of the cell and at least `e d` away from its faces. -/
def Stretched.DeepIn (G : Stretched) (m : Mapping) (c : Nat) (e : V3 Rat) (y : V3 Rat) : Prop :=
  ∀ d, ∃ lo hi : Rat, G.getMin m c d = some lo ∧ G.getMax m c d = some hi ∧ lo + e d ≤ y d ∧ y d ≤ hi - e d

/-- Specification: the coordinate is at most `e d` outside of the exact box of the cell. -/
def Stretched.NearTo (G : Stretched) (m : Mapping) (c : Nat) (e : V3 Rat) (y : V3 Rat) : Prop :=
  ∀ d, ∃ lo hi : Rat, G.getMin m c d = some lo ∧ G.getMax m c d = some hi ∧ lo - e d ≤ y d ∧ y d ≤ hi + e d

/-- Specification: the coordinate is in a level 0 cell in which cells of the maximum refinement level are so short that
their length is rounded to zero. -/
def Stretched.TooShort (G : Stretched) (m : Mapping) (d : Fin 3) (v : Val) : Prop :=
  ∃ (x : Rat) (q : Nat), v = .fin x ∧ q < m.len d ∧ G.coord d q < x ∧ x ≤ G.coord d (q + 1) ∧
    (G.coord d (q + 1) - G.coord d q) / ((2 ^ m.maxLvl.toNat : Nat) : Rat) ≤ 1 / 2 ^ 1075

section
variable {m : Mapping} {G : Stretched} {per : V3 Bool}

namespace Stretched

theorem Moderate.safe (h : m.OK) (hok : G.Ok m) (hG : G.Moderate m) : G.SafeGrid m := fun d i hi =>
  ⟨(hG.doubles d i (by omega)).1, (hG.doubles d (i + 1) hi).1, coord_lt hok (Nat.lt_succ_self i) hi, hG.small d i hi,
    hG.big d i (by omega), hG.big d (i + 1) hi, by
      have := Cartesian.max_le h
      show m.maxLvl.toNat ≤ 21
      omega⟩

theorem err0_eq (d : Fin 3) (q : Nat) : G.err0 d q = cellErr (G.coord d q) (G.coord d (q + 1)) := rfl

theorem err_eq (h : m.OK) {c : Nat} (hv : m.cfg.Valid c) (d : Fin 3) :
    G.err m c d = cellErr (G.coord d (cell0 m c d)) (G.coord d (cell0 m c d + 1)) := by
  unfold err
  rw [Mapping.getIndices_eq h, if_pos hv]
  rfl

end Stretched

/-- C91: start and end are exact; the length of a cell has a relative error of at most `2^-53`; center and corners of a cell
are finite numbers within five and six errors of the exact ones, and the center is between the corners. -/
theorem C91_positions (h : m.OK) (hok : G.Ok m) (hG : G.Moderate m) (d : Fin 3) :
    G.toD.getStart d = .fin (G.getStart d) ∧ G.toD.getEnd m d = .fin (G.getEnd m d) ∧
    ∀ c, m.ValidId c → (∃ l, G.getLength m c d = some l ∧ Within (1 / 2 ^ 53 * l) (G.toD.getLength m c d) (some l)) ∧
      Within (5 * G.err m c d) (G.toD.getCenter m c d) (G.getCenter m c d) ∧
      Within (6 * G.err m c d) (G.toD.getMin m c d) (G.getMin m c d) ∧
      Within (6 * G.err m c d) (G.toD.getMax m c d) (G.getMax m c d) ∧
      (G.toD.getMin m c d).le (G.toD.getCenter m c d) ∧ (G.toD.getCenter m c d).le (G.toD.getMax m c d) := by
  have hs := hG.safe h hok
  refine ⟨Stretched.toD_start hok d, Stretched.toD_end hok d, fun c hc => ?_⟩
  have hv := (Mapping.validId_iff h).1 hc
  rw [Stretched.err_eq h hv]
  have hE := (hs d _ (Stretched.idx_div_lt h hv d)).err_pos
  replace hE : 0 < cellErr (G.coord d (Stretched.cell0 m c d)) (G.coord d (Stretched.cell0 m c d + 1)) := hE
  obtain ⟨x, y, l1, l2, l3⟩ := Stretched.safe_length h hok hs hv d
  obtain ⟨lo, y', hi, z, e1, e2, e3, e4, e5, e6, e7, e8, e9⟩ := Stretched.safe_center h hok hs hv d
  have c2 := Stretched.getMin_eq h G c d
  have c3 := Stretched.getMax_eq h G c d
  rw [if_pos hv] at c2 c3
  refine ⟨⟨y, l2, x, y, l1, rfl, l3⟩, ⟨y', z, e2, e4, ?_⟩, ⟨lo, _, e1, c2, ?_⟩, ⟨hi, _, e3, c3, ?_⟩, ?_, ?_⟩
  · grind
  · grind
  · grind
  · rw [e1, e2]; exact e5
  · rw [e2, e3]; exact e6

/-- C91: a coordinate at least four errors inside of a cell is located in the cell. -/
theorem C91_located (h : m.OK) (hok : G.Ok m) (hG : G.Moderate m) {c : Nat} (hc : m.ValidId c) {x : V3 Rat}
    (hx : G.DeepIn m c (fun d => 4 * G.err m c d) x) :
    G.toD.getCell m (m.getLevel c) (fun d => .fin (x d)) = .ok c := by
  have hv := (Mapping.validId_iff h).1 hc
  refine Stretched.safe_cell h hok (hG.safe h hok) hc (fun d => ?_) (fun d => ?_)
  all_goals
    obtain ⟨lo, hi, h1, h2, h3, h4⟩ := hx d
    rw [Stretched.getMin_eq h, if_pos hv] at h1
    rw [Stretched.getMax_eq h, if_pos hv] at h2
    injection h1 with h1
    injection h2 with h2
    replace h3 : _ + 4 * G.err m c d ≤ x d := h3
    replace h4 : x d ≤ _ - 4 * G.err m c d := h4
    rw [Stretched.err_eq h hv] at h3 h4
    subst h1 h2
    grind

theorem Stretched.safe_near (h : m.OK) (hok : G.Ok m) (hs : G.SafeGrid m) {d : Fin 3} {q : Nat} (hq : q < m.len d) {x : Rat}
    (h1 : G.coord d q < x) (h2 : x ≤ G.coord d (q + 1) - 4 * G.err0 d q) :
    ∃ p, G.toD.locate m d (.fin x) = .ok p ∧ p < m.cfg.n d ∧ G.pos m d p - 4 * G.err0 d q ≤ x ∧
      x ≤ G.pos m d (p + 1) + 4 * G.err0 d q := by
  have hcell := hs d _ hq
  have hE := hcell.err_pos
  rw [err0_eq] at *
  have hX := pow_pos' m.cfg.maxLvl
  have hW : m.cfg.n d < W := (Mapping.lens_lt h (Nat.le_refl _)).1 d
  have hn : m.cfg.n d = m.len d * 2 ^ m.cfg.maxLvl := rfl
  have hq2 : (q + 1) * 2 ^ m.cfg.maxLvl ≤ m.len d * 2 ^ m.cfg.maxLvl := Nat.mul_le_mul_right _ hq
  rw [Nat.succ_mul] at hq2
  have hl := (hcell.len_close (Nat.le_refl m.cfg.maxLvl)).1
  obtain ⟨t, -, t2, t3⟩ := hcell.pos_close (Nat.le_refl (2 ^ m.cfg.maxLvl))
  have e : (G.coord d (q + 1) - G.coord d q) / ((2 ^ m.cfg.maxLvl : Nat) : Rat) * ((2 ^ m.cfg.maxLvl : Nat) : Rat) =
      G.coord d (q + 1) - G.coord d q := by grind
  rw [e] at t3
  have hstop : ¬ ((Val.fin (G.coord d q)).add ((Val.ofNat (2 ^ m.cfg.maxLvl)).mul
      (.fin (rnd (G.coord d (q + 1) - G.coord d q) / ((2 ^ m.cfg.maxLvl : Nat) : Rat))))).lt (.fin x) := by
    rw [t2]
    show ¬ t < x
    have := (mag_le_iff.1 t3)
    grind
  obtain ⟨r, e1, e2, e3, e4⟩ := toD_locate_stop h hok hq h1 (by grind) hl (by omega) hstop
  have hr : 0 < r := by
    apply Classical.byContradiction
    intro hn
    apply e3
    rw [show r = 0 by omega]
    obtain ⟨t, -, u2, u3⟩ := hcell.dim.off_pos (p := 0) (Nat.zero_le _)
    have e0 : ((0 : Nat) : Rat) = 0 := rfl
    rw [ofNat_exact (by omega), Val.mul_fin, e0, show ∀ y : Rat, 0 * y = 0 from fun y => by grind] at u2
    rw [ofNat_exact (by omega), Val.mul_fin, e0, show ∀ y : Rat, 0 * y = 0 from fun y => by grind]
    have z1 : Val.ofRat 0 = .fin 0 := by decide +kernel
    rw [z1, Val.add_fin, show G.coord d q + 0 = G.coord d q by grind, ofRat_bound (by
      have := hcell.bigLo
      have : (2 : Rat) ^ 970 ≤ 2 ^ 1001 := by decide +kernel
      generalize (2 : Rat) ^ 970 = P at *
      generalize (2 : Rat) ^ 1001 = Q at *
      grind), rnd_exact hcell.lo]
    exact h1
  obtain ⟨u, -, u2, u3⟩ := hcell.pos_close (r := r - 1) (by omega)
  obtain ⟨w, -, w2, w3⟩ := hcell.pos_close (r := r) (by omega)
  have hlt := e2 (r - 1) (by omega)
  rw [u2] at hlt
  rw [w2] at e3
  replace hlt : u < x := hlt
  replace e3 : ¬ w < x := e3
  refine ⟨_, e4, ?_⟩
  rw [wsub_eq (by omega) (by omega), wadd_eq (by omega), show q * 2 ^ m.cfg.maxLvl + (r - 1) + 1 = q * 2 ^ m.cfg.maxLvl + r by omega,
    pos_in G m d (by omega), pos_in G m d (by omega)]
  have m1 := mag_le_iff.1 u3
  have m2 := mag_le_iff.1 w3
  refine ⟨by omega, ?_, ?_⟩
  · grind
  · grind

/-- C91, closer to faces: a coordinate in the grid that is not within four errors before the end of a level 0 cell has
indices of a cell of the maximum refinement level whose box it is inside of or at most four errors away from. -/
theorem C91_near (h : m.OK) (hok : G.Ok m) (hG : G.Moderate m) {x : V3 Rat} {q : V3 Nat} (hq : ∀ d, q d < m.len d)
    (hx : ∀ d, G.coord d (q d) < x d ∧ x d ≤ G.coord d (q d + 1) - 4 * G.err0 d (q d)) :
    ∃ p, G.toD.getIndices m (fun d => .fin (x d)) = .ok p ∧ m.InsideGrid p ∧
      G.NearTo m (m.cellFromIndices p m.maxLvl) (fun d => 4 * G.err0 d (q d)) x := by
  have hs := hG.safe h hok
  obtain ⟨p, hp⟩ := choose3 fun d => Stretched.safe_near h hok hs (hq d) (hx d).1 (hx d).2
  have hin : m.InsideGrid p := fun d => (hp d).2.1
  refine ⟨p, ?_, hin, fun d => ?_⟩
  · unfold StretchedD.getIndices
    rw [(hp 0).1, (hp 1).1, (hp 2).1]
    exact congrArg Res.ok (v3_of p)
  · obtain ⟨r1, r2, r3, r4, r5, -⟩ := Mapping.C02_index_roundtrip h (p := p) hin h.nonneg (Int.le_refl _)
    have hv := (Mapping.validId_iff h).1 r1
    have hside : m.cfg.side (m.cellFromIndices p m.maxLvl) = 1 := by
      rw [Mapping.getLevel_eq h, if_pos hv] at r2
      have hm := Mapping.cfg_max h
      unfold side
      rw [show m.cfg.maxLvl - m.cfg.lvl (m.cellFromIndices p m.maxLvl) = 0 by omega, Nat.pow_zero]
    have hb := (Mapping.inside_iff h r1).1 r5 d
    rw [hside] at hb
    have e : m.cfg.idx (m.cellFromIndices p m.maxLvl) d = p d := by omega
    have c2 := Stretched.getMin_eq h G (m.cellFromIndices p m.maxLvl) d
    have c3 := Stretched.getMax_eq h G (m.cellFromIndices p m.maxLvl) d
    rw [if_pos hv, e] at c2
    rw [if_pos hv, e, hside] at c3
    exact ⟨_, _, c2, c3, (hp d).2.2⟩

/-- C92, for cells whose length is at least 32 errors, or `2^-48` of the distance of their level 0 cell from zero plus its length: the
center of a cell is located in the cell. Missing: smaller cells, for which it is false (`C92_false`). -/
theorem C92_center_partial (h : m.OK) (hok : G.Ok m) (hG : G.Moderate m) {c : Nat} (hc : m.ValidId c)
    (hl : ∀ d, ∃ l, G.getLength m c d = some l ∧ 32 * G.err m c d ≤ l) :
    G.toD.getCell m (m.getLevel c) (G.toD.getCenter m c) = .ok c := by
  have hs := hG.safe h hok
  have hv := (Mapping.validId_iff h).1 hc
  have key : ∀ d, ∃ y, G.toD.getCenter m c d = .fin y ∧ ∃ lo hi : Rat, G.getMin m c d = some lo ∧ G.getMax m c d = some hi ∧
      lo + 4 * G.err m c d ≤ y ∧ y ≤ hi - 4 * G.err m c d := by
    intro d
    obtain ⟨lo, y, hi, z, -, e2, -, e4, -, -, e7, -, -⟩ := Stretched.safe_center h hok hs hv d
    have hE := (hs d _ (Stretched.idx_div_lt h hv d)).err_pos
    replace hE : 0 < cellErr (G.coord d (Stretched.cell0 m c d)) (G.coord d (Stretched.cell0 m c d + 1)) := hE
    obtain ⟨l, h1, h2⟩ := hl d
    rw [← Stretched.err_eq h hv] at e7 hE
    refine ⟨y, e2, z - l / 2, z + l / 2, ?_, ?_, ?_⟩
    · unfold Stretched.getMin; rw [e4, h1]; rfl
    · unfold Stretched.getMax; rw [e4, h1]; rfl
    · have := mag_le_iff.1 e7
      constructor <;> grind
  obtain ⟨y, hy⟩ := choose3 key
  have e : G.toD.getCenter m c = fun d => .fin (y d) := funext fun d => (hy d).1
  rw [e]
  exact C91_located h hok hG hc fun d => (hy d).2

namespace Stretched

/-- Location of one coordinate after the start of the grid either returns or never does. -/
theorem locate_total (h : m.OK) (hok : G.Ok m) (hG : G.Doubles m) {d : Fin 3} {v : Val} (hv : v ≠ .fin (G.getStart d)) :
    (G.TooShort m d v ∧ G.toD.locate m d v = .hangs) ∨ (¬ G.TooShort m d v ∧ ∃ p, G.toD.locate m d v = .ok p) := by
  by_cases ho : ∀ x, v = .fin x → x < G.getStart d ∨ G.getEnd m d < x
  · right
    refine ⟨?_, _, toD_locate_outside hok ho⟩
    rintro ⟨x, q, rfl, h1, h2, h3, -⟩
    have hle : ∀ i j, i ≤ j → j ≤ m.len d → G.coord d i ≤ G.coord d j := by
      intro i j hij hj
      by_cases e : i = j
      · subst e; exact Rat.le_refl
      · exact Rat.le_of_lt (coord_lt hok (by omega) hj)
    have a1 := hle 0 q (Nat.zero_le _) (by omega)
    have a2 := hle (q + 1) (m.len d) (by omega) (by omega)
    have := ho x rfl
    rw [getStart_eq, getEnd_eq] at this
    grind
  · obtain ⟨x, rfl, hx⟩ : ∃ x, v = .fin x ∧ ¬ (x < G.getStart d ∨ G.getEnd m d < x) := by
      apply Classical.byContradiction
      intro hn
      exact ho fun x hx => Classical.byContradiction fun h => hn ⟨x, hx, h⟩
    have hne : x ≠ G.getStart d := fun e => hv (by rw [e])
    obtain ⟨i, hi, -, j3, j4⟩ := locate_cell hok (d := d) (x := x) (by grind) (by grind)
    have hM : m.maxLvl.toNat ≤ 21 := by have := Cartesian.max_le h; omega
    have hX := pow_pos' m.maxLvl.toNat
    have hda := hG d i (by omega)
    have hdb := hG d (i + 1) hi
    have hab := coord_lt hok (d := d) (Nat.lt_succ_self i) hi
    have hiff : (G.coord d (i + 1) - G.coord d i) / ((2 ^ m.maxLvl.toNat : Nat) : Rat) ≤ 1 / 2 ^ 1075 ↔
        (G.coord d (i + 1) - G.coord d i) * 2 ^ 1075 ≤ ((2 ^ m.maxLvl.toNat : Nat) : Rat) := by
      have hP : (0 : Rat) < 2 ^ 1075 := by decide +kernel
      generalize (2 : Rat) ^ 1075 = P at *
      generalize ((2 ^ m.maxLvl.toNat : Nat) : Rat) = X at *
      generalize G.coord d (i + 1) - G.coord d i = l
      have hXP := Rat.mul_pos hX hP
      have f1 : l / X * (X * P) = l * P := by grind
      have f2 : 1 / P * (X * P) = X := by grind
      constructor
      · intro hh
        have := Rat.mul_le_mul_of_nonneg_right hh (Rat.le_of_lt hXP)
        rw [f1, f2] at this
        exact this
      · intro hh
        apply Classical.byContradiction
        intro hn
        have := Rat.mul_lt_mul_of_pos_right (show 1 / P < l / X by grind) hXP
        rw [f1, f2] at this
        grind
    by_cases hs : (G.coord d (i + 1) - G.coord d i) / ((2 ^ m.maxLvl.toNat : Nat) : Rat) ≤ 1 / 2 ^ 1075
    · left
      refine ⟨⟨x, i, rfl, hi, j3, j4, hs⟩, toD_locate_hangs h hok hi j3 j4 rfl fun r hr => ?_⟩
      exact search_hangs hda hdb hab j3 hM (hiff.1 hs) hr
    · right
      constructor
      · rintro ⟨y, q, e, q1, q2, q3, q4⟩
        injection e with e
        subst e
        have := cell_unique hok hi q1 j3 j4 q2 q3
        subst this
        exact hs q4
      · obtain ⟨j, k1, k2⟩ := search_stops hda hdb hab j4 hM (Rat.not_le.1 fun z => hs (hiff.2 z))
        have hj : j < W := by
          have := Nat.pow_le_pow_right (n := 2) (by omega) (show m.maxLvl.toNat + 2 ≤ 23 by omega)
          have : 2 ^ 23 < W := by decide
          omega
        obtain ⟨r, -, -, -, e⟩ := toD_locate_stop h hok hi j3 j4 rfl hj k2
        exact ⟨_, e⟩

end Stretched

/-- C93, what happens to coordinates, infinities and NaN included, that are not at the start of the grid in any dimension:
the program hangs in exactly those that are in a level 0 cell with too short cells in some dimension, in all others there
is a result. -/
theorem C93_hangs (h : m.OK) (hok : G.Ok m) (hG : G.Doubles m) {x : V3 Val} (hx : ∀ d, x d ≠ .fin (G.getStart d)) :
    ((∃ d, G.TooShort m d (x d)) ∧ G.toD.getIndices m x = .hangs ∧
      ∀ l, 0 ≤ l → l ≤ m.maxLvl → G.toD.getCell m l x = .hangs) ∨
    ((∀ d, ¬ G.TooShort m d (x d)) ∧ (∃ p, G.toD.getIndices m x = .ok p) ∧ ∀ l, ∃ c, G.toD.getCell m l x = .ok c) := by
  have key : ((∃ d, G.TooShort m d (x d)) ∧ G.toD.getIndices m x = .hangs) ∨
      ((∀ d, ¬ G.TooShort m d (x d)) ∧ (∃ p, G.toD.getIndices m x = .ok p)) := by
    unfold StretchedD.getIndices
    rcases Stretched.locate_total h hok hG (hx 0) with ⟨s0, e0⟩ | ⟨s0, p0, e0⟩
    · rw [e0]; exact .inl ⟨⟨0, s0⟩, rfl⟩
    · rcases Stretched.locate_total h hok hG (hx 1) with ⟨s1, e1⟩ | ⟨s1, p1, e1⟩
      · rw [e0, e1]; exact .inl ⟨⟨1, s1⟩, rfl⟩
      · rcases Stretched.locate_total h hok hG (hx 2) with ⟨s2, e2⟩ | ⟨s2, p2, e2⟩
        · rw [e0, e1, e2]; exact .inl ⟨⟨2, s2⟩, rfl⟩
        · rw [e0, e1, e2]
          exact .inr ⟨by rw [forall_fin3]; exact ⟨s0, s1, s2⟩, _, rfl⟩
  rcases key with ⟨k1, k2⟩ | ⟨k1, p, k2⟩
  · refine .inl ⟨k1, k2, fun l h0 h1 => ?_⟩
    unfold StretchedD.getCell
    rw [if_neg (by omega), k2]
    rfl
  · refine .inr ⟨k1, ⟨p, k2⟩, fun l => ?_⟩
    unfold StretchedD.getCell
    split
    · exact ⟨_, rfl⟩
    · rw [k2]; exact ⟨_, rfl⟩

/-- C93, for coordinates not at the start of the grid in any dimension, and level 0 cells of length at least `2^-1050`:
there always is a result. Missing: coordinates at the start of the grid (undefined behavior, `C93_start`), and shorter
level 0 cells, in which it can hang (`C93_false`). -/
theorem C93_returns_partial (h : m.OK) (hok : G.Ok m) (hG : G.Doubles m)
    (hl : ∀ d q, q < m.len d → 1 / 2 ^ 1050 ≤ G.coord d (q + 1) - G.coord d q)
    {x : V3 Val} (hx : ∀ d, x d ≠ .fin (G.getStart d)) :
    (∃ p, G.toD.getIndices m x = .ok p) ∧ ∀ l, ∃ c, G.toD.getCell m l x = .ok c := by
  rcases C93_hangs h hok hG hx with ⟨⟨d, y, q, -, q1, -, -, q2⟩, -⟩ | ⟨-, h2⟩
  · exfalso
    have h1 := hl d q q1
    have hM : m.maxLvl.toNat ≤ 21 := by have := Cartesian.max_le h; omega
    have hX := pow_pos' m.maxLvl.toNat
    have h3 : ((2 ^ m.maxLvl.toNat : Nat) : Rat) ≤ ((2 ^ 21 : Nat) : Rat) :=
      Rat.natCast_le_natCast.2 (Nat.pow_le_pow_right (by omega) hM)
    have h4 := Rat.mul_le_mul_of_nonneg_right q2 (Rat.le_of_lt hX)
    have h5 := Rat.mul_le_mul_of_nonneg_left h3 (show (0 : Rat) ≤ 1 / 2 ^ 1075 by decide +kernel)
    have h6 : (1 : Rat) / 2 ^ 1075 * ((2 ^ 21 : Nat) : Rat) < 1 / 2 ^ 1050 := by decide +kernel
    generalize (1 : Rat) / 2 ^ 1050 = A at *
    generalize (1 : Rat) / 2 ^ 1075 = B at *
    generalize ((2 ^ m.maxLvl.toNat : Nat) : Rat) = X at *
    generalize ((2 ^ 21 : Nat) : Rat) = Y at *
    generalize G.coord d (q + 1) - G.coord d q = l at *
    have e : l / X * X = l := by grind
    grind
  · exact h2

/-- C93 at the start of the grid: undefined behavior along x; in other dimensions, unless it hangs before that. -/
theorem C93_start (h : m.OK) (hok : G.Ok m) {x : V3 Val} (hx : x 0 = .fin (G.getStart 0)) :
    G.toD.getIndices m x = .undefined ∧ ∀ l, 0 ≤ l → l ≤ m.maxLvl → G.toD.getCell m l x = .undefined := by
  have e : G.toD.getIndices m x = .undefined := by
    unfold StretchedD.getIndices
    rw [hx, Stretched.toD_locate_start h hok]
    rfl
  refine ⟨e, fun l h0 h1 => ?_⟩
  unfold StretchedD.getCell
  rw [if_neg (by omega), e]
  rfl

end

/-! ## What is false -/

/-- C92 is false: coordinates `2^60`, `2^60 + 256` and `2^60 + 512` along x are accepted. The center of cell 1 is located
with undefined behavior, as it is rounded to the start of the grid. The center of cell 5 is located in cell 4. -/
theorem C92_false : ∃ (m : Mapping) (old p : StretchPar), m.OK ∧ (StretchPar.set m old p).1 = true ∧
    m.ValidId 1 ∧ m.getLevel 1 = 0 ∧ p.toD.getCell m 0 (p.toD.getCenter m 1) = .undefined ∧
    m.ValidId 5 ∧ m.getLevel 5 = 1 ∧ p.toD.getCell m 1 (p.toD.getCenter m 5) = .ok 4 := by
  refine ⟨tinyM, ⟨fun _ => []⟩, ⟨v3 [1083 * 2 ^ 52, 1083 * 2 ^ 52 + 1, 1083 * 2 ^ 52 + 2] [0, 1025 * 2 ^ 52] [0, 1025 * 2 ^ 52]⟩,
    tinyM_ok, ?_⟩
  unfold Mapping.ValidId
  decide +kernel

/-- Coordinates that are the smallest positive number apart along x. -/
def denseStretched : Stretched := { coords := v3 [0, 1 / 2 ^ 1074, 2 / 2 ^ 1074] [0, 4] [0, 4] }

/-- The same as representations of `double`. -/
def densePar : StretchPar := ⟨v3 [0, 1, 2] [0, 1025 * 2 ^ 52] [0, 1025 * 2 ^ 52]⟩

theorem densePar_toD : densePar.toD = denseStretched.toD := by
  unfold StretchPar.toD Stretched.toD
  congr 1
  funext d
  revert d
  rw [forall_fin3]
  decide +kernel

theorem denseStretched_ok : denseStretched.Ok tinyM := by
  unfold Stretched.Ok
  rw [forall_fin3]
  refine ⟨⟨rfl, ?_⟩, ⟨rfl, ?_⟩, ⟨rfl, ?_⟩⟩ <;> decide +kernel

theorem denseStretched_doubles : denseStretched.Doubles tinyM := by
  unfold Stretched.Doubles
  have h0 : (Val.fin 0).IsDouble := ⟨⟨0, 0, by decide, by decide +kernel⟩, by decide +kernel⟩
  have h4 : (Val.fin 4).IsDouble := ⟨⟨1, 1076, by decide, by decide +kernel⟩, by decide +kernel⟩
  rw [forall_fin3]
  refine ⟨fun i hi => ?_, fun i hi => ?_, fun i hi => ?_⟩
  · have hi' : i ≤ 2 := hi
    rcases (show i = 0 ∨ i = 1 ∨ i = 2 by omega) with rfl | rfl | rfl
    · exact h0
    · exact ⟨⟨1, 0, by decide, by decide +kernel⟩, by decide +kernel⟩
    · exact ⟨⟨1, 1, by decide, by decide +kernel⟩, by decide +kernel⟩
  · have hi' : i ≤ 1 := hi
    rcases (show i = 0 ∨ i = 1 by omega) with rfl | rfl
    · exact h0
    · exact h4
  · have hi' : i ≤ 1 := hi
    rcases (show i = 0 ∨ i = 1 by omega) with rfl | rfl
    · exact h0
    · exact h4

/-- C93 is false for accepted coordinates: the program hangs in the end of the grid if coordinates are the smallest positive
number apart; the end of the grid is in no cell with coordinates -2, -1 and `2^-60`; and a coordinate between 1 and the last
coordinate is located in the level 0 cell from 0 to 1 if the last coordinate is infinity. -/
theorem C93_false : ∃ (m : Mapping) (old p p' p'' : StretchPar), m.OK ∧ (StretchPar.set m old p).1 = true ∧
    (StretchPar.set m old p').1 = true ∧ (StretchPar.set m old p'').1 = true ∧
    p.toD.getCell m 0 (p.toD.getEnd m) = .hangs ∧ p'.toD.getCell m 0 (p'.toD.getEnd m) = .ok errorCell ∧
    p''.toD.getCell m 0 (fun d => .fin (v3 5 1 1 d)) = .ok 1 ∧ p''.toD.coord 0 1 = .fin 1 := by
  refine ⟨tinyM, ⟨fun _ => []⟩, densePar,
    ⟨v3 [2 ^ 63 + 1024 * 2 ^ 52, 2 ^ 63 + 1023 * 2 ^ 52, 963 * 2 ^ 52] [0, 1025 * 2 ^ 52] [0, 1025 * 2 ^ 52]⟩,
    ⟨v3 [0, 1023 * 2 ^ 52, 2047 * 2 ^ 52] [0, 1025 * 2 ^ 52] [0, 1025 * 2 ^ 52]⟩,
    tinyM_ok, by decide +kernel, by decide +kernel, by decide +kernel, ?_, by decide +kernel, by decide +kernel, by decide +kernel⟩
  rw [densePar_toD]
  rcases C93_hangs tinyM_ok denseStretched_ok denseStretched_doubles (x := denseStretched.toD.getEnd tinyM)
    (by rw [forall_fin3]; decide +kernel) with ⟨-, -, h3⟩ | ⟨h1, -⟩
  · exact h3 0 (by decide) (by decide)
  · exfalso
    apply h1 0
    refine ⟨2 / 2 ^ 1074, 1, ?_⟩
    decide +kernel

/-! ## Witnesses -/

/-- Coordinates are the numbers of type `double` closest to 1/10, 1/3 and 7/10 along x and 1/10 and 1/3 in other
dimensions. -/
def tenthStretched : Stretched :=
  { coords := v3 [3602879701896397 / 2 ^ 55, 6004799503160661 / 2 ^ 54, 3152519739159347 / 2 ^ 52]
      [3602879701896397 / 2 ^ 55, 6004799503160661 / 2 ^ 54] [3602879701896397 / 2 ^ 55, 6004799503160661 / 2 ^ 54] }

theorem tenthStretched_ok : tenthStretched.Ok tinyM := by
  unfold Stretched.Ok
  rw [forall_fin3]
  refine ⟨⟨rfl, ?_⟩, ⟨rfl, ?_⟩, ⟨rfl, ?_⟩⟩ <;> decide +kernel

theorem tenthStretched_moderate : tenthStretched.Moderate tinyM := by
  have h1 : (Val.fin (3602879701896397 / 2 ^ 55)).IsDouble := ⟨⟨3602879701896397, 1019, by decide, by decide +kernel⟩, by decide +kernel⟩
  have h2 : (Val.fin (6004799503160661 / 2 ^ 54)).IsDouble := ⟨⟨6004799503160661, 1020, by decide, by decide +kernel⟩, by decide +kernel⟩
  have h3 : (Val.fin (3152519739159347 / 2 ^ 52)).IsDouble := ⟨⟨3152519739159347, 1022, by decide, by decide +kernel⟩, by decide +kernel⟩
  refine ⟨?_, ?_, ?_⟩
  · unfold Stretched.Doubles
    rw [forall_fin3]
    refine ⟨fun i hi => ?_, fun i hi => ?_, fun i hi => ?_⟩
    · have hi' : i ≤ 2 := hi
      rcases (show i = 0 ∨ i = 1 ∨ i = 2 by omega) with rfl | rfl | rfl
      · exact h1
      · exact h2
      · exact h3
    all_goals
      have hi' : i ≤ 1 := hi
      rcases (show i = 0 ∨ i = 1 by omega) with rfl | rfl
      · exact h1
      · exact h2
  · rw [forall_fin3]
    refine ⟨fun i hi => ?_, fun i hi => ?_, fun i hi => ?_⟩
    · have hi' : i < 2 := hi
      rcases (show i = 0 ∨ i = 1 by omega) with rfl | rfl <;> decide +kernel
    all_goals
      have hi' : i < 1 := hi
      obtain rfl : i = 0 := by omega
      decide +kernel
  · rw [forall_fin3]
    refine ⟨fun i hi => ?_, fun i hi => ?_, fun i hi => ?_⟩
    · have hi' : i ≤ 2 := hi
      rcases (show i = 0 ∨ i = 1 ∨ i = 2 by omega) with rfl | rfl | rfl <;> decide +kernel
    all_goals
      have hi' : i ≤ 1 := hi
      rcases (show i = 0 ∨ i = 1 by omega) with rfl | rfl <;> decide +kernel

/-- Cell 5 of a refined grid: hypotheses of the theorems. -/
example : tinyM.OK ∧ tenthStretched.Ok tinyM ∧ tenthStretched.Moderate tinyM ∧ tinyM.ValidId 5 ∧
    tenthStretched.DeepIn tinyM 5 (fun d => 4 * tenthStretched.err tinyM 5 d) (v3 (2 / 5) (1 / 5) (1 / 5)) ∧
    (∀ d, ∃ l, tenthStretched.getLength tinyM 5 d = some l ∧ 32 * tenthStretched.err tinyM 5 d ≤ l) ∧
    (∀ d, tenthStretched.coord d (v3 1 0 0 d) < v3 (2 / 5) (1 / 5) (1 / 5) d ∧ v3 (2 / 5) (1 / 5) (1 / 5) d ≤
      tenthStretched.coord d (v3 1 0 0 d + 1) - 4 * tenthStretched.err0 d (v3 1 0 0 d)) ∧
    (∀ d q, q < tinyM.len d → 1 / 2 ^ 1050 ≤ tenthStretched.coord d (q + 1) - tenthStretched.coord d q) ∧
    (∀ d, (Val.inf true) ≠ .fin (tenthStretched.getStart d)) := by
  refine ⟨tinyM_ok, tenthStretched_ok, tenthStretched_moderate, by unfold Mapping.ValidId; decide +kernel, ?_, ?_, ?_, ?_, ?_⟩
  · unfold Stretched.DeepIn
    rw [forall_fin3]
    refine ⟨⟨_, _, rfl, rfl, ?_⟩, ⟨_, _, rfl, rfl, ?_⟩, ⟨_, _, rfl, rfl, ?_⟩⟩ <;> decide +kernel
  · rw [forall_fin3]
    refine ⟨⟨_, rfl, ?_⟩, ⟨_, rfl, ?_⟩, ⟨_, rfl, ?_⟩⟩ <;> decide +kernel
  · rw [forall_fin3]; decide +kernel
  · rw [forall_fin3]
    refine ⟨fun i hi => ?_, fun i hi => ?_, fun i hi => ?_⟩
    · have hi' : i < 2 := hi
      rcases (show i = 0 ∨ i = 1 by omega) with rfl | rfl <;> decide +kernel
    all_goals
      have hi' : i < 1 := hi
      obtain rfl : i = 0 := by omega
      decide +kernel
  · intro d hd; cases hd

/-- The center of cell 5 is rounded and is located in the cell. -/
example : tenthStretched.toD.getCenter tinyM 5 0 ≠ (tenthStretched.getCenter tinyM 5 0).val ∧
    tenthStretched.toD.getCell tinyM 1 (tenthStretched.toD.getCenter tinyM 5) = .ok 5 := by decide +kernel

end Dccrg
