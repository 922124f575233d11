import Verif.GeomStretched
import Verif.Props.Mapping
import Verif.Props.Grid
/-!
# C44, C46: positions and sizes of cells, coordinates of periodic grids

Coordinates are exact rational numbers, see `Verif.Geom`; `none` is NaN.
-/
namespace Dccrg
open Cfg

/-- Answers of a geometry class. -/
structure Geo where
  start : V3 Rat
  fin : V3 Rat
  length : Nat → V3 Num
  center : Nat → V3 Num
  min : Nat → V3 Num
  max : Nat → V3 Num

/-- Answers of `Cartesian_Geometry`. -/
def Cartesian.geo (G : Cartesian) (m : Mapping) : Geo :=
  ⟨G.getStart, G.getEnd m, G.getLength m, G.getCenter m, G.getMin m, G.getMax m⟩

/-- Answers of `No_Geometry`. -/
def NoGeometry.geo (m : Mapping) : Geo :=
  ⟨NoGeometry.getStart, NoGeometry.getEnd m, NoGeometry.getLength m, NoGeometry.getCenter m,
    NoGeometry.getMin m, NoGeometry.getMax m⟩

/-- Answers of `Stretched_Cartesian_Geometry`. -/
def Stretched.geo (G : Stretched) (m : Mapping) : Geo :=
  ⟨G.getStart, G.getEnd m, G.getLength m, G.getCenter m, G.getMin m, G.getMax m⟩

/-- Specification: every cell that the mapping can represent is a non-empty box in the grid, centers and lengths of
cells are those of boxes, and the boxes of children divide the box of their parent. -/
structure Geo.Consistent (m : Mapping) (G : Geo) : Prop where
  box : ∀ c, m.ValidId c → ∀ d, ∃ lo hi, G.min c d = some lo ∧ G.max c d = some hi ∧
    G.start d ≤ lo ∧ lo < hi ∧ hi ≤ G.fin d ∧
    G.length c d = some (hi - lo) ∧ G.center c d = some ((lo + hi) / 2)
  nan : ∀ c, ¬ m.ValidId c → ∀ d, G.min c d = none ∧ G.max c d = none ∧ G.length c d = none ∧ G.center c d = none
  halves : ∀ c, m.ValidId c → m.getLevel c < m.maxLvl → ∀ k ∈ m.allChildren c, ∀ d,
    G.length k d = (G.length c d).map (· / 2)
  children : ∀ c, m.ValidId c → m.getLevel c < m.maxLvl → ∀ x,
    (InBoxQ (G.min c) (G.max c) x ↔ ∃ k ∈ m.allChildren c, InBoxQ (G.min k) (G.max k) x) ∧
    ∀ k ∈ m.allChildren c, ∀ k' ∈ m.allChildren c,
      InBoxQ (G.min k) (G.max k) x → InBoxQ (G.min k') (G.max k') x → k = k'

/-- Specification: the boxes of existing cells cover the grid, and overlap at most on their sides. -/
structure Geo.Tiles (G : Geo) (E : Nat → Bool) : Prop where
  cover : ∀ x : V3 Rat, (∀ d, G.start d ≤ x d ∧ x d ≤ G.fin d) → ∃ c, E c = true ∧ InBoxC (G.min c) (G.max c) x
  within : ∀ c x, E c = true → InBoxC (G.min c) (G.max c) x → ∀ d, G.start d ≤ x d ∧ x d ≤ G.fin d
  one : ∀ x : V3 Rat, (∀ d, G.start d ≤ x d ∧ x d < G.fin d) →
    ∃ c, E c = true ∧ InBoxQ (G.min c) (G.max c) x ∧ ∀ b, E b = true → InBoxQ (G.min b) (G.max b) x → b = c
  disjoint : ∀ b c x, E b = true → E c = true → InBoxO (G.min b) (G.max b) x → InBoxO (G.min c) (G.max c) x → b = c

section
variable {m : Mapping} {per : V3 Bool} {hood : Nat}

theorem grid_wf (h : m.OK) : (m.grid per hood).WF := h.pos

theorem grid_base (l : Nat) : (m.grid per hood).base l = m.cfg.base l := by
  induction l with
  | zero => rfl
  | succ l ih => show (m.grid per hood).base l + _ = m.cfg.base l + _; rw [ih]; rfl

theorem grid_last : (m.grid per hood).last = m.cfg.last := grid_base _

theorem grid_lvlFrom (c f l : Nat) : (m.grid per hood).lvlFrom c f l = m.cfg.lvlFrom c f l := by
  induction f generalizing l with
  | zero => rfl
  | succ f ih => unfold lvlFrom; rw [grid_base, ih]

theorem grid_lvl (c : Nat) : (m.grid per hood).lvl c = m.cfg.lvl c := grid_lvlFrom _ _ _

theorem grid_side (c : Nat) : (m.grid per hood).side c = m.cfg.side c := by
  unfold side; rw [grid_lvl]; rfl

theorem grid_idx (c : Nat) : (m.grid per hood).idx c = m.cfg.idx c := by
  unfold idx; simp only []; rw [grid_lvl, grid_base]; rfl

theorem grid_valid {c : Nat} : (m.grid per hood).Valid c ↔ m.cfg.Valid c := by
  unfold Valid; rw [grid_last]

theorem grid_mem {p : V3 Nat} {c : Nat} : (m.grid per hood).Mem p c ↔ m.cfg.Mem p c := by
  unfold Mem; rw [grid_idx, grid_side]

theorem grid_tiled {E : Nat → Bool} : Tiled (m.grid per hood) E ↔ Tiled m.cfg E := by
  constructor
  · intro h
    refine ⟨fun c hc => grid_valid.1 (h.valid c hc), fun p hp => ?_, fun p a b ha hb h1 h2 =>
      h.unique p a b ha hb (grid_mem.2 h1) (grid_mem.2 h2)⟩
    obtain ⟨c, h1, h2⟩ := h.cover p hp
    exact ⟨c, h1, grid_mem.1 h2⟩
  · intro h
    refine ⟨fun c hc => grid_valid.2 (h.valid c hc), fun p hp => ?_, fun p a b ha hb h1 h2 =>
      h.unique p a b ha hb (grid_mem.1 h1) (grid_mem.1 h2)⟩
    obtain ⟨c, h1, h2⟩ := h.cover p hp
    exact ⟨c, h1, grid_mem.2 h2⟩

variable {pos : Fin 3 → Nat → Rat} {G : Geo}

theorem consistent_of (h : m.OK) (hM : Mesh m.cfg pos G.min G.max) (h0 : ∀ d, pos d 0 = G.start d)
    (h1 : ∀ d, pos d (m.cfg.n d) = G.fin d)
    (hl : ∀ c, m.cfg.Valid c → ∀ d, G.length c d = some (pos d (m.cfg.idx c d + m.cfg.side c) - pos d (m.cfg.idx c d)))
    (hc : ∀ c, m.cfg.Valid c → ∀ d,
      G.center c d = some ((pos d (m.cfg.idx c d) + pos d (m.cfg.idx c d + m.cfg.side c)) / 2))
    (hn : ∀ c, ¬ m.cfg.Valid c → ∀ d, G.min c d = none ∧ G.max c d = none ∧ G.length c d = none ∧ G.center c d = none)
    (hh : ∀ c, m.cfg.Valid c → m.cfg.lvl c < m.cfg.maxLvl → ∀ k ∈ m.cfg.children c, ∀ d,
      G.length k d = (G.length c d).map (· / 2)) : G.Consistent m := by
  have hlt : ∀ c, m.ValidId c → m.getLevel c < m.maxLvl → m.cfg.lvl c < m.cfg.maxLvl := by
    intro c hv hl
    have hv' := (Mapping.validId_iff h).1 hv
    have hm := Mapping.cfg_max h
    rw [Mapping.getLevel_eq h, if_pos hv'] at hl
    omega
  refine ⟨fun c hv d => ?_, fun c hv => hn c (fun hv' => hv ((Mapping.validId_iff h).2 hv')), ?_, ?_⟩
  · have hv' := (Mapping.validId_iff h).1 hv
    have he := end_le h.wf hv' d
    have hs := side_pos (g := m.cfg) c
    refine ⟨_, _, hM.lo c hv' d, hM.hi c hv' d, ?_, hM.inc d _ _ (by omega) he, ?_, hl c hv' d, hc c hv' d⟩
    · rw [← h0]; exact (hM.inc d).le (Nat.zero_le _) (by omega)
    · rw [← h1]; exact (hM.inc d).le he (Nat.le_refl _)
  · intro c hv hl k hk
    have hv' := (Mapping.validId_iff h).1 hv
    rw [Mapping.allChildren_eq h hv', if_pos (hlt c hv hl)] at hk
    exact hh c hv' (hlt c hv hl) k hk
  · intro c hv hl x
    have hv' := (Mapping.validId_iff h).1 hv
    rw [Mapping.allChildren_eq h hv', if_pos (hlt c hv hl)]
    exact hM.children h.wf hv' (hlt c hv hl) x

theorem tiles_of (h : m.OK) (hM : Mesh m.cfg pos G.min G.max) (h0 : ∀ d, pos d 0 = G.start d)
    (h1 : ∀ d, pos d (m.cfg.n d) = G.fin d) {E : Nat → Bool} (ht : Tiled m.cfg E) : G.Tiles E where
  cover x hx := hM.covered h.wf ht x (fun d => by rw [h0, h1]; exact hx d)
  within c x hc hx d := by
    have hv := ht.valid c hc
    have he := end_le h.wf hv d
    obtain ⟨a, b, e1, e2, e3, e4⟩ := hx d
    rw [hM.lo c hv d] at e1
    rw [hM.hi c hv d] at e2
    injection e1 with e1
    injection e2 with e2
    have f1 := (hM.inc d).le (Nat.zero_le (m.cfg.idx c d)) (by omega)
    have f2 := (hM.inc d).le he (Nat.le_refl _)
    rw [h0] at f1
    rw [h1] at f2
    constructor <;> grind
  one x hx := hM.tiled h.wf ht x (fun d => by rw [h0, h1]; exact hx d)
  disjoint b c x hb hc hxb hxc := by
    have hi := hM.inside h.wf (ht.valid b hb) hxb.half
    obtain ⟨a, -, -, ha⟩ := hM.tiled h.wf ht x hi
    rw [ha b hb hxb.half, ha c hc hxc.half]
end

section
variable {m : Mapping} {G : Cartesian} {per : V3 Bool} {hood : Nat}

/-- C44: sizes and positions of cells of `Cartesian_Geometry` with positive lengths. -/
theorem C44_cartesian_consistent (h : m.OK) (hG : ∀ d, 0 < G.len d) : (G.geo m).Consistent m := by
  have hM : Mesh m.cfg (G.pos m) (G.geo m).min (G.geo m).max := Cartesian.mesh h hG
  have hlen : ∀ c, m.cfg.Valid c → ∀ d, G.pos m d (m.cfg.idx c d + m.cfg.side c) - G.pos m d (m.cfg.idx c d) =
      G.len d / ((2 ^ m.cfg.lvl c : Nat) : Rat) := by
    intro c hv d
    have h1 := side_scale hv
    have h2 := pow_cast_pos (m.cfg.lvl c)
    have h3 := pow_cast_pos m.cfg.maxLvl
    unfold Cartesian.pos
    rw [h1] at h3 ⊢
    push_cast at *
    generalize (2 : Rat) ^ m.cfg.lvl c = L at *
    generalize (m.cfg.side c : Rat) = S at *
    have h4 : S ≠ 0 := by intro e; rw [e] at h3; grind
    grind
  refine consistent_of h hM Cartesian.pos_zero Cartesian.pos_end ?_ ?_ ?_ ?_
  · intro c hv d
    show G.getLength m c d = _
    rw [Cartesian.getLength_eq h, if_pos hv, hlen c hv d]
  · intro c hv d
    show G.getCenter m c d = _
    rw [Cartesian.getCenter_eq h, if_pos hv, ← hlen c hv d]
    congr 1
    grind
  · intro c hv d
    refine ⟨?_, ?_, ?_, ?_⟩
    · show G.getMin m c d = _; rw [Cartesian.getMin_eq h, if_neg hv]
    · show G.getMax m c d = _; rw [Cartesian.getMax_eq h, if_neg hv]
    · show G.getLength m c d = _; rw [Cartesian.getLength_eq h, if_neg hv]
    · show G.getCenter m c d = _; rw [Cartesian.getCenter_eq h, if_neg hv]
  · intro c hv hl k hk d
    obtain ⟨kv, kl, -⟩ := (children_spec h.wf hv hl).1 hk
    show G.getLength m k d = (G.getLength m c d).map _
    rw [Cartesian.getLength_eq h, Cartesian.getLength_eq h, if_pos hv, if_pos kv, kl]
    show some _ = some _
    have h2 := pow_cast_pos (m.cfg.lvl c)
    rw [Nat.pow_succ]
    push_cast at *
    congr 1
    grind

/-- C44: the boxes of existing cells tile the grid in every reachable state, on every process. -/
theorem C44_cartesian_tiles {n : Nat} {D W : Type} {s : Sys n D W} {dflt : D} {maxTag : Nat} (h : m.OK)
    (hG : ∀ d, 0 < G.len d) (hs : Reachable (m.grid per hood) dflt maxTag s) (i : Fin n) :
    (G.geo m).Tiles (exist (s i).owner) := by
  obtain ⟨w, hi⟩ := hs.inv (grid_wf h) (by have := i.2; omega)
  rw [hi.sys.owner i]
  exact tiles_of h (Cartesian.mesh h hG) Cartesian.pos_zero Cartesian.pos_end (grid_tiled.1 hi.sys.tiled)

theorem NoGeometry.geo_eq (m : Mapping) : NoGeometry.geo m = Cartesian.init.geo m := by
  unfold NoGeometry.geo Cartesian.geo
  rw [NoGeometry.getStart_eq, NoGeometry.getEnd_eq, funext (NoGeometry.getLength_eq m),
    funext (NoGeometry.getCenter_eq m), funext (NoGeometry.getMin_eq m), funext (NoGeometry.getMax_eq m)]

/-- C44: sizes and positions of cells of `No_Geometry`. -/
theorem C44_no_geometry_consistent (h : m.OK) : (NoGeometry.geo m).Consistent m := by
  rw [NoGeometry.geo_eq]
  exact C44_cartesian_consistent h (fun d => by show (0 : Rat) < 1; decide)

/-- C44: boxes of existing cells with `No_Geometry`. -/
theorem C44_no_geometry_tiles {n : Nat} {D W : Type} {s : Sys n D W} {dflt : D} {maxTag : Nat} (h : m.OK)
    (hs : Reachable (m.grid per hood) dflt maxTag s) (i : Fin n) :
    (NoGeometry.geo m).Tiles (exist (s i).owner) := by
  rw [NoGeometry.geo_eq]
  exact C44_cartesian_tiles h (fun d => by show (0 : Rat) < 1; decide) hs i

/-- Mapping of the small distributed grid. -/
def tinyM : Mapping := { len := v3 2 1 1, maxLvl := 2, lastCell := 146 }

theorem tinyM_ok : tinyM.OK where
  pos := by rw [forall_fin3]; decide
  nonneg := by decide
  fits := by decide
  last := by decide

theorem tinyM_grid : tinyM.grid (v3 false false true) 1 = tinyG := rfl

/-- Cells of different size in each dimension. -/
def tinyCart : Cartesian := { start := v3 (-1) 0 (1 / 2), len := v3 2 3 (1 / 4) }

theorem tinyCart_ok : ∀ d, 0 < tinyCart.len d := by rw [forall_fin3]; decide +kernel

example : ∃ s : Sys 2 Nat Nat, tinyM.OK ∧ (∀ d, 0 < tinyCart.len d) ∧
    Reachable (tinyM.grid (v3 false false true) 1) 0 146 s ∧ exist (s 0).owner 2 = true ∧
    exist (s 0).owner 1 = false := by
  obtain ⟨s, res, -, -, -, h1, h2⟩ := tiny_refined
  refine ⟨_, tinyM_ok, tinyCart_ok, h1, exist_of (h2 0).2.2.1, ?_⟩
  unfold exist; rw [(h2 0).2.1]; rfl

/-- A child of the first cell: first half of the cell in the first dimension, second half in the second. -/
example : (tinyCart.getMin tinyM 7, tinyCart.getMax tinyM 7) =
    (v3 (some (-1)) (some (3 / 2)) (some (1 / 2)), v3 (some 0) (some 3) (some (5 / 8))) := by
  have h : tinyM.cfg.Valid 7 := by unfold Cfg.Valid; decide +kernel
  have e : ∀ d, tinyCart.getMin tinyM 7 d = v3 (some (-1)) (some (3 / 2)) (some (1 / 2)) d ∧
      tinyCart.getMax tinyM 7 d = v3 (some 0) (some 3) (some (5 / 8)) d := by
    rw [forall_fin3]
    decide +kernel
  exact Prod.ext (funext fun d => (e d).1) (funext fun d => (e d).2)

/-! ## C46 -/

/-- Specification of C46, one dimension of a grid from `a` to `b`: `y` is the real coordinate of `x`. -/
def IsReal (per : Bool) (a b x : Rat) (y : Num) : Prop :=
  (a ≤ x ∧ x ≤ b → y = some x) ∧
  (per = true → ∃ (r : Rat) (k : Int), y = some r ∧ a ≤ r ∧ r ≤ b ∧ r = x + (k : Rat) * (b - a)) ∧
  (per = false → x < a ∨ b < x → y = none)

theorem realCoord_isReal {per : Bool} {a b : Rat} (hab : a < b) (x : Rat) :
    IsReal per a b x (realCoord per a b (some x)) := by
  have hL : 0 < b - a := by grind
  refine ⟨fun h => realCoord_in h.1 h.2, ?_, ?_⟩
  · rintro rfl
    by_cases h1 : x < a
    · have h2 := ceil_mul (t := a - x) hL
      refine ⟨_, ((a - x) / (b - a)).ceil, realCoord_below hab h1, ?_, ?_, ?_⟩ <;> grind
    · by_cases h3 : b < x
      · have h2 := ceil_mul (t := x - b) hL
        refine ⟨_, -((x - b) / (b - a)).ceil, realCoord_above hab h3, ?_, ?_, ?_⟩
        · grind
        · grind
        · rw [Rat.intCast_neg]; grind
      · exact ⟨x, 0, realCoord_in (by grind) (by grind), by grind, by grind, by push_cast; grind⟩
  · rintro rfl (h1 | h1)
    · rw [realCoord_below hab h1]; rfl
    · rw [realCoord_above hab h1]; rfl

/-- C46 for `Cartesian_Geometry`. -/
theorem C46_cartesian (h : m.OK) (hG : ∀ d, 0 < G.len d) (x : V3 Rat) (d : Fin 3) :
    IsReal (per d) (G.getStart d) (G.getEnd m d) (x d) (G.getRealCoordinate m per (fun d => some (x d)) d) :=
  realCoord_isReal (Cartesian.start_lt_end h hG d) _

/-- C46 for `No_Geometry`. -/
theorem C46_no_geometry (h : m.OK) (x : V3 Rat) (d : Fin 3) :
    IsReal (per d) (NoGeometry.getStart d) (NoGeometry.getEnd m d) (x d)
      (NoGeometry.getRealCoordinate m per (fun d => some (x d)) d) := by
  rw [NoGeometry.getRealCoordinate_eq, NoGeometry.getStart_eq, NoGeometry.getEnd_eq]
  exact C46_cartesian h (fun d => by show (0 : Rat) < 1; decide) x d

/-- C46 for `Stretched_Cartesian_Geometry`. -/
theorem C46_stretched {G : Stretched} (h : m.OK) (hG : G.Ok m) (x : V3 Rat) (d : Fin 3) :
    IsReal (per d) (G.getStart d) (G.getEnd m d) (x d) (G.getRealCoordinate m per (fun d => some (x d)) d) := by
  refine realCoord_isReal ?_ _
  rw [Stretched.getStart_eq, Stretched.getEnd_eq]
  exact Stretched.coord_lt hG (h.pos d) (Nat.le_refl _)

/-- A coordinate far outside of a periodic dimension. -/
example : tinyCart.getRealCoordinate tinyM (v3 true false true) (v3 (some 10) (some 4) (some (1 / 5))) 0 = some 2 ∧
    tinyCart.getRealCoordinate tinyM (v3 true false true) (v3 (some 10) (some 4) (some (1 / 5))) 1 = none ∧
    tinyCart.getRealCoordinate tinyM (v3 true false true) (v3 (some 10) (some 4) (some (1 / 5))) 2 = some (7 / 10) := by
  decide +kernel

end
end Dccrg
