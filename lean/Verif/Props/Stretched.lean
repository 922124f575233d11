import Verif.Props.Geometry
import Verif.Props.Locate
/-!
# C47: stretched Cartesian geometry

`Stretched.Ok G m`: in each dimension there is one more coordinate than level 0 cells, in strictly increasing order.
C48 is about which coordinates are accepted.
-/
namespace Dccrg
open Cfg
section
variable {m : Mapping} {G : Stretched} {per : V3 Bool} {hood : Nat} {l : Int}

/-- C47: sizes and positions of cells of `Stretched_Cartesian_Geometry`. -/
theorem C47_consistent (h : m.OK) (hG : G.Ok m) : (G.geo m).Consistent m := by
  have hM : Mesh m.cfg (G.pos m) (G.geo m).min (G.geo m).max := Stretched.mesh h hG
  have hlen : ∀ c, m.cfg.Valid c → ∀ d, ∀ L, G.getLength m c d = some L →
      G.pos m d (m.cfg.idx c d + m.cfg.side c) - G.pos m d (m.cfg.idx c d) = L ∧
      G.getCenter m c d = some (G.pos m d (m.cfg.idx c d) + L / 2) := by
    intro c hv d L hL
    have h1 : G.getMin m c d = _ := Stretched.getMin_eq h G c d
    have h2 : G.getMax m c d = _ := Stretched.getMax_eq h G c d
    rw [if_pos hv] at h1 h2
    unfold Stretched.getMin at h1
    unfold Stretched.getMax at h2
    rw [hL] at h1 h2
    cases hc : G.getCenter m c d with
    | none => rw [hc] at h1; cases h1
    | some z =>
      rw [hc] at h1 h2
      injection h1 with h1
      injection h2 with h2
      constructor
      · grind
      · congr 1
        grind
  have hsome : ∀ c, m.cfg.Valid c → ∀ d, ∃ L, G.getLength m c d = some L := by
    intro c hv d
    rw [Stretched.getLength_eq h, if_pos hv]
    exact ⟨_, rfl⟩
  refine consistent_of h hM Stretched.pos_zero Stretched.pos_end ?_ ?_ ?_ ?_
  · intro c hv d
    obtain ⟨L, hL⟩ := hsome c hv d
    show G.getLength m c d = _
    rw [hL, (hlen c hv d L hL).1]
  · intro c hv d
    obtain ⟨L, hL⟩ := hsome c hv d
    obtain ⟨h1, h2⟩ := hlen c hv d L hL
    show G.getCenter m c d = _
    rw [h2]
    congr 1
    grind
  · intro c hv d
    refine ⟨?_, ?_, ?_, ?_⟩
    · show G.getMin m c d = _; rw [Stretched.getMin_eq h, if_neg hv]
    · show G.getMax m c d = _; rw [Stretched.getMax_eq h, if_neg hv]
    · show G.getLength m c d = _; rw [Stretched.getLength_eq h, if_neg hv]
    · show G.getCenter m c d = _; rw [Stretched.getCenter_eq h, if_neg hv]
  · intro c hv hl k hk d
    obtain ⟨kv, kl, -⟩ := (children_spec h.wf hv hl).1 hk
    have hmem := mem_of_mem_children h.wf hv hl hk (mem_idx k) d
    have hs := Stretched.idx_side h hv d
    have e : m.cfg.idx k d / 2 ^ m.cfg.maxLvl = m.cfg.idx c d / 2 ^ m.cfg.maxLvl := by
      have hM0 : 0 < 2 ^ m.cfg.maxLvl := Nat.pow_pos (by omega)
      have e1 := Nat.div_add_mod (m.cfg.idx c d) (2 ^ m.cfg.maxLvl)
      apply Nat.div_eq_of_lt_le
      · rw [Nat.mul_comm]; omega
      · rw [Nat.succ_mul, Nat.mul_comm]; omega
    show G.getLength m k d = (G.getLength m c d).map _
    rw [Stretched.getLength_eq h, Stretched.getLength_eq h, if_pos hv, if_pos kv, kl, e]
    show some _ = some _
    have h2 := pow_cast_pos (m.cfg.lvl c)
    rw [Nat.pow_succ]
    push_cast at *
    congr 1
    grind

/-- C47: the boxes of existing cells tile the grid in every reachable state, on every process. -/
theorem C47_tiles {n : Nat} {D W : Type} {s : Sys n D W} {dflt : D} {maxTag : Nat} (h : m.OK)
    (hG : G.Ok m) (hs : Reachable (m.grid per hood) dflt maxTag s) (i : Fin n) :
    (G.geo m).Tiles (exist (s i).owner) := by
  obtain ⟨w, hi⟩ := hs.inv (grid_wf h) (by have := i.2; omega)
  rw [hi.sys.owner i]
  exact tiles_of h (Stretched.mesh h hG) Stretched.pos_zero Stretched.pos_end (grid_tiled.1 hi.sys.tiled)

/-- Cells of level 0 are between consecutive given coordinates. -/
theorem C47_level_0 (h : m.OK) {c : Nat} (hc : m.ValidId c) (hl : m.getLevel c = 0) (d : Fin 3) :
    ∃ q, q < m.len d ∧ m.getIndices c d = q * 2 ^ m.maxLvl.toNat ∧
      G.getMin m c d = some ((G.coords d).getD q 0) ∧ G.getMax m c d = some ((G.coords d).getD (q + 1) 0) := by
  have hv := (Mapping.validId_iff h).1 hc
  rw [Mapping.getLevel_eq h, if_pos hv] at hl
  have hl' : m.cfg.lvl c = 0 := by omega
  obtain ⟨k, h1, h2⟩ := idx_div_bounds h.wf hv d
  rw [hl', Nat.pow_zero, Nat.mul_one] at h1
  unfold side at h2
  rw [hl', Nat.sub_zero] at h2
  refine ⟨k, h1, ?_, ?_, ?_⟩
  · rw [Mapping.getIndices_eq h, if_pos hv, h2]; rfl
  · have := Stretched.pos_in G m d (q := k) (r := 0) (Nat.zero_le _)
    rw [Nat.add_zero] at this
    rw [Stretched.getMin_eq h, if_pos hv, h2, this]
    congr 1
    show _ = G.coord d k
    push_cast
    grind
  · have := Stretched.pos_in G m d (q := k + 1) (r := 0) (Nat.zero_le _)
    rw [Nat.add_zero] at this
    have hs : m.cfg.side c = 2 ^ m.cfg.maxLvl := by unfold side; rw [hl', Nat.sub_zero]
    rw [Stretched.getMax_eq h, if_pos hv, h2, hs, ← Nat.succ_mul, this]
    congr 1
    show _ = G.coord d (k + 1)
    push_cast
    grind

theorem indices_at (h : m.OK) (hG : G.Ok m) (x : V3 Rat) (hx : ∀ d, G.getStart d < x d ∧ x d ≤ G.getEnd m d) :
    ∃ p : V3 Nat, (∀ d, G.getIndices m (nums x) d = .at (p d)) ∧ m.cfg.InGrid p ∧
      ∀ d, G.pos m d (p d) < x d ∧ x d ≤ G.pos m d (p d + 1) := by
  have H := fun d => Stretched.locate_at h hG (hx d).1 (hx d).2
  exact ⟨fun d => Classical.choose (H d), fun d => (Classical.choose_spec (H d)).1,
    fun d => (Classical.choose_spec (H d)).2.1, fun d => (Classical.choose_spec (H d)).2.2⟩

theorem getCell_at (hl : 0 ≤ l ∧ l ≤ m.maxLvl) {x : V3 Num} {p : V3 Nat}
    (hp : ∀ d, G.getIndices m x d = .at (p d)) : G.getCell m l x = some (m.cellFromIndices p l) := by
  unfold Stretched.getCell
  simp only [hp]
  rw [if_neg (by omega), if_neg (by rintro (e | e | e) <;> cases e)]

/-- C47, the part that holds: indices of a coordinate after the start of the grid, including the end, are those of the
smallest cell that contains it, the cell found at any refinement level contains it, and no other cell of that level does
(sides at the start of a cell belong to the previous cell). Missing: coordinates equal to the start of the grid in some
dimension, see `C47_start`. -/
theorem C47_locate_partial (h : m.OK) (hG : G.Ok m) (x : V3 Rat)
    (hx : ∀ d, G.getStart d < x d ∧ x d ≤ G.getEnd m d) :
    (∃ p : V3 Nat, (∀ d, G.getIndices m (nums x) d = .at (p d)) ∧ m.InsideGrid p ∧
      InBoxL (G.getMin m (m.cellFromIndices p m.maxLvl)) (G.getMax m (m.cellFromIndices p m.maxLvl)) x) ∧
    (∀ l : Int, 0 ≤ l ∧ l ≤ m.maxLvl → ∃ c, G.getCell m l (nums x) = some c ∧ m.ValidId c ∧ m.getLevel c = l ∧
      InBoxL (G.getMin m c) (G.getMax m c) x) ∧
    (∀ c, m.ValidId c → InBoxL (G.getMin m c) (G.getMax m c) x → G.getCell m (m.getLevel c) (nums x) = some c) := by
  obtain ⟨p, h1, h2, h3⟩ := indices_at h hG x hx
  have hM := Stretched.mesh h hG
  have key : ∀ l : Int, 0 ≤ l ∧ l ≤ m.maxLvl → m.ValidId (m.cellFromIndices p l) ∧
      m.getLevel (m.cellFromIndices p l) = l ∧
      InBoxL (G.getMin m (m.cellFromIndices p l)) (G.getMax m (m.cellFromIndices p l)) x := by
    intro l hl
    obtain ⟨r1, r2, -, -, r3, -⟩ := Mapping.C02_index_roundtrip h (p := p) h2 hl.1 hl.2
    exact ⟨r1, r2, (hM.mem_iffL h.wf h2 h3 ((Mapping.validId_iff h).1 r1)).2 ((Mapping.inside_iff h r1).1 r3)⟩
  refine ⟨⟨p, h1, h2, (key m.maxLvl ⟨h.nonneg, by omega⟩).2.2⟩, fun l hl => ⟨_, getCell_at hl h1, key l hl⟩, ?_⟩
  intro c hc hb
  obtain ⟨r1, r2, -⟩ := Mapping.C01_id_roundtrip h hc
  rw [getCell_at ⟨r1, r2⟩ h1]
  congr 1
  exact ((Mapping.C02_index_roundtrip h (p := p) h2 r1 r2).2.2.2.2.2 c hc rfl
    ((Mapping.inside_iff h hc).2 ((hM.mem_iffL h.wf h2 h3 ((Mapping.validId_iff h).1 hc)).1 hb))).symm

/-- C47: the center of a cell is located back to the cell. -/
theorem C47_center (h : m.OK) (hG : G.Ok m) {c : Nat} (hc : m.ValidId c) :
    G.getCell m (m.getLevel c) (G.getCenter m c) = some c := by
  have hb := (C47_consistent h hG).box c hc
  have hx : G.getCenter m c = nums (fun d => (G.getCenter m c d).getD 0) := by
    funext d
    obtain ⟨lo, hi, -, -, -, -, -, -, e⟩ := hb d
    have e' : G.getCenter m c d = some ((lo + hi) / 2) := e
    show G.getCenter m c d = some ((G.getCenter m c d).getD 0)
    rw [e']; rfl
  rw [hx]
  have hd : ∀ d, ∃ lo hi, G.getMin m c d = some lo ∧ G.getMax m c d = some hi ∧ G.getStart d ≤ lo ∧
      hi ≤ G.getEnd m d ∧ lo < (G.getCenter m c d).getD 0 ∧ (G.getCenter m c d).getD 0 < hi := by
    intro d
    obtain ⟨lo, hi, e1, e2, e3, e4, e5, e6, e⟩ := hb d
    have e' : G.getCenter m c d = some ((lo + hi) / 2) := e
    refine ⟨lo, hi, e1, e2, e3, e5, ?_⟩
    rw [e']
    show lo < (lo + hi) / 2 ∧ (lo + hi) / 2 < hi
    constructor <;> grind
  refine (C47_locate_partial h hG _ fun d => ?_).2.2 c hc fun d => ?_
  · obtain ⟨lo, hi, e1, e2, e3, e4, e5, e6⟩ := hd d
    constructor <;> grind
  · obtain ⟨lo, hi, e1, e2, e3, e4, e5, e6⟩ := hd d
    exact ⟨lo, hi, e1, e2, e5, Rat.le_of_lt e6⟩

/-- C47: outside of the grid there are no cells, also in periodic dimensions. -/
theorem C47_outside (h : m.OK) (hG : G.Ok m) (x : V3 Num) {d : Fin 3}
    (hd : ∀ y, x d = some y → y < G.getStart d ∨ G.getEnd m d < y)
    (ho : ∀ d' y, x d' = some y → y ≠ G.getStart d') : G.getCell m l x = some errorCell := by
  have hi : G.getIndices m x d = .outside := Stretched.locate_outside hd
  have hu : ∀ d', G.getIndices m x d' ≠ .undefined := by
    intro d' e
    cases hx : x d' with
    | none =>
      have : G.getIndices m x d' = .outside := Stretched.locate_outside (by rw [hx]; intro y e; cases e)
      rw [this] at e; cases e
    | some y =>
      by_cases hin : G.getStart d' < y ∧ y ≤ G.getEnd m d'
      · obtain ⟨p, h1, -⟩ := Stretched.locate_at h hG hin.1 hin.2
        have : G.getIndices m x d' = .at p := by unfold Stretched.getIndices; rw [hx]; exact h1
        rw [this] at e; cases e
      · have hne := ho d' y hx
        have : G.getIndices m x d' = .outside := Stretched.locate_outside (by
          rw [hx]; intro z e; injection e with e; subst e
          grind)
        rw [this] at e; cases e
  unfold Stretched.getCell
  by_cases hl : l < 0 ∨ l > m.maxLvl
  · rw [if_pos hl]
  · rw [if_neg hl]
    simp only []
    rw [if_neg (by rintro (e | e | e) <;> exact hu _ e)]
    congr 1
    rw [Mapping.cellFromIndices_eq h, if_neg]
    · rfl
    · rintro ⟨h1, -⟩
      have h2 := h1 d
      simp only [hi] at h2
      have h3 := Cartesian.n_lt h d
      have h4 : errorIndex < m.cfg.n d := h2
      omega

/-- What the code does at the start of the grid: for every accepted geometry and valid level a coordinate equal to the
start of the grid in some dimension leads to undefined behavior (a read outside of the given coordinates). -/
theorem C47_start (h : m.OK) (hG : G.Ok m) (hl : 0 ≤ l ∧ l ≤ m.maxLvl) (x : V3 Num) {d : Fin 3}
    (hx : x d = some (G.getStart d)) : G.getCell m l x = none ∧ G.getIndices m x d = .undefined := by
  have hi : G.getIndices m x d = .undefined := by
    unfold Stretched.getIndices; rw [hx]; exact Stretched.locate_start h hG d
  refine ⟨?_, hi⟩
  unfold Stretched.getCell
  rw [if_neg (by omega)]
  simp only []
  rw [if_pos]
  match d with
  | 0 => exact .inl hi
  | 1 => exact .inr (.inl hi)
  | 2 => exact .inr (.inr hi)

/-- Coordinates that are not evenly spaced. -/
def tinyStretched : Stretched := { coords := v3 [-1, 1, 2] [0, 3] [1, 5 / 4] }

theorem tinyStretched_ok : tinyStretched.Ok tinyM := by
  unfold Stretched.Ok
  rw [forall_fin3]
  refine ⟨⟨rfl, ?_⟩, ⟨rfl, ?_⟩, ⟨rfl, ?_⟩⟩ <;>
    simp [tinyStretched, v3] <;> decide +kernel

/-- C47 is false as stated: at the start of the grid the program has undefined behavior, and in a periodic grid
coordinates that the geometry itself maps to the inside of the grid are not found. -/
theorem C47_false : ∃ (m : Mapping) (G : Stretched), m.OK ∧ G.Ok m ∧
    (∃ x : V3 Rat, (∀ d, G.getStart d ≤ x d ∧ x d ≤ G.getEnd m d) ∧ G.getCell m 0 (nums x) = none) ∧
    (∃ x y : V3 Rat, G.getRealCoordinate m (v3 true true true) (nums x) = nums y ∧
      G.getCell m 0 (nums x) = some errorCell ∧ G.getCell m 0 (nums y) = some 1) := by
  refine ⟨tinyM, tinyStretched, tinyM_ok, tinyStretched_ok, ⟨v3 (-1) 1 (9 / 8), ?_, ?_⟩,
    ⟨v3 3 1 (9 / 8), v3 0 1 (9 / 8), ?_, ?_, ?_⟩⟩
  · rw [forall_fin3]; decide +kernel
  · exact (C47_start (d := 0) tinyM_ok tinyStretched_ok (by decide) _ (by decide +kernel)).1
  · funext d
    revert d
    rw [forall_fin3]; decide +kernel
  · decide +kernel
  · decide +kernel

example : tinyM.OK ∧ tinyStretched.Ok tinyM ∧
    (∀ d, tinyStretched.getStart d < (v3 (3 / 2) 3 (9 / 8)) d ∧ (v3 (3 / 2 : Rat) 3 (9 / 8)) d ≤ tinyStretched.getEnd tinyM d) ∧
    tinyStretched.getCell tinyM 0 (nums (v3 (3 / 2) 3 (9 / 8))) = some 2 := by
  refine ⟨tinyM_ok, tinyStretched_ok, ?_, by decide +kernel⟩
  rw [forall_fin3]; decide +kernel

end
end Dccrg
