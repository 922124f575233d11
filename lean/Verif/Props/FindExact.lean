import Verif.Find64
import Verif.Nbr64Spec
import Verif.Props.Find
import Verif.Props.Geometry
/-!
# C72: what `find_cells` returns for every box

Boxes that are not aligned to cells of the given maximum refinement level, and loops of `find_cells` in 64-bit
arithmetic.
-/
namespace Dccrg
open Cfg
variable {m : Mapping} {per : V3 Bool} {hood : Nat} {E : Nat → Bool}

theorem axisPts_nil {lo hi inc : Nat} (h0 : 0 < inc) (h : hi < lo) : axisPts lo hi inc = [] := by
  unfold axisPts
  rw [Nat.div_eq_of_lt (by omega)]
  rfl

theorem axisPts_cons {lo hi inc : Nat} (h0 : 0 < inc) (h : lo ≤ hi) :
    axisPts lo hi inc = lo :: axisPts (lo + inc) hi inc := by
  unfold axisPts
  have e : (hi + inc - lo) / inc = (hi + inc - (lo + inc)) / inc + 1 := by
    rw [show hi + inc - lo = (hi + inc - (lo + inc)) + inc from by omega, Nat.add_div_right _ h0]
  rw [e, List.range_succ_eq_map, List.map_cons, List.map_map]
  congr 1
  · omega
  · refine List.map_congr_left fun k _ => ?_
    show lo + (k + 1) * inc = lo + inc + k * inc
    rw [Nat.add_mul]
    omega

/-- A loop that does not reach the largest numbers visits the expected values. -/
theorem axisLoop_eq {hi inc : Nat} (h0 : 0 < inc) (h : hi + inc < W) :
    ∀ fuel x, hi + 2 ≤ fuel + x → 1 ≤ fuel → axisLoop hi inc fuel x = some (axisPts x hi inc) := by
  intro fuel
  induction fuel with
  | zero => intro x _ h1; omega
  | succ k ih =>
    intro x h1 h2
    unfold axisLoop
    split
    · rename_i hx
      rw [wadd_eq (by omega), ih _ (by omega) (by omega), Option.map_some, axisPts_cons h0 hx]
    · rename_i hx
      rw [axisPts_nil h0 (by omega)]

theorem axis64_eq {lo hi inc : Nat} (h0 : 0 < inc) (h : hi + inc < W) : axis64 lo hi inc = some (axisPts lo hi inc) :=
  axisLoop_eq h0 h _ _ (by omega) (by omega)

/-- A loop that does reach them does not end. -/
theorem axisLoop_none {hi inc : Nat} (h0 : 0 < inc) (hd : inc ∣ W) (r : Nat) (h : W - inc + r ≤ hi) (hr : r < inc) :
    ∀ fuel x, x < W → x % inc = r → axisLoop hi inc fuel x = none := by
  obtain ⟨a, ha⟩ := hd
  intro fuel
  induction fuel with
  | zero => intro x _ _; rfl
  | succ k ih =>
    intro x hx hxr
    unfold axisLoop
    have e := Nat.div_add_mod x inc
    have h1 : x / inc < a := Nat.div_lt_of_lt_mul (by rw [← ha]; exact hx)
    have h2 := Nat.mul_le_mul_left inc (show x / inc + 1 ≤ a from h1)
    rw [Nat.mul_add, Nat.mul_one, ← ha] at h2
    rw [if_pos (by omega), ih (wadd x inc) (Nat.mod_lt _ (by decide +kernel)) ?_]
    · rfl
    · unfold wadd
      rw [Nat.mod_mod_of_dvd _ ⟨a, ha⟩, Nat.add_mod_right]
      exact hxr

theorem eachOf_some {α β : Type} {l : List α} {f : α → Option (List β)} {k : α → List β} (h : ∀ a, f a = some (k a)) :
    eachOf l f = some (l.flatMap k) := by
  induction l with
  | nil => rfl
  | cons a l ih => simp only [eachOf, h, ih, Option.bind_some, Option.map_some, List.flatMap_cons]

theorem box64_eq {lo hi : V3 Nat} {inc : Nat} (h0 : 0 < inc) (h : ∀ d, hi d + inc < W) :
    box64 lo hi inc = some (boxPts lo hi inc) := by
  unfold box64 boxPts
  rw [axis64_eq h0 (h 2), axis64_eq h0 (h 1), axis64_eq h0 (h 0)]
  simp only [Option.bind_some, Option.map_some]
  refine eachOf_some fun z => ?_
  exact eachOf_some fun y => rfl

theorem firsts64_eq (hm : m.OK) (ht : Tiled (m.grid per hood) E) (l : List Nat) :
    ∀ seen, firsts64 m E seen l = firstsOf (m.grid per hood) E seen l := by
  induction l with
  | nil => intro seen; rfl
  | cons a l ih => intro seen; unfold firsts64 firstsOf; rw [getChild64_eq hm ht, ih, ih]

/-- Steps of the search can not leave 64 bits inside of a grid. -/
theorem box_room (hm : m.OK) {hi : V3 Nat} (hh : (m.grid per hood).InGrid hi) {k : Nat} (hk : k ≤ m.maxLvl.toNat)
    (d : Fin 3) : hi d + 2 ^ k < W := by
  have h1 : hi d < m.len d * 2 ^ m.maxLvl.toNat := hh d
  have h2 : 2 ^ k ≤ 2 ^ m.maxLvl.toNat := Nat.pow_le_pow_right (by omega) hk
  have h3 : m.len d * 2 ^ m.maxLvl.toNat < W := (Mapping.lens_lt hm (Nat.le_refl _)).1 d
  rcases Nat.eq_zero_or_pos m.maxLvl.toNat with h0 | h0
  · rw [h0] at h1 h2 h3
    omega
  · have h4 := Mapping.level_bound hm (Nat.le_refl _)
    have e : m.cfg.maxLvl = m.maxLvl.toNat := rfl
    have h5 : m.len d ≤ m.cfg.total := by
      obtain ⟨a, b, c, -⟩ := Mapping.le3 (hm.pos 0) (hm.pos 1) (hm.pos 2)
      revert d
      intro d _ _
      show m.len d ≤ m.len 0 * m.len 1 * m.len 2
      revert d
      rw [forall_fin3]
      omega
    rw [e, show (8 : Nat) = 2 * 4 from rfl, Nat.mul_pow, ← Nat.mul_assoc] at h4
    have h6 : m.len d * 2 ^ m.maxLvl.toNat ≤ m.cfg.total * 2 ^ m.maxLvl.toNat := Nat.mul_le_mul_right _ h5
    have h7 : 4 ≤ 4 ^ m.maxLvl.toNat := by
      calc 4 = 4 ^ 1 := rfl
        _ ≤ _ := Nat.pow_le_pow_right (by omega) h0
    have h8 := Nat.mul_le_mul_left (m.cfg.total * 2 ^ m.maxLvl.toNat) h7
    have h9 : 2 ^ m.maxLvl.toNat ≤ m.len d * 2 ^ m.maxLvl.toNat := Nat.le_mul_of_pos_left _ (hm.pos d)
    omega

theorem findCells64_eq (hm : m.OK) (ht : Tiled (m.grid per hood) E) {lo hi : V3 Nat}
    (hh : (m.grid per hood).InGrid hi) {lmin : Int} {lmax : Nat} (hl : lmax ≤ m.maxLvl.toNat) :
    findCells64 m E lo hi lmin lmax = .ok (findCells (m.grid per hood) E lo hi lmin lmax) := by
  have e : (m.maxLvl - (lmax : Int)).toNat = m.maxLvl.toNat - lmax := by omega
  have h1 := Mapping.shift_counts hm
  have h2 := hm.nonneg
  unfold findCells64 findCells
  rw [if_neg (by omega), e, box64_eq (Nat.pow_pos (by omega)) (box_room hm hh (by omega))]
  show Out.ok _ = _
  rw [firsts64_eq (per := per) (hood := hood) hm ht]
  show Out.ok (firstsOf _ E [] _) = .ok (firstsOf _ E [] ((boxPts lo hi (2 ^ (m.maxLvl.toNat - lmax))).map _))
  congr 2
  refine List.map_congr_left fun p _ => ?_
  exact existing64_eq hm p lmin lmax

/-- C72, the part that holds as stated: if the lower corner of the box is aligned to cells of the given maximum refinement
level then `find_cells` returns exactly the existing cells between given refinement levels that overlap the box, each
once, in order of where they start in the box, x first. Missing: other boxes, see `C72_every_box` and `C72_false`, and the
error cell that is also returned if the box isn't covered by such cells. -/
theorem C72_find_partial (hm : m.OK) (ht : Tiled (m.grid per hood) E) {lo hi : V3 Nat}
    (hh : (m.grid per hood).InGrid hi) {lmin : Int} {lmax : Nat} (hl : (lmax : Int) ≤ m.maxLvl)
    (ha : ∀ d, 2 ^ (m.maxLvl.toNat - lmax) ∣ lo d) :
    ∃ r, findCells64 m E lo hi lmin lmax = .ok r ∧ r.Nodup ∧
    (∀ c, c ≠ 0 → (c ∈ r ↔ E c = true ∧ lmin ≤ (m.grid per hood).lvl c ∧ (m.grid per hood).lvl c ≤ lmax ∧
      ∃ p, Between lo hi p ∧ (m.grid per hood).Mem p c)) ∧
    (r.filter fun c => c != 0).Pairwise (fun a b =>
      Before (fun d => max (lo d) ((m.grid per hood).idx a d)) (fun d => max (lo d) ((m.grid per hood).idx b d))) ∧
    (0 ∈ r ↔ ∃ p, Between lo hi p ∧ ¬ ∃ c, E c = true ∧ lmin ≤ (m.grid per hood).lvl c ∧
      (m.grid per hood).lvl c ≤ lmax ∧ (m.grid per hood).Mem p c) := by
  have hl' : lmax ≤ m.maxLvl.toNat := by omega
  have hw : (m.grid per hood).WF := hm.pos
  obtain ⟨h1, h2, h3, h4⟩ := find_aligned hw ht (hi := hi) (lmin := lmin) hl' ha
  exact ⟨_, findCells64_eq hm ht hh hl', h1, h2, h3, h4⟩

/-- Mapping of the sample grid. -/
def sampleMapping : Mapping := { len := v3 3 1 1, maxLvl := 2, lastCell := 219 }

theorem sampleMapping_ok : sampleMapping.OK where
  pos := by rw [forall_fin3]; decide
  nonneg := by decide
  fits := by decide +kernel
  last := by decide +kernel

theorem sampleMapping_grid : sampleMapping.grid (v3 false true false) 1 = sampleG := rfl

/-- Cells 28, 29, ... are of level 2, 5 of level 1. In order they start at x 0, 1, 2 at the first y and z. -/
example : sampleMapping.OK ∧ Tiled (sampleMapping.grid (v3 false true false) 1) sampleE ∧
    (sampleMapping.grid (v3 false true false) 1).InGrid (v3 4 1 0) ∧
    (∀ d, 2 ^ (sampleMapping.maxLvl.toNat - 2) ∣ (v3 0 0 0 : V3 Nat) d) ∧
    findCells64 sampleMapping sampleE (v3 0 0 0) (v3 4 1 0) 0 2 = .ok [28, 29, 5, 6, 40, 41] ∧
    findCells64 sampleMapping sampleE (v3 0 0 0) (v3 4 1 0) 0 1 = .ok [0, 5, 6] := by
  have hg : (sampleMapping.grid (v3 false true false) 1).InGrid (v3 4 1 0) := by
    unfold Cfg.InGrid; rw [forall_fin3]; decide
  have ht : Tiled (sampleMapping.grid (v3 false true false) 1) sampleE := sample_tiled
  refine ⟨sampleMapping_ok, ht, hg, ?_, ?_, ?_⟩
  · rw [forall_fin3]; decide
  · rw [show (2 : Int) = ((2 : Nat) : Int) from rfl, findCells64_eq sampleMapping_ok ht hg (by decide),
      sampleMapping_grid]
    exact congrArg _ (by decide +kernel)
  · rw [show (1 : Int) = ((1 : Nat) : Int) from rfl, findCells64_eq sampleMapping_ok ht hg (by decide),
      sampleMapping_grid]
    exact congrArg _ (by decide +kernel)

/-- C72 does not hold for all boxes: cell 2 at indices 4 to 7 overlaps the box from 3 to 4 but is not
returned. -/
theorem C72_false : ∃ (m : Mapping) (per : V3 Bool) (lo hi : V3 Nat) (c : Nat), m.OK ∧ Tiled (m.grid per 1) coarseE ∧
    (m.grid per 1).InGrid lo ∧ (m.grid per 1).InGrid hi ∧ coarseE c = true ∧ (m.grid per 1).lvl c = 0 ∧
    (∃ p, Between lo hi p ∧ (m.grid per 1).Mem p c) ∧ findCells64 m coarseE lo hi 0 0 = .ok [1] ∧ c ≠ 1 := by
  have hg : (tinyM.grid (v3 false false true) 1).InGrid (v3 4 0 0) := by
    unfold Cfg.InGrid; rw [forall_fin3]; decide
  refine ⟨tinyM, v3 false false true, v3 3 0 0, v3 4 0 0, 2, tinyM_ok, coarse_tiled, ?_, hg, by decide, by decide,
    ⟨v3 4 0 0, ?_, by decide⟩, ?_, by decide⟩
  · unfold Cfg.InGrid; rw [forall_fin3]; decide
  · unfold Between; rw [forall_fin3]; decide
  · rw [show findCells64 tinyM coarseE (v3 3 0 0) (v3 4 0 0) 0 0 =
      findCells64 tinyM coarseE (v3 3 0 0) (v3 4 0 0) 0 ((0 : Nat) : Int) from rfl,
      findCells64_eq (per := v3 false false true) (hood := 1) tinyM_ok coarse_tiled hg (by decide), tinyM_grid]
    exact congrArg _ (by decide +kernel)

/-- Point of a box that is a whole number of steps from its lower corner. -/
def OnSteps (lo hi : V3 Nat) (inc : Nat) (p : V3 Nat) : Prop := Between lo hi p ∧ ∀ d, inc ∣ p d - lo d

theorem mem_boxPts_steps {lo hi p : V3 Nat} {inc : Nat} (h0 : 0 < inc) : p ∈ boxPts lo hi inc ↔ OnSteps lo hi inc p := by
  rw [mem_boxPts h0]
  constructor
  · intro h
    refine ⟨fun d => ?_, fun d => ?_⟩ <;> obtain ⟨⟨k, e⟩, h'⟩ := h d
    · exact ⟨by omega, h'⟩
    · exact ⟨k, by rw [Nat.mul_comm]; omega⟩
  · rintro ⟨h1, h2⟩ d
    obtain ⟨k, e⟩ := h2 d
    have := h1 d
    exact ⟨⟨k, by rw [Nat.mul_comm]; omega⟩, this.2⟩

/-- First point of a cell that is visited in one dimension. -/
def stepTo (lo inc i : Nat) : Nat := lo + (i - lo + (inc - 1)) / inc * inc

theorem stepTo_spec {lo inc i : Nat} (h0 : 0 < inc) : lo ≤ stepTo lo inc i ∧ i ≤ stepTo lo inc i ∧
    stepTo lo inc i < max lo i + inc ∧ inc ∣ stepTo lo inc i - lo ∧
    ∀ p, lo ≤ p → i ≤ p → inc ∣ p - lo → stepTo lo inc i ≤ p := by
  have h1 := Nat.div_add_mod (i - lo + (inc - 1)) inc
  have h2 := Nat.mod_lt (i - lo + (inc - 1)) h0
  rw [Nat.mul_comm] at h1
  unfold stepTo
  refine ⟨by omega, by omega, by omega, ?_, ?_⟩
  · rw [Nat.add_sub_cancel_left]
    exact Nat.dvd_mul_left _ _
  · rintro p h3 h4 ⟨k, e⟩
    have h5 : (i - lo + (inc - 1)) / inc ≤ k := by
      rw [← Nat.lt_succ_iff, Nat.div_lt_iff_lt_mul h0, Nat.succ_mul, Nat.mul_comm]
      omega
    have := Nat.mul_le_mul_right inc h5
    rw [Nat.mul_comm k] at this
    omega

/-- C72, what is returned for every box: existing cells between given refinement levels in which there is a point of the
box that is a whole number of steps from the lower corner of the box, where steps are as long as cells of the given maximum
refinement level. Each is returned once, in order of the first such point of the cell, x first. -/
theorem C72_every_box (hm : m.OK) (ht : Tiled (m.grid per hood) E) {lo hi : V3 Nat}
    (hh : (m.grid per hood).InGrid hi) {lmin : Int} {lmax : Nat} (hl : (lmax : Int) ≤ m.maxLvl) {inc : Nat}
    (hinc : inc = 2 ^ (m.maxLvl.toNat - lmax)) :
    ∃ r, findCells64 m E lo hi lmin lmax = .ok r ∧ r.Nodup ∧
    (∀ c, c ≠ 0 → (c ∈ r ↔ E c = true ∧ lmin ≤ (m.grid per hood).lvl c ∧ (m.grid per hood).lvl c ≤ lmax ∧
      ∃ p, OnSteps lo hi inc p ∧ (m.grid per hood).Mem p c)) ∧
    (0 ∈ r ↔ ∃ p, OnSteps lo hi inc p ∧ ¬ ∃ c, E c = true ∧ lmin ≤ (m.grid per hood).lvl c ∧
      (m.grid per hood).lvl c ≤ lmax ∧ (m.grid per hood).Mem p c) ∧
    ∃ first : Nat → V3 Nat, (∀ c ∈ r, c ≠ 0 → OnSteps lo hi inc (first c) ∧ (m.grid per hood).Mem (first c) c ∧
        ∀ p, OnSteps lo hi inc p → (m.grid per hood).Mem p c → ∀ d, first c d ≤ p d) ∧
      (r.filter fun c => c != 0).Pairwise fun a b => Before (first a) (first b) := by
  have hl' : lmax ≤ m.maxLvl.toNat := by omega
  have h0 : 0 < inc := by rw [hinc]; exact Nat.pow_pos (by omega)
  have hw : (m.grid per hood).WF := hm.pos
  have hmax : (m.grid per hood).maxLvl = m.maxLvl.toNat := rfl
  refine ⟨_, findCells64_eq hm ht hh hl', ?_⟩
  generalize hg : m.grid per hood = g at ht hh hw hmax
  have hex : ∀ p c, c ≠ 0 → (existingI g E p lmin lmax = c ↔
      E c = true ∧ g.Mem p c ∧ lmin ≤ g.lvl c ∧ (g.lvl c : Int) ≤ lmax) :=
    fun p c hc => (C12_existing_cell hw ht p lmin lmax).1 c hc
  have hch : ∀ c, E c = true → c = getChild g E c := by
    intro c hc
    have := (ht.valid c hc).1
    exact ((ht.getChild_eq_iff hw (by omega)).2 hc).symm
  have hmem : ∀ c, c ≠ 0 → (c ∈ findCells g E lo hi lmin lmax ↔ E c = true ∧ lmin ≤ g.lvl c ∧ g.lvl c ≤ lmax ∧
      ∃ p, OnSteps lo hi inc p ∧ g.Mem p c) := by
    intro c hc
    unfold findCells
    rw [mem_firstsOf, hmax, ← hinc]
    simp only [List.mem_map, mem_boxPts_steps h0]
    constructor
    · rintro ⟨⟨p, hp, e⟩, -, -⟩
      obtain ⟨h1, h2, h3, h4⟩ := (hex p c hc).1 e
      exact ⟨h1, h3, by omega, p, hp, h2⟩
    · rintro ⟨h1, h2, h3, p, h4, h5⟩
      exact ⟨⟨p, h4, (hex _ c hc).2 ⟨h1, h5, h2, by omega⟩⟩, by simp, hch c h1⟩
  have hfirst : ∀ c, E c = true → g.lvl c ≤ lmax → ∀ p, OnSteps lo hi inc p → g.Mem p c →
      OnSteps lo hi inc (fun d => stepTo (lo d) inc (g.idx c d)) ∧
      g.Mem (fun d => stepTo (lo d) inc (g.idx c d)) c ∧
      ∀ q, OnSteps lo hi inc q → g.Mem q c → ∀ d, stepTo (lo d) inc (g.idx c d) ≤ q d := by
    intro c hc hlv p hp hpc
    have hs : ∀ d, stepTo (lo d) inc (g.idx c d) ≤ p d := fun d =>
      (stepTo_spec h0).2.2.2.2 _ (hp.1 d).1 (hpc d).1 (hp.2 d)
    refine ⟨⟨fun d => ⟨(stepTo_spec h0).1, Nat.le_trans (hs d) (hp.1 d).2⟩, fun d => (stepTo_spec h0).2.2.2.1⟩,
      fun d => ⟨(stepTo_spec h0).2.1, Nat.lt_of_le_of_lt (hs d) (hpc d).2⟩,
      fun q hq hqc d => (stepTo_spec h0).2.2.2.2 _ (hq.1 d).1 (hqc d).1 (hq.2 d)⟩
  refine ⟨firstsOf_nodup, hmem, ?_, fun c d => stepTo (lo d) inc (g.idx c d), ?_, ?_⟩
  · unfold findCells
    rw [mem_firstsOf, hmax, ← hinc]
    simp only [List.mem_map, mem_boxPts_steps h0]
    constructor
    · rintro ⟨⟨p, hp, e⟩, -, -⟩
      refine ⟨p, hp, ?_⟩
      rintro ⟨c, h1, h2, h3, h4⟩
      exact (C12_existing_cell hw ht p lmin lmax).2.1 e ⟨c, h1, h4, h2, by omega⟩
    · rintro ⟨p, hp, hno⟩
      refine ⟨⟨p, hp, (C12_existing_cell hw ht _ lmin lmax).2.2 ?_⟩, by simp, getChild_zero.symm⟩
      rintro ⟨c, h1, h2, h3, h4⟩
      exact hno ⟨c, h1, h3, by omega, h2⟩
  · intro c hc hne
    obtain ⟨h1, h2, h3, p, h4, h5⟩ := (hmem c hne).1 hc
    exact hfirst c h1 h3 p h4 h5
  · unfold findCells
    rw [hmax, ← hinc]
    refine firstsOf_order (k := fun c d => stepTo (lo d) inc (g.idx c d)) (boxPts_sorted h0) ?_ ?_
    · intro p hp hne
      exact hch _ ((hex p _ hne).1 rfl).1
    · intro p hp hne
      obtain ⟨h1, h2, h3, h4⟩ := (hex p _ hne).1 rfl
      have hp' := (mem_boxPts_steps h0).1 hp
      obtain ⟨k1, k2, k3⟩ := hfirst _ h1 (by omega) p hp' h2
      refine ⟨(mem_boxPts_steps h0).2 k1, (hex _ _ hne).2 ⟨h1, k2, h3, h4⟩, ?_⟩
      have l0 := k3 p hp' h2 0
      have l1 := k3 p hp' h2 1
      have l2 := k3 p hp' h2 2
      show ¬ Before p fun d => stepTo (lo d) inc (g.idx (existingI g E p lmin lmax) d)
      unfold Before
      dsimp only
      omega

/-- C72, what is never missing whatever the box: existing cells between given refinement levels that overlap the box made
shorter by one less than the length of cells of the given maximum refinement level. -/
theorem C72_inside_partial (hm : m.OK) (ht : Tiled (m.grid per hood) E) {lo hi : V3 Nat}
    (hh : (m.grid per hood).InGrid hi) {lmin : Int} {lmax : Nat} (hl : (lmax : Int) ≤ m.maxLvl) {c : Nat}
    (hc : E c = true) (h1 : lmin ≤ (m.grid per hood).lvl c) (h2 : (m.grid per hood).lvl c ≤ lmax) {p : V3 Nat}
    (hp : ∀ d, lo d ≤ p d ∧ p d + 2 ^ (m.maxLvl.toNat - lmax) ≤ hi d + 1) (hpc : (m.grid per hood).Mem p c) :
    ∃ r, findCells64 m E lo hi lmin lmax = .ok r ∧ c ∈ r := by
  obtain ⟨r, e, -, hr, -⟩ := C72_every_box hm ht hh hl (lmin := lmin) rfl (lo := lo)
  refine ⟨r, e, (hr c ?_).2 ⟨hc, h1, h2, fun d => stepTo (lo d) (2 ^ (m.maxLvl.toNat - lmax))
    ((m.grid per hood).idx c d), ?_⟩⟩
  · have := (ht.valid c hc).1
    omega
  have h0 : 0 < 2 ^ (m.maxLvl.toNat - lmax) := Nat.pow_pos (by omega)
  have hs : 2 ^ (m.maxLvl.toNat - lmax) ≤ (m.grid per hood).side c :=
    Nat.pow_le_pow_right (by omega) (by
      have : (m.grid per hood).maxLvl = m.maxLvl.toNat := rfl
      omega)
  refine ⟨⟨fun d => ?_, fun d => (stepTo_spec h0).2.2.2.1⟩, fun d => ?_⟩ <;>
    obtain ⟨s1, s2, s3, -, -⟩ := stepTo_spec (lo := lo d) (i := (m.grid per hood).idx c d) h0 <;>
    have h3 := hp d <;> have h4 := hpc d
  · refine ⟨s1, ?_⟩
    show stepTo _ _ _ ≤ hi d
    omega
  · refine ⟨s2, ?_⟩
    show stepTo _ _ _ < _
    have h5 := (stepTo_spec (lo := lo d) (i := (m.grid per hood).idx c d) h0).2.2.2.2
    rcases Nat.le_total ((m.grid per hood).idx c d) (lo d) with h | h
    · have := h5 (lo d) (Nat.le_refl _) h (by rw [Nat.sub_self]; exact Nat.dvd_zero _)
      omega
    · omega

/-- A box from 3 to 7 made shorter by 3 is 3 to 4, cell 2 is at 4 to 7. -/
example : tinyM.OK ∧ Tiled (tinyM.grid (v3 false false true) 1) coarseE ∧
    (tinyM.grid (v3 false false true) 1).InGrid (v3 7 3 3) ∧ coarseE 2 = true ∧
    (∀ d, (v3 3 0 0 : V3 Nat) d ≤ (v3 4 0 0 : V3 Nat) d ∧
      (v3 4 0 0 : V3 Nat) d + 2 ^ (tinyM.maxLvl.toNat - 0) ≤ (v3 7 3 3 : V3 Nat) d + 1) ∧
    (tinyM.grid (v3 false false true) 1).Mem (v3 4 0 0) 2 := by
  refine ⟨tinyM_ok, coarse_tiled, ?_, by decide, ?_, by decide⟩
  · unfold Cfg.InGrid; rw [forall_fin3]; decide
  · rw [forall_fin3]; decide

theorem bind_none_of {α β : Type} {x : Option α} {f : α → Option β} (h : ∀ a, x = some a → f a = none) :
    x.bind f = none := by
  cases x with
  | none => rfl
  | some a => exact h a rfl

theorem axis64_head {lo hi inc : Nat} (h : lo ≤ hi) {l : List Nat} (e : axis64 lo hi inc = some l) :
    ∃ l', l = lo :: l' := by
  unfold axis64 axisLoop at e
  rw [if_pos h] at e
  cases hx : axisLoop hi inc W (wadd lo inc) with
  | none => rw [hx] at e; cases e
  | some l' => rw [hx] at e; cases e; exact ⟨l', rfl⟩

/-- C72: `find_cells` returns for every box that ends inside of the grid, but not for boxes that end too close to the end of
64-bit indices. -/
theorem C72_endless (E : Nat → Bool) {lo hi : V3 Nat} {lmin lmax : Int} (hl : 0 ≤ m.maxLvl - lmax)
    (hl' : m.maxLvl - lmax < 64) (hlo : ∀ d, lo d ≤ hi d) (hhi : ∀ d, hi d < W) {inc : Nat}
    (hinc : inc = 2 ^ (m.maxLvl - lmax).toNat) {d : Fin 3} (hd : W - inc + lo d % inc ≤ hi d) :
    findCells64 m E lo hi lmin lmax = .hangs := by
  have h0 : 0 < inc := by rw [hinc]; exact Nat.pow_pos (by omega)
  have hdvd : inc ∣ W := by rw [hinc]; exact Nat.pow_dvd_pow 2 (by omega)
  have hn : axis64 (lo d) (hi d) inc = none :=
    axisLoop_none h0 hdvd _ hd (Nat.mod_lt _ h0) _ _ (Nat.lt_of_le_of_lt (hlo d) (hhi d)) rfl
  have hb : box64 lo hi inc = none := by
    unfold box64
    refine bind_none_of fun zs hz => ?_
    obtain ⟨zs, rfl⟩ := axis64_head (hlo 2) hz
    unfold eachOf
    refine bind_none_of fun a ha => ?_
    exfalso
    have : ((axis64 (lo 1) (hi 1) inc).bind fun ys => eachOf ys fun y =>
      (axis64 (lo 0) (hi 0) inc).map fun xs => xs.map fun x => v3 x y (lo 2)) = none := by
      refine bind_none_of fun ys hy => ?_
      obtain ⟨ys, rfl⟩ := axis64_head (hlo 1) hy
      unfold eachOf
      refine bind_none_of fun b hb => ?_
      exfalso
      cases hx : axis64 (lo 0) (hi 0) inc with
      | none => rw [hx] at hb; cases hb
      | some xs =>
        have : ∀ d, axis64 (lo d) (hi d) inc ≠ none := by
          rw [forall_fin3, hx, hy, hz]
          exact ⟨nofun, nofun, nofun⟩
        exact this d hn
    exact nomatch this.symm.trans ha
  unfold findCells64
  rw [if_neg (by omega), ← hinc, hb]

/-- A box up to the largest index. -/
example (E : Nat → Bool) : findCells64 tinyM E (v3 0 0 0) (v3 (2 ^ 64 - 1) 3 3) 0 1 = .hangs :=
  C72_endless E (by decide) (by decide) (by rw [forall_fin3]; decide) (by rw [forall_fin3]; decide +kernel)
    (d := 0) (inc := 2) rfl (by decide +kernel)

/-- C72: levels above the maximum refinement level, or 64 or more below it, are undefined behavior. -/
theorem C72_levels (E : Nat → Bool) (lo hi : V3 Nat) (lmin lmax : Int) :
    findCells64 m E lo hi lmin lmax = .undef ↔ m.maxLvl < lmax ∨ 64 ≤ m.maxLvl - lmax := by
  unfold findCells64
  constructor
  · intro h
    split at h
    · omega
    · split at h <;> cases h
  · intro h
    rw [if_pos (by omega)]

end Dccrg
