import Verif.MappingTree64
/-!
# C01–C06: laws of cell ids, indices and the refinement tree

All statements are about the 64-bit model of `Mapping` in `Verif.Mapping64`. The hypothesis
`m.OK` says: lengths are positive, the maximum refinement level is non-negative, the exact
number of possible cells fits in 64 bits and `m.lastCell` is that number.
-/
namespace Dccrg
namespace Mapping

/-- Spec: index triple `p` lies inside of `cell`, in terms of what `get_indices` and
`get_cell_length_in_indices` return. -/
def Inside (m : Mapping) (p : V3 Nat) (cell : Nat) : Prop :=
  ∀ d, m.getIndices cell d ≤ p d ∧ p d < m.getIndices cell d + m.cellLength cell

/-- Spec: index triple inside of the grid (over `Nat`, no wraparound). -/
def InsideGrid (m : Mapping) (p : V3 Nat) : Prop := ∀ d, p d < m.len d * 2 ^ m.maxLvl.toNat

/-- Spec: cell id in the valid range. -/
def ValidId (m : Mapping) (cell : Nat) : Prop := 1 ≤ cell ∧ cell ≤ m.lastCell

instance (m : Mapping) (c : Nat) : Decidable (m.ValidId c) := inferInstanceAs (Decidable (_ ∧ _))

/-- A non-trivial configuration: 2 x 3 x 1 level 0 cells, maximum refinement level 2. -/
def sample : Mapping := { len := v3 2 3 1, maxLvl := 2, lastCell := 438 }

theorem sample_reachable : ((init.setLength (v3 2 3 1)).2.setMaxLvl 2) = (true, sample) := by
  decide +kernel

theorem sample_ok : sample.OK where
  pos := by rw [forall_fin3]; decide
  nonneg := by decide
  fits := by decide
  last := by decide

variable {m : Mapping}

theorem validId_iff (h : m.OK) {c : Nat} : m.ValidId c ↔ m.cfg.Valid c := by
  unfold ValidId Cfg.Valid; rw [h.last]

theorem insideGrid_iff {p : V3 Nat} : m.InsideGrid p ↔ m.cfg.InGrid p := Iff.rfl

theorem inside_iff (h : m.OK) {p : V3 Nat} {c : Nat} (hv : m.ValidId c) :
    m.Inside p c ↔ m.cfg.Mem p c := by
  have hv' := (validId_iff h).1 hv
  unfold Inside Cfg.Mem
  rw [getIndices_eq h, cellLength_eq h, if_pos hv', if_pos hv']

/-- C01 -/
theorem C01_id_roundtrip (h : m.OK) {c : Nat} (hv : m.ValidId c) :
    0 ≤ m.getLevel c ∧ m.getLevel c ≤ m.maxLvl ∧
    m.cellFromIndices (m.getIndices c) (m.getLevel c) = c := by
  have hv' := (validId_iff h).1 hv
  have hl := Cfg.lvl_le hv'
  have hm := cfg_max h
  rw [getLevel_eq h, getIndices_eq h, if_pos hv', if_pos hv', cellFromIndices_eq h,
    if_pos ⟨Cfg.idx_inGrid h.wf hv', by omega, by omega⟩]
  exact ⟨by omega, by omega, Cfg.cellAt_idx hv'⟩

example : sample.OK ∧ sample.ValidId 50 ∧ sample.getLevel 50 = 1 := ⟨sample_ok, by decide, by decide⟩

/-- C02 -/
theorem C02_index_roundtrip (h : m.OK) {p : V3 Nat} (hp : m.InsideGrid p) {l : Int} (h0 : 0 ≤ l)
    (hl : l ≤ m.maxLvl) :
    m.ValidId (m.cellFromIndices p l) ∧
    m.getLevel (m.cellFromIndices p l) = l ∧
    m.cellLength (m.cellFromIndices p l) = 2 ^ (m.maxLvl - l).toNat ∧
    (∀ d, m.getIndices (m.cellFromIndices p l) d
      = p d / 2 ^ (m.maxLvl - l).toNat * 2 ^ (m.maxLvl - l).toNat) ∧
    m.Inside p (m.cellFromIndices p l) ∧
    (∀ c, m.ValidId c → m.getLevel c = l → m.Inside p c → c = m.cellFromIndices p l) := by
  have hm := cfg_max h
  have hp' : m.cfg.InGrid p := hp
  have hl' : l.toNat ≤ m.cfg.maxLvl := by omega
  have e : m.cellFromIndices p l = m.cfg.cellAt l.toNat p := by
    rw [cellFromIndices_eq h, if_pos ⟨hp', h0, hl⟩]
  have hv := Cfg.cellAt_valid hp' hl'
  have es : (m.maxLvl - l).toNat = m.cfg.maxLvl - l.toNat := by omega
  rw [e]
  have hv2 := (validId_iff h).2 hv
  refine ⟨hv2, ?_, ?_, ?_, ?_, ?_⟩
  · rw [getLevel_eq h, if_pos hv, Cfg.lvl_cellAt hp' hl']; omega
  · rw [cellLength_eq h, if_pos hv, Cfg.side_cellAt hp' hl', es]
  · intro d
    rw [getIndices_eq h, if_pos hv, Cfg.idx_cellAt hp' hl', es]
  · exact (inside_iff h hv2).2 (Cfg.mem_cellAt hp' hl')
  · intro c hc hcl hcp
    have hc' := (validId_iff h).1 hc
    rw [getLevel_eq h, if_pos hc'] at hcl
    have := Cfg.cellAt_of_mem h.wf hc' ((inside_iff h hc).1 hcp)
    rw [← this]
    congr 1
    omega

example : sample.InsideGrid (v3 7 11 2) ∧ (0 : Int) ≤ 1 ∧ 1 ≤ sample.maxLvl := by
  refine ⟨?_, by decide, by decide⟩
  unfold InsideGrid
  rw [forall_fin3]
  decide

/-- C03: `get_cell_from_indices` fails exactly for out-of-grid indices and levels. -/
theorem C03_cell_error_iff (h : m.OK) (p : V3 Nat) (l : Int) :
    m.cellFromIndices p l = errorCell ↔ ¬ (m.InsideGrid p ∧ 0 ≤ l ∧ l ≤ m.maxLvl) := by
  rw [cellFromIndices_eq h]
  have hm := cfg_max h
  constructor
  · intro he hc
    have hc' : m.cfg.InGrid p ∧ 0 ≤ l ∧ l ≤ m.maxLvl := hc
    rw [if_pos hc'] at he
    have := (Cfg.cellAt_valid hc'.1 (l := l.toNat) (by omega)).1
    rw [he] at this
    exact absurd this (by decide)
  · intro hn
    have hn' : ¬ (m.cfg.InGrid p ∧ 0 ≤ l ∧ l ≤ m.maxLvl) := hn
    rw [if_neg hn']; rfl

/-- C03: every query about a cell fails exactly for ids outside of the valid range. -/
theorem C03_invalid_iff (h : m.OK) {c : Nat} (hc : c < W) :
    (¬ m.ValidId c ↔ m.getLevel c = -1) ∧
    (¬ m.ValidId c ↔ ∀ d, m.getIndices c d = errorIndex) ∧
    (¬ m.ValidId c ↔ m.cellLength c = errorIndex) ∧
    (¬ m.ValidId c ↔ m.getParent c = errorCell) ∧
    (¬ m.ValidId c ↔ m.getChild c = errorCell) ∧
    (¬ m.ValidId c ↔ m.siblings c = List.replicate 8 errorCell) ∧
    (¬ m.ValidId c ↔ m.level0Parent c = errorCell) := by
  have _ := hc
  rw [getLevel_eq h, getIndices_eq h, cellLength_eq h, getParent_eq h, getChild_eq h,
    siblings_eq h, level0Parent_eq h]
  by_cases hv : m.ValidId c
  · have hv' := (validId_iff h).1 hv
    have hne : ∀ {k}, m.cfg.Valid k → k ≠ errorCell := fun hk he => by
      have := hk.1; rw [he] at this; exact absurd this (by decide)
    simp only [if_pos hv', hv, not_true_eq_false, false_iff]
    have hn : ∀ d, m.cfg.n d ≤ errorIndex := fun d => by
      have := (lens_lt h (Nat.le_refl _)).1 d
      have e : m.cfg.n d = m.len d * 2 ^ m.cfg.maxLvl := rfl
      unfold errorIndex
      omega
    refine ⟨by omega, ?_, ?_, hne (Cfg.parent_valid h.wf hv'), ?_, ?_, ?_⟩
    · intro he
      have := Cfg.idx_inGrid h.wf hv' 0
      have := hn 0
      have := he 0
      omega
    · have h1 := Cfg.idx_add_side_le h.wf hv' 0
      have h2 := hn 0
      have h3 : errorIndex = W - 1 := rfl
      have h4 := (lens_lt h (Nat.le_refl _)).1 0
      have e : m.cfg.n 0 = m.len 0 * 2 ^ m.cfg.maxLvl := rfl
      intro he
      have hs : m.cfg.side c = 2 ^ (m.cfg.maxLvl - m.cfg.lvl c) := rfl
      have hlt := shift_counts h
      have em : m.cfg.maxLvl = m.maxLvl.toNat := rfl
      have hp : 2 ^ (m.cfg.maxLvl - m.cfg.lvl c) ≤ 2 ^ 21 :=
        Nat.pow_le_pow_right (by omega) (by omega)
      have hW : W = 2 ^ 64 := rfl
      omega
    · split
      · rename_i hl
        exact hne (Cfg.child_valid h.wf hv' hl (fun _ => Nat.zero_le _))
      · exact hne hv'
    · split
      · intro he
        have := (List.cons.inj he).1
        exact hne hv' this
      · rename_i h0
        intro he
        have hmem := Cfg.mem_children_parent h.wf hv' (by omega)
        rw [he] at hmem
        exact hne hv' (List.eq_of_mem_replicate hmem)
    · exact hne (Cfg.cellAt_valid (Cfg.idx_inGrid h.wf hv') (Nat.zero_le _))
  · have hv' : ¬ m.cfg.Valid c := fun hh => hv ((validId_iff h).2 hh)
    simp only [if_neg hv', hv, not_false_eq_true, true_iff]
    exact ⟨trivial, fun _ => trivial, trivial, rfl, rfl, rfl, rfl⟩

example : sample.ValidId 438 ∧ ¬ sample.ValidId 439 ∧ ¬ sample.ValidId 0 := by decide

/-- C04, the part that holds: for valid ids and for `error_cell` the result is all error cells
exactly when the cell cannot have children. Missing: ids larger than the last cell, for which
the claim is false (`C04_false`). -/
theorem C04_no_children_partial (h : m.OK) {c : Nat} (hc : c = errorCell ∨ m.ValidId c) :
    m.allChildren c = List.replicate 8 errorCell ↔
      (c = errorCell ∨ m.getLevel c = m.maxLvl) := by
  rcases hc with hc | hv
  · simp [allChildren, hc]
  · have hv' := (validId_iff h).1 hv
    have hl := Cfg.lvl_le hv'
    have hm := cfg_max h
    have hc0 : c ≠ errorCell := by have := hv.1; unfold errorCell; omega
    rw [allChildren_eq h hv', getLevel_eq h, if_pos hv']
    by_cases h1 : m.cfg.lvl c < m.cfg.maxLvl
    · rw [if_pos h1]
      constructor
      · intro he
        have hmem : m.cfg.child c (fun _ => 0) ∈ m.cfg.children c :=
          Cfg.mem_children.2 ⟨_, fun _ => Nat.zero_le _, rfl⟩
        rw [he] at hmem
        have := (Cfg.child_valid h.wf hv' h1 (o := fun _ => 0) (fun _ => Nat.zero_le _)).1
        rw [List.eq_of_mem_replicate hmem] at this
        exact absurd this (by decide)
      · rintro (he | he)
        · exact absurd he hc0
        · omega
    · rw [if_neg h1]
      exact ⟨fun _ => .inr (by omega), fun _ => rfl⟩

example : sample.OK ∧ sample.ValidId 60 ∧ sample.getLevel 60 = sample.maxLvl ∧
    sample.ValidId 6 ∧ sample.getLevel 6 ≠ sample.maxLvl :=
  ⟨sample_ok, by decide, by decide, by decide, by decide⟩

/-- What the code does for ids beyond the last cell, for every configuration: the error indices
wrap around and the last entry is the valid cell 1. -/
theorem allChildren_beyond_last (h : m.OK) {c : Nat} (hc : m.lastCell < c) :
    m.allChildren c = [0, 0, 0, 0, 0, 0, 0, 1] := by
  have hnv : ¬ m.cfg.Valid c := fun hv => by have := hv.2; rw [← h.last] at this; omega
  have hnn := h.nonneg
  have hm := cfg_max h
  unfold allChildren
  rw [getLevel_eq h, getIndices_eq h, if_neg (by unfold errorCell; omega)]
  simp only [if_neg hnv]
  rw [if_neg (by omega)]
  have e : (m.maxLvl - (-1 + 1)).toNat = m.cfg.maxLvl := by omega
  rw [e, shl_eq h (Nat.le_refl _)]
  have hp := pow2_lt h (Nat.le_refl m.cfg.maxLvl)
  have hpos : 0 < 2 ^ m.cfg.maxLvl := Nat.pow_pos (by omega)
  have e0 : wadd errorIndex (0 * 2 ^ m.cfg.maxLvl) = W - 1 := by
    unfold wadd errorIndex
    rw [Nat.zero_mul, Nat.add_zero]; decide
  have e1 : wadd errorIndex (1 * 2 ^ m.cfg.maxLvl) = 2 ^ m.cfg.maxLvl - 1 := by
    unfold wadd errorIndex
    rw [Nat.one_mul, show W - 1 + 2 ^ m.cfg.maxLvl = (2 ^ m.cfg.maxLvl - 1) + W by
      have : 0 < W := by decide
      omega, Nat.add_mod_right, Nat.mod_eq_of_lt (by omega)]
  have hnot : ∀ (p : V3 Nat) (l : Int), (∃ d, p d = W - 1) → m.cellFromIndices p l = 0 := by
    rintro p l ⟨d, hd⟩
    rw [cellFromIndices_eq h, if_neg]
    rintro ⟨hg, _⟩
    have h1 := hg d
    have h2 := (lens_lt h (Nat.le_refl _)).1 d
    have e : m.cfg.n d = m.len d * 2 ^ m.cfg.maxLvl := rfl
    omega
  simp only [octants, List.map_cons, List.map_nil]
  have key : ∀ i j k : Nat, (i = 0 ∨ j = 0 ∨ k = 0) →
      m.cellFromIndices (fun d => wadd errorIndex (v3 i j k d * 2 ^ m.cfg.maxLvl)) (-1 + 1) = 0 := by
    intro i j k hijk
    apply hnot
    rcases hijk with rfl | rfl | rfl
    · exact ⟨0, e0⟩
    · exact ⟨1, e0⟩
    · exact ⟨2, e0⟩
  rw [key 0 0 0 (by simp), key 1 0 0 (by simp), key 0 1 0 (by simp), key 1 1 0 (by simp),
    key 0 0 1 (by simp), key 1 0 1 (by simp), key 0 1 1 (by simp)]
  have last : m.cellFromIndices (fun d => wadd errorIndex (v3 1 1 1 d * 2 ^ m.cfg.maxLvl)) (-1 + 1)
      = 1 := by
    have ef : (fun d => wadd errorIndex ((v3 1 1 1 : V3 Nat) d * 2 ^ m.cfg.maxLvl))
        = fun _ => 2 ^ m.cfg.maxLvl - 1 := by
      apply v3_ext <;> simp only [v3_0, v3_1, v3_2, e1]
    rw [ef, cellFromIndices_eq h, if_pos]
    · unfold Cfg.cellAt
      simp only [Int.add_left_neg, Int.toNat_zero, Nat.sub_zero, Cfg.base]
      rw [Nat.div_eq_of_lt (by omega)]
      simp
    · refine ⟨fun d => ?_, by omega, by omega⟩
      have h1 := Nat.le_mul_of_pos_left (2 ^ m.cfg.maxLvl) (h.pos d)
      have e : m.cfg.n d = m.len d * 2 ^ m.cfg.maxLvl := rfl
      show 2 ^ m.cfg.maxLvl - 1 < _
      omega
  rw [last]

/-- C04 is false of the code: an id beyond the last cell has a "child". -/
theorem C04_false : ∃ (m : Mapping) (c : Nat), m.OK ∧ c < W ∧ ¬ m.ValidId c ∧
    m.allChildren c ≠ List.replicate 8 errorCell :=
  ⟨sample, 439, sample_ok, by decide, by decide, by
    rw [allChildren_beyond_last sample_ok (by decide)]; decide⟩

/-- C05: children of a cell below maximum level. -/
theorem C05_children (h : m.OK) {c : Nat} (hv : m.ValidId c) (hl : m.getLevel c < m.maxLvl) :
    (m.allChildren c).length = 8 ∧ (m.allChildren c).Nodup ∧
    (m.allChildren c).head? = some (m.getChild c) ∧
    ∀ k ∈ m.allChildren c, m.ValidId k ∧ m.getLevel k = m.getLevel c + 1 ∧ m.getParent k = c ∧
      m.siblings k = m.allChildren c := by
  have hv' := (validId_iff h).1 hv
  have hm := cfg_max h
  rw [getLevel_eq h, if_pos hv'] at hl
  have hl' : m.cfg.lvl c < m.cfg.maxLvl := by omega
  rw [allChildren_eq h hv', if_pos hl', getChild_eq h, if_pos hv', if_pos hl']
  refine ⟨rfl, Cfg.children_nodup h.wf hv' hl', ?_, ?_⟩
  · simp only [Cfg.children, octants, List.map_cons, List.head?_cons, Option.some.injEq]
    congr 1
    apply v3_ext <;> rfl
  · intro k hk
    obtain ⟨kv, kl, kp⟩ := (Cfg.children_spec h.wf hv' hl').1 hk
    rw [getLevel_eq h, getLevel_eq h, if_pos hv', if_pos kv, getParent_eq h, if_pos kv,
      siblings_eq h, if_pos kv, if_neg (by omega), kp]
    exact ⟨(validId_iff h).2 kv, by omega, rfl, rfl⟩

example : sample.OK ∧ sample.ValidId 30 ∧ sample.getLevel 30 < sample.maxLvl :=
  ⟨sample_ok, by decide, by decide⟩

/-- C05: a cell of level > 0 is a child of its parent. -/
theorem C05_parent (h : m.OK) {c : Nat} (hv : m.ValidId c) (hl : 0 < m.getLevel c) :
    m.ValidId (m.getParent c) ∧ m.getLevel (m.getParent c) = m.getLevel c - 1 ∧
    c ∈ m.allChildren (m.getParent c) ∧ m.siblings c = m.allChildren (m.getParent c) := by
  have hv' := (validId_iff h).1 hv
  rw [getLevel_eq h, if_pos hv'] at hl
  have hp := Cfg.parent_valid h.wf hv'
  rw [getParent_eq h, if_pos hv', getLevel_eq h, getLevel_eq h, if_pos hv', if_pos hp,
    siblings_eq h, if_pos hv', if_neg (by omega), allChildren_eq h hp,
    if_pos (Cfg.lvl_parent_lt h.wf hv' (by omega)), Cfg.lvl_parent h.wf hv']
  exact ⟨(validId_iff h).2 hp, by omega, Cfg.mem_children_parent h.wf hv' (by omega), rfl⟩

example : sample.OK ∧ sample.ValidId 400 ∧ 0 < sample.getLevel 400 :=
  ⟨sample_ok, by decide, by decide⟩

theorem iter_parent (h : m.OK) (k : Nat) {c : Nat} (hv : m.cfg.Valid c) (hl : m.cfg.lvl c = k) :
    Nat.repeat m.getParent k c = m.cfg.cellAt 0 (m.cfg.idx c) := by
  have aux : ∀ (k : Nat) (f : Nat → Nat) (a : Nat),
      Nat.repeat f (k + 1) a = Nat.repeat f k (f a) := by
    intro k f a
    induction k with
    | zero => rfl
    | succ k ih => rw [Nat.repeat, ih]; rfl
  induction k generalizing c with
  | zero =>
    have := Cfg.cellAt_idx hv
    rw [hl] at this
    exact this.symm
  | succ k ih =>
    rw [aux, getParent_eq h, if_pos hv,
      ih (Cfg.parent_valid h.wf hv) (by rw [Cfg.lvl_parent h.wf hv]; omega)]
    have h1 := Cfg.mem_parent h.wf hv (Cfg.mem_idx c)
    exact Cfg.cellAt_coarse h.wf (Cfg.parent_valid h.wf hv) (Nat.zero_le _) (Cfg.mem_idx _) h1

/-- C05: `get_level_0_parent` is the parent iterated as many times as the cell's level. -/
theorem C05_level_0_parent (h : m.OK) {c : Nat} (hv : m.ValidId c) :
    m.level0Parent c = Nat.repeat m.getParent (m.getLevel c).toNat c ∧
    m.getLevel (m.level0Parent c) = 0 := by
  have hv' := (validId_iff h).1 hv
  have hg := Cfg.idx_inGrid h.wf hv'
  rw [level0Parent_eq h, if_pos hv', getLevel_eq h c, if_pos hv', getLevel_eq h,
    if_pos (Cfg.cellAt_valid hg (Nat.zero_le _)), Cfg.lvl_cellAt hg (Nat.zero_le _)]
  exact ⟨(iter_parent h _ hv' (by omega)).symm, rfl⟩

example : sample.OK ∧ sample.ValidId 400 ∧ sample.getLevel 400 = 2 :=
  ⟨sample_ok, by decide, by decide⟩

/-- C06: children partition their parent. -/
theorem C06_children_partition (h : m.OK) {c : Nat} (hv : m.ValidId c)
    (hl : m.getLevel c < m.maxLvl) (p : V3 Nat) :
    (m.Inside p c ↔ ∃ k ∈ m.allChildren c, m.Inside p k) ∧
    (∀ k ∈ m.allChildren c, ∀ k' ∈ m.allChildren c, m.Inside p k → m.Inside p k' → k = k') := by
  have hv' := (validId_iff h).1 hv
  have hm := cfg_max h
  rw [getLevel_eq h, if_pos hv'] at hl
  have hl' : m.cfg.lvl c < m.cfg.maxLvl := by omega
  rw [allChildren_eq h hv', if_pos hl']
  have hc : ∀ k ∈ m.cfg.children c, m.ValidId k ∧ m.cfg.lvl k = m.cfg.lvl c + 1 := fun k hk =>
    have := (Cfg.children_spec h.wf hv' hl').1 hk
    ⟨(validId_iff h).2 this.1, this.2.1⟩
  refine ⟨⟨fun hp => ?_, ?_⟩, ?_⟩
  · obtain ⟨k, hk, hkp⟩ := Cfg.exists_child_mem h.wf hv' hl' ((inside_iff h hv).1 hp)
    exact ⟨k, hk, (inside_iff h (hc k hk).1).2 hkp⟩
  · rintro ⟨k, hk, hkp⟩
    exact (inside_iff h hv).2
      (Cfg.mem_of_mem_children h.wf hv' hl' hk ((inside_iff h (hc k hk).1).1 hkp))
  · intro k hk k' hk' h1 h2
    exact Cfg.eq_of_mem_lvl h.wf ((validId_iff h).1 (hc k hk).1) ((validId_iff h).1 (hc k' hk').1)
      (by rw [(hc k hk).2, (hc k' hk').2]) ((inside_iff h (hc k hk).1).1 h1)
      ((inside_iff h (hc k' hk').1).1 h2)

/-- C06: two cells are nested or disjoint. -/
theorem C06_nested_or_disjoint (h : m.OK) {a b : Nat} (ha : m.ValidId a) (hb : m.ValidId b)
    (hl : m.getLevel a ≤ m.getLevel b) :
    (∀ p, m.Inside p b → m.Inside p a) ∨ (∀ p, ¬ (m.Inside p a ∧ m.Inside p b)) := by
  have ha' := (validId_iff h).1 ha
  have hb' := (validId_iff h).1 hb
  rw [getLevel_eq h, getLevel_eq h, if_pos ha', if_pos hb'] at hl
  by_cases hx : ∃ p, m.Inside p a ∧ m.Inside p b
  · obtain ⟨p, hpa, hpb⟩ := hx
    left
    intro q hq
    exact (inside_iff h ha).2 (Cfg.nested h.wf ha' hb' (by omega) ((inside_iff h ha).1 hpa)
      ((inside_iff h hb).1 hpb) ((inside_iff h hb).1 hq))
  · right
    intro p hp
    exact hx ⟨p, hp⟩

example : sample.OK ∧ sample.ValidId 2 ∧ sample.ValidId 9 ∧
    sample.getLevel 2 ≤ sample.getLevel 9 := ⟨sample_ok, by decide, by decide, by decide⟩

end Mapping
end Dccrg
