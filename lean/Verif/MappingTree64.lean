import Verif.MappingRefine
import Verif.MapTree
/-!
# 64-bit parents, children and siblings agree with the unbounded ones
-/
namespace Dccrg
namespace Mapping
variable {m : Mapping}

theorem cfg_max (h : m.OK) : (m.cfg.maxLvl : Int) = m.maxLvl := by
  have := h.nonneg
  have : m.cfg.maxLvl = m.maxLvl.toNat := rfl
  omega

theorem getParent_eq (h : m.OK) (c : Nat) :
    m.getParent c = if m.cfg.Valid c then m.cfg.parent c else 0 := by
  unfold getParent errorCell
  rw [getLevel_eq h, getIndices_eq h]
  have hm := cfg_max h
  by_cases hv : m.cfg.Valid c
  · have hl := Cfg.lvl_le hv
    simp only [if_pos hv]
    rw [if_neg (by omega)]
    unfold Cfg.parent
    by_cases h0 : m.cfg.lvl c = 0
    · rw [if_pos (by omega), if_pos h0]
    · rw [if_neg (by omega), if_neg h0, cellFromIndices_eq h,
        if_pos ⟨Cfg.idx_inGrid h.wf hv, by omega, by omega⟩]
      congr 1
      omega
  · simp only [if_neg hv]
    rw [if_pos (by omega)]

theorem level0Parent_eq (h : m.OK) (c : Nat) :
    m.level0Parent c = if m.cfg.Valid c then m.cfg.cellAt 0 (m.cfg.idx c) else 0 := by
  unfold level0Parent errorCell
  rw [getLevel_eq h, getIndices_eq h]
  have hm := cfg_max h
  by_cases hv : m.cfg.Valid c
  · have hl := Cfg.lvl_le hv
    simp only [if_pos hv]
    rw [if_neg (by omega)]
    by_cases h0 : m.cfg.lvl c = 0
    · rw [if_pos (by omega)]
      have := Cfg.cellAt_idx hv
      rw [h0] at this
      exact this.symm
    · rw [if_neg (by omega), cellFromIndices_eq h,
        if_pos ⟨Cfg.idx_inGrid h.wf hv, by omega, by omega⟩]
      rfl
  · simp only [if_neg hv]
    rw [if_pos (by omega)]

theorem childIdx_eq (h : m.OK) {c : Nat} (hv : m.cfg.Valid c) (hl : m.cfg.lvl c < m.cfg.maxLvl)
    {o : V3 Nat} (ho : ∀ d, o d ≤ 1) :
    (fun d => wadd (m.cfg.idx c d) (o d * wshl1 (m.maxLvl - ((m.cfg.lvl c : Int) + 1)).toNat)) =
      fun d => m.cfg.idx c d + o d * 2 ^ (m.cfg.maxLvl - (m.cfg.lvl c + 1)) := by
  have hm := cfg_max h
  have e : (m.maxLvl - ((m.cfg.lvl c : Int) + 1)).toNat = m.cfg.maxLvl - (m.cfg.lvl c + 1) := by
    omega
  rw [e, shl_eq h (by omega)]
  funext d
  apply wadd_eq
  have h1 := Cfg.child_inGrid h.wf hv hl ho d
  have h2 := (lens_lt h (Nat.le_refl _)).1 d
  have e : m.cfg.n d = m.len d * 2 ^ m.cfg.maxLvl := rfl
  have h1' : m.cfg.idx c d + o d * 2 ^ (m.cfg.maxLvl - (m.cfg.lvl c + 1)) < m.cfg.n d := h1
  omega

theorem allChildren_eq (h : m.OK) {c : Nat} (hv : m.cfg.Valid c) :
    m.allChildren c = if m.cfg.lvl c < m.cfg.maxLvl then m.cfg.children c
      else List.replicate 8 0 := by
  unfold allChildren errorCell
  rw [getLevel_eq h, getIndices_eq h, if_neg (by have := hv.1; omega)]
  have hm := cfg_max h
  simp only [if_pos hv]
  by_cases hl : m.cfg.lvl c < m.cfg.maxLvl
  · rw [if_neg (by omega), if_pos hl]
    unfold Cfg.children
    apply List.map_congr_left
    intro o ho
    rw [childIdx_eq h hv hl (Cfg.octants_le ho), cellFromIndices_eq h,
      if_pos ⟨Cfg.child_inGrid h.wf hv hl (Cfg.octants_le ho), by omega, by omega⟩]
    rfl
  · rw [if_pos (by omega), if_neg hl]

theorem getChild_eq (h : m.OK) (c : Nat) :
    m.getChild c = if m.cfg.Valid c then
      (if m.cfg.lvl c < m.cfg.maxLvl then m.cfg.child c (fun _ => 0) else c) else 0 := by
  unfold getChild errorCell
  rw [getLevel_eq h, getIndices_eq h, h.last]
  have hm := cfg_max h
  by_cases hv : m.cfg.Valid c
  · have hv' : 1 ≤ c ∧ c ≤ m.cfg.last := hv
    rw [if_neg (by omega)]
    simp only [if_pos hv]
    by_cases hl : m.cfg.lvl c < m.cfg.maxLvl
    · rw [if_neg (by omega), if_pos hl, cellFromIndices_eq h,
        if_pos ⟨Cfg.idx_inGrid h.wf hv, by omega, by omega⟩]
      unfold Cfg.child
      simp only [Nat.zero_mul, Nat.add_zero]
      rfl
    · rw [if_pos (by omega), if_neg hl]
  · have hv' : ¬ (1 ≤ c ∧ c ≤ m.cfg.last) := hv
    rw [if_pos (by omega), if_neg hv]

theorem siblings_eq (h : m.OK) (c : Nat) :
    m.siblings c = if m.cfg.Valid c then
      (if m.cfg.lvl c = 0 then c :: List.replicate 7 0 else m.cfg.children (m.cfg.parent c))
      else List.replicate 8 0 := by
  unfold siblings errorCell
  rw [getLevel_eq h]
  have hm := cfg_max h
  by_cases hv : m.cfg.Valid c
  · have hl := Cfg.lvl_le hv
    simp only [if_pos hv]
    rw [if_neg (by omega)]
    by_cases h0 : m.cfg.lvl c = 0
    · rw [if_pos (by omega), if_pos h0]
    · rw [if_neg (by omega), if_neg h0, getParent_eq h, if_pos hv,
        allChildren_eq h (Cfg.parent_valid h.wf hv),
        if_pos (Cfg.lvl_parent_lt h.wf hv (by omega))]
  · simp only [if_neg hv]
    rw [if_pos (by omega)]

end Mapping
end Dccrg
