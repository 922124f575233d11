import Verif.MapNat
/-!
# Refinement tree over natural numbers: parents, children, nesting
-/
namespace Dccrg
namespace Cfg

/-- `get_parent` of a valid cell (dccrg_mapping.hpp:368-384). -/
def parent (g : Cfg) (c : Nat) : Nat :=
  if g.lvl c = 0 then c else g.cellAt (g.lvl c - 1) (g.idx c)

/-- Child of a valid cell below maximum level in given octant (dccrg_mapping.hpp:414-436). -/
def child (g : Cfg) (c : Nat) (o : V3 Nat) : Nat :=
  g.cellAt (g.lvl c + 1) (fun d => g.idx c d + o d * 2 ^ (g.maxLvl - (g.lvl c + 1)))

/-- `get_all_children` of a valid cell below maximum level (dccrg_mapping.hpp:392-442). -/
def children (g : Cfg) (c : Nat) : List Nat := octants.map (g.child c)

variable {g : Cfg}

theorem octants_le {o : V3 Nat} (h : o ∈ octants) (d : Fin 3) : o d ≤ 1 := by
  revert d
  simp only [octants, List.mem_cons, List.not_mem_nil, or_false] at h
  rw [forall_fin3]
  rcases h with h | h | h | h | h | h | h | h <;> subst h <;> simp

theorem mem_octants {o : V3 Nat} (h : ∀ d, o d ≤ 1) : o ∈ octants := by
  have h0 := h 0
  have h1 := h 1
  have h2 := h 2
  have key : o = v3 (o 0) (o 1) (o 2) := v3_ext rfl rfl rfl
  rw [key]
  simp only [octants, List.mem_cons, List.not_mem_nil, or_false]
  have a0 : o 0 = 0 ∨ o 0 = 1 := by omega
  have a1 : o 1 = 0 ∨ o 1 = 1 := by omega
  have a2 : o 2 = 0 ∨ o 2 = 1 := by omega
  rcases a0 with a0 | a0 <;> rcases a1 with a1 | a1 <;> rcases a2 with a2 | a2 <;>
    simp [a0, a1, a2]

theorem mem_octants_iff {o : V3 Nat} : o ∈ octants ↔ ∀ d, o d ≤ 1 :=
  ⟨fun h d => octants_le h d, mem_octants⟩

theorem octants_nodup : octants.Nodup := by decide

/-- Half of the side of a cell below maximum level. -/
theorem side_half {c : Nat} (hl : g.lvl c < g.maxLvl) :
    g.side c = 2 * 2 ^ (g.maxLvl - (g.lvl c + 1)) := by
  rw [side, show g.maxLvl - g.lvl c = (g.maxLvl - (g.lvl c + 1)) + 1 by omega, Nat.pow_succ,
    Nat.mul_comm]

theorem child_inGrid (hw : g.WF) {c : Nat} (h : g.Valid c) (hl : g.lvl c < g.maxLvl)
    {o : V3 Nat} (ho : ∀ d, o d ≤ 1) :
    g.InGrid (fun d => g.idx c d + o d * 2 ^ (g.maxLvl - (g.lvl c + 1))) := by
  intro d
  have h1 := idx_add_side_le hw h d
  have h2 := side_half hl
  have h3 : 0 < 2 ^ (g.maxLvl - (g.lvl c + 1)) := Nat.pow_pos (by omega)
  have h4 := Nat.mul_le_mul_right (2 ^ (g.maxLvl - (g.lvl c + 1))) (ho d)
  show g.idx c d + _ < _
  generalize 2 ^ (g.maxLvl - (g.lvl c + 1)) = t at *
  omega

section child
variable (hw : g.WF) {c : Nat} (h : g.Valid c) (hl : g.lvl c < g.maxLvl) {o : V3 Nat}
  (ho : ∀ d, o d ≤ 1)
include hw h hl ho

theorem child_valid : g.Valid (g.child c o) := cellAt_valid (child_inGrid hw h hl ho) (by omega)

theorem lvl_child : g.lvl (g.child c o) = g.lvl c + 1 :=
  lvl_cellAt (child_inGrid hw h hl ho) (by omega)

theorem side_child : g.side c = 2 * g.side (g.child c o) := by
  rw [side_half hl, child, side_cellAt (child_inGrid hw h hl ho) (by omega)]

theorem idx_child (d : Fin 3) :
    g.idx (g.child c o) d = g.idx c d + o d * g.side (g.child c o) := by
  have hdvd := side_dvd_idx hw h d
  rw [child, idx_cellAt (child_inGrid hw h hl ho) (by omega),
    side_cellAt (child_inGrid hw h hl ho) (by omega)]
  rw [side_half hl] at hdvd
  obtain ⟨q, hq⟩ := hdvd
  have hpos : 0 < 2 ^ (g.maxLvl - (g.lvl c + 1)) := Nat.pow_pos (by omega)
  show (g.idx c d + o d * 2 ^ (g.maxLvl - (g.lvl c + 1))) / _ * _ = _
  rw [hq]
  generalize 2 ^ (g.maxLvl - (g.lvl c + 1)) = t at *
  have e : 2 * t * q + o d * t = t * (2 * q + o d) := by
    rw [Nat.mul_add, Nat.mul_comm (o d) t, Nat.mul_comm 2 t, Nat.mul_assoc]
  rw [e, Nat.mul_div_cancel_left _ hpos, Nat.mul_comm]

theorem mem_of_mem_child {p : V3 Nat} (hp : g.Mem p (g.child c o)) : g.Mem p c := fun d => by
  have h1 := hp d
  rw [idx_child hw h hl ho d] at h1
  have h2 := side_child hw h hl ho
  have h3 : o d = 0 ∨ o d = 1 := by have := ho d; omega
  rcases h3 with h3 | h3 <;> rw [h3] at h1 <;> omega

end child

/-- Rounding down to coarser cells factors through finer cells. -/
theorem div_div_lvl {a b : Nat} (hab : a ≤ b) (hb : b ≤ g.maxLvl) (x : Nat) :
    x / 2 ^ (g.maxLvl - a) = x / 2 ^ (g.maxLvl - b) / 2 ^ (b - a) := by
  rw [Nat.div_div_eq_div_mul, ← Nat.pow_add]
  congr 2
  omega

/-- All indices of a cell lie in the same cell of any coarser level. -/
theorem cellAt_coarse (hw : g.WF) {c : Nat} (h : g.Valid c) {l : Nat} (hl : l ≤ g.lvl c)
    {p q : V3 Nat} (hp : g.Mem p c) (hq : g.Mem q c) : g.cellAt l p = g.cellAt l q := by
  have key : ∀ d, p d / 2 ^ (g.maxLvl - g.lvl c) = q d / 2 ^ (g.maxLvl - g.lvl c) := by
    intro d
    obtain ⟨k, _, e⟩ := idx_div_bounds hw h d
    have h1 := hp d
    have h2 := hq d
    rw [e] at h1 h2
    rw [side] at h1 h2
    rw [Nat.div_eq_of_lt_le h1.1 (by rw [Nat.succ_mul]; exact h1.2),
      Nat.div_eq_of_lt_le h2.1 (by rw [Nat.succ_mul]; exact h2.2)]
  unfold cellAt
  simp only [div_div_lvl hl (lvl_le h), key]

/-- Nesting: if two cells share an index then the finer one is inside of the coarser one. -/
theorem nested (hw : g.WF) {a b : Nat} (ha : g.Valid a) (hb : g.Valid b)
    (hl : g.lvl a ≤ g.lvl b) {p : V3 Nat} (hpa : g.Mem p a) (hpb : g.Mem p b) {q : V3 Nat}
    (hq : g.Mem q b) : g.Mem q a := by
  rw [mem_iff_cellAt hw ha (mem_inGrid hw hb hq), cellAt_coarse hw hb hl hq hpb]
  exact cellAt_of_mem hw ha hpa

theorem eq_of_mem_lvl (hw : g.WF) {a b : Nat} (ha : g.Valid a) (hb : g.Valid b)
    (hl : g.lvl a = g.lvl b) {p : V3 Nat} (hpa : g.Mem p a) (hpb : g.Mem p b) : a = b := by
  rw [← cellAt_of_mem hw ha hpa, hl, cellAt_of_mem hw hb hpb]

section parent
variable (hw : g.WF) {c : Nat} (h : g.Valid c)
include hw h

theorem parent_valid : g.Valid (g.parent c) := by
  unfold parent
  split
  · exact h
  · exact cellAt_valid (idx_inGrid hw h) (by have := lvl_le h; omega)

theorem lvl_parent : g.lvl (g.parent c) = g.lvl c - 1 := by
  unfold parent
  split
  · omega
  · exact lvl_cellAt (idx_inGrid hw h) (by have := lvl_le h; omega)

theorem mem_parent {p : V3 Nat} (hp : g.Mem p c) : g.Mem p (g.parent c) := by
  have hl := lvl_parent hw h
  have hv := parent_valid hw h
  rw [mem_iff_cellAt hw hv (mem_inGrid hw h hp), hl]
  unfold parent
  split
  · rename_i h0
    rw [show g.lvl c - 1 = g.lvl c by omega]
    exact cellAt_of_mem hw h hp
  · exact cellAt_coarse hw h (by omega) hp (mem_idx c)

theorem side_parent (h0 : 0 < g.lvl c) : g.side (g.parent c) = 2 * g.side c := by
  rw [side, side, lvl_parent hw h]
  have := lvl_le h
  rw [show g.maxLvl - (g.lvl c - 1) = (g.maxLvl - g.lvl c) + 1 by omega, Nat.pow_succ, Nat.mul_comm]

theorem lvl_parent_lt (h0 : 0 < g.lvl c) : g.lvl (g.parent c) < g.maxLvl := by
  have := lvl_le h
  rw [lvl_parent hw h]; omega

end parent

theorem parent_child (hw : g.WF) {c : Nat} (h : g.Valid c) (hl : g.lvl c < g.maxLvl) {o : V3 Nat}
    (ho : ∀ d, o d ≤ 1) : g.parent (g.child c o) = c := by
  have hv := child_valid hw h hl ho
  apply eq_of_mem_lvl hw (parent_valid hw hv) h (by rw [lvl_parent hw hv, lvl_child hw h hl ho]; omega)
    (mem_parent hw hv (mem_idx _)) (mem_of_mem_child hw h hl ho (mem_idx _))

theorem child_inj (hw : g.WF) {c : Nat} (h : g.Valid c) (hl : g.lvl c < g.maxLvl) {o o' : V3 Nat}
    (ho : ∀ d, o d ≤ 1) (ho' : ∀ d, o' d ≤ 1) (e : g.child c o = g.child c o') : o = o' := by
  funext d
  have h1 := idx_child hw h hl ho d
  have h2 := idx_child hw h hl ho' d
  rw [e, h2] at h1
  exact (Nat.eq_of_mul_eq_mul_right (side_pos _) (Nat.add_left_cancel h1)).symm

theorem mem_children {c k : Nat} :
    k ∈ g.children c ↔ ∃ o, (∀ d, o d ≤ 1) ∧ g.child c o = k := by
  simp only [children, List.mem_map, mem_octants_iff]

theorem children_nodup (hw : g.WF) {c : Nat} (h : g.Valid c) (hl : g.lvl c < g.maxLvl) :
    (g.children c).Nodup := by
  unfold children
  have : ∀ l : List (V3 Nat), (∀ o ∈ l, ∀ d, o d ≤ 1) → l.Nodup → (l.map (g.child c)).Nodup := by
    intro l
    induction l with
    | nil => intro _ _; exact List.nodup_nil
    | cons a l ih =>
      intro hs hn
      rw [List.nodup_cons] at hn
      rw [List.map_cons, List.nodup_cons]
      refine ⟨?_, ih (fun o ho => hs o (List.mem_cons_of_mem _ ho)) hn.2⟩
      intro hmem
      obtain ⟨o, ho, e⟩ := List.mem_map.1 hmem
      have := child_inj hw h hl (hs o (List.mem_cons_of_mem _ ho)) (hs a (List.mem_cons_self)) e
      exact hn.1 (this ▸ ho)
  exact this octants (fun o ho => octants_le ho) octants_nodup

theorem children_length (c : Nat) : (g.children c).length = 8 := rfl

/-- Every index of a cell is in some child. -/
theorem exists_child_mem (hw : g.WF) {c : Nat} (h : g.Valid c) (hl : g.lvl c < g.maxLvl)
    {p : V3 Nat} (hp : g.Mem p c) : ∃ k ∈ g.children c, g.Mem p k := by
  let half := 2 ^ (g.maxLvl - (g.lvl c + 1))
  let o : V3 Nat := fun d => if p d < g.idx c d + half then 0 else 1
  have ho : ∀ d, o d ≤ 1 := fun d => by show (if _ then _ else _) ≤ 1; split <;> omega
  refine ⟨g.child c o, mem_children.2 ⟨o, ho, rfl⟩, fun d => ?_⟩
  have hs := side_child hw h hl ho
  rw [side_half hl] at hs
  have hd := hp d
  rw [side_half hl] at hd
  rw [idx_child hw h hl ho d]
  have e : g.side (g.child c o) = half := by show _ = 2 ^ _; omega
  rw [e]
  have ed : o d = if p d < g.idx c d + half then 0 else 1 := rfl
  rw [ed]
  have : half = 2 ^ (g.maxLvl - (g.lvl c + 1)) := rfl
  rw [← this] at hd
  split <;> omega

theorem mem_of_mem_children (hw : g.WF) {c k : Nat} (h : g.Valid c) (hl : g.lvl c < g.maxLvl)
    (hk : k ∈ g.children c) {p : V3 Nat} (hp : g.Mem p k) : g.Mem p c := by
  obtain ⟨o, ho, rfl⟩ := mem_children.1 hk
  exact mem_of_mem_child hw h hl ho hp

theorem children_spec (hw : g.WF) {c k : Nat} (h : g.Valid c) (hl : g.lvl c < g.maxLvl) :
    k ∈ g.children c ↔ g.Valid k ∧ g.lvl k = g.lvl c + 1 ∧ g.parent k = c := by
  constructor
  · intro hk
    obtain ⟨o, ho, rfl⟩ := mem_children.1 hk
    exact ⟨child_valid hw h hl ho, lvl_child hw h hl ho, parent_child hw h hl ho⟩
  · rintro ⟨hv, hkl, hp⟩
    have hm : g.Mem (g.idx k) c := by
      have := mem_parent hw hv (mem_idx k)
      rwa [hp] at this
    obtain ⟨k', hk', hm'⟩ := exists_child_mem hw h hl hm
    obtain ⟨o, ho, rfl⟩ := mem_children.1 hk'
    have := eq_of_mem_lvl hw hv (child_valid hw h hl ho) (by rw [lvl_child hw h hl ho, hkl])
      (mem_idx k) hm'
    rw [this]; exact hk'

theorem mem_children_parent (hw : g.WF) {c : Nat} (h : g.Valid c) (h0 : 0 < g.lvl c) :
    c ∈ g.children (g.parent c) := by
  rw [children_spec hw (parent_valid hw h) (lvl_parent_lt hw h h0)]
  exact ⟨h, by rw [lvl_parent hw h]; omega, rfl⟩

end Cfg
end Dccrg
