import Verif.Existing
/-!
# Nearness of cells

`Near g a b`: cell `b` overlaps cell `a` or the default neighborhood region of cell `a`. Same relation
as `is_neighbor` (`isNeighbor_near`), in a form that is easy to enlarge and to reverse.
-/
namespace Dccrg
open Cfg

/-- Some point of the grid at most `r` from cell `a` is in cell `b`, in one dimension. -/
def Ax (g : Cfg) (a b : Nat) (r : Nat) (d : Fin 3) : Prop :=
  ∃ x : Int, (g.idx a d : Int) - r ≤ x ∧ x < g.idx a d + g.side a + r ∧
    (g.periodic d = true ∨ (0 ≤ x ∧ x < g.n d)) ∧
    (g.idx b d : Int) ≤ x % g.n d ∧ x % g.n d < g.idx b d + g.side b

/-- Cell `b` overlaps cell `a` extended by its neighborhood. -/
def Near (g : Cfg) (a b : Nat) : Prop :=
  if g.hood = 0 then ∃ d : Fin 3, ∀ e, Ax g a b (if e = d then g.side a else 0) e
  else ∀ e, Ax g a b (g.hood * g.side a) e

section
variable {g : Cfg}

theorem ax_zero {a b : Nat} {o : V3 Int} {d : Fin 3} (h : o d = 0) :
    (∃ x : Int, corner g a o d ≤ x ∧ x < corner g a o d + g.side a ∧
      (g.periodic d = true ∨ (0 ≤ x ∧ x < g.n d)) ∧
      (g.idx b d : Int) ≤ x % g.n d ∧ x % g.n d < g.idx b d + g.side b) ↔ Ax g a b 0 d := by
  have e : corner g a o d = g.idx a d := by unfold corner; rw [h]; simp
  rw [e]
  unfold Ax
  constructor
  · rintro ⟨x, h1, h2, h3⟩; exact ⟨x, by omega, by omega, h3⟩
  · rintro ⟨x, h1, h2, h3⟩; exact ⟨x, by omega, by omega, h3⟩

theorem near_iff (hw : g.WF) {a b : Nat} :
    Near g a b ↔ Meets g a (fun _ => 0) b ∨ ∃ o ∈ hoodOf g, Meets g a o b := by
  have hs := side_pos (g := g) a
  unfold Near
  by_cases h0 : g.hood = 0
  · rw [if_pos h0]
    constructor
    · rintro ⟨d, h⟩
      obtain ⟨x, x1, x2, x3⟩ := h d
      rw [if_pos rfl] at x1 x2
      have fin : ∀ o : V3 Int, (∀ e, e ≠ d → o e = 0) → corner g a o d ≤ x →
          x < corner g a o d + g.side a → Meets g a o b := by
        intro o ho c1 c2
        rw [meets_dims hw]
        intro e
        by_cases he : e = d
        · subst he; exact ⟨x, c1, c2, x3⟩
        · rw [ax_zero (ho e he)]
          have := h e; rwa [if_neg he] at this
      by_cases c1 : x < g.idx a d
      · right
        refine ⟨unitItem d false, faces_sub_hoodOf (unitItem_mem d false), fin _ (fun e he => ?_) ?_ ?_⟩
        · rw [unitItem, setD_ne _ _ he]
        · simp [corner, unitItem]; omega
        · simp [corner, unitItem]; omega
      · by_cases c2 : x < g.idx a d + g.side a
        · left
          refine fin _ (fun e he => rfl) ?_ ?_
          · simp [corner]; omega
          · simp [corner]; omega
        · right
          refine ⟨unitItem d true, faces_sub_hoodOf (unitItem_mem d true), fin _ (fun e he => ?_) ?_ ?_⟩
          · rw [unitItem, setD_ne _ _ he]
          · simp [corner, unitItem]; omega
          · simp [corner, unitItem]; omega
    · rintro (h | ⟨o, ho, h⟩)
      · rw [meets_dims hw] at h
        refine ⟨0, fun e => ?_⟩
        obtain ⟨x, x1, x2, x3⟩ := (ax_zero (o := fun _ => 0) rfl).1 (h e)
        exact ⟨x, by omega, by omega, x3⟩
      · rw [hoodOf_zero h0] at ho
        obtain ⟨d, pos, rfl⟩ := faces_mem.1 ho
        rw [meets_dims hw] at h
        refine ⟨d, fun e => ?_⟩
        by_cases he : e = d
        · subst he
          rw [if_pos rfl]
          obtain ⟨x, x1, x2, x3⟩ := h e
          refine ⟨x, ?_, ?_, x3⟩ <;> cases pos <;> simp [corner, unitItem] at x1 x2 <;> omega
        · rw [if_neg he, ← ax_zero (o := unitItem d pos) (by rw [unitItem, setD_ne _ _ he])]
          exact h e
  · rw [if_neg h0]
    have e3 : ((g.hood * g.side a : Nat) : Int) = (g.hood : Int) * g.side a := by simp
    constructor
    · intro hall
      let X : V3 Int := fun d => Classical.choose (hall d)
      have hX := fun d => Classical.choose_spec (hall d)
      let o : V3 Int := fun d => (X d - g.idx a d) / g.side a
      have hs' : (0 : Int) < g.side a := by omega
      have ho : ∀ d, corner g a o d ≤ X d ∧ X d < corner g a o d + g.side a := by
        intro d
        have e1 := Int.emod_add_mul_ediv (X d - g.idx a d) (g.side a)
        have e2 := Int.emod_nonneg (X d - g.idx a d) (show (g.side a : Int) ≠ 0 by omega)
        have e4 := Int.emod_lt_of_pos (X d - g.idx a d) hs'
        have e5 : corner g a o d
            = g.idx a d + (g.side a : Int) * ((X d - g.idx a d) / g.side a) := by
          show (g.idx a d : Int) + (X d - g.idx a d) / g.side a * g.side a = _
          rw [Int.mul_comm]
        omega
      have hm : Meets g a o b := by
        rw [meets_dims hw]
        intro d
        exact ⟨X d, (ho d).1, (ho d).2, (hX d).2.2⟩
      by_cases hz : o = fun _ => 0
      · left; rw [hz] at hm; exact hm
      · right
        refine ⟨o, (mem_hoodOf h0).2 ⟨fun d => ?_, hz⟩, hm⟩
        have b1 : (g.idx a d : Int) - (g.hood * g.side a : Nat) ≤ X d := (hX d).1
        have b2 : X d < g.idx a d + g.side a + (g.hood * g.side a : Nat) := (hX d).2.1
        rw [e3] at b1 b2
        constructor
        · apply Int.le_ediv_of_mul_le hs'
          rw [Int.neg_mul]; omega
        · apply Int.lt_add_one_iff.1
          apply Int.ediv_lt_of_lt_mul hs'
          rw [Int.add_mul, Int.one_mul]; omega
    · intro h
      have hx : ∃ o : V3 Int, (∀ d, -(g.hood : Int) ≤ o d ∧ o d ≤ g.hood) ∧ Meets g a o b := by
        rcases h with h | ⟨o, ho, h⟩
        · exact ⟨_, fun d => (by show -(g.hood : Int) ≤ 0 ∧ (0 : Int) ≤ g.hood; omega), h⟩
        · exact ⟨o, ((mem_hoodOf h0).1 ho).1, h⟩
      obtain ⟨o, ho, hm⟩ := hx
      rw [meets_dims hw] at hm
      intro d
      obtain ⟨x, x1, x2, x3⟩ := hm d
      have := ho d
      have hs' : (0 : Int) ≤ g.side a := by omega
      have b1 := Int.mul_le_mul_of_nonneg_right this.1 hs'
      have b2 := Int.mul_le_mul_of_nonneg_right this.2 hs'
      rw [Int.neg_mul] at b1
      simp only [corner] at x1 x2
      refine ⟨x, ?_, ?_, x3⟩ <;> rw [e3] <;> omega

/-- `is_neighbor` is nearness. -/
theorem isNeighbor_near (hw : g.WF) {a b : Nat} (ha : g.Valid a) (hb : g.Valid b) :
    isNeighbor g a b = true ↔ Near g a b := by
  rw [isNeighbor_iff hw ha hb, near_iff hw]

/-- `b` inside of `a`, by location and size. -/
def Sub (g : Cfg) (b a : Nat) : Prop :=
  ∀ d, g.idx a d ≤ g.idx b d ∧ g.idx b d + g.side b ≤ g.idx a d + g.side a

theorem Sub.side_le {a b : Nat} (h : Sub g b a) : g.side b ≤ g.side a := by
  have := h 0; omega

theorem Sub.refl (a : Nat) : Sub g a a := fun d => by omega

theorem Ax.mono {a a' b b' r r' : Nat} {d : Fin 3} (h : Ax g a b r d) (ha : Sub g a a')
    (hb : Sub g b b') (hr : r ≤ r') : Ax g a' b' r' d := by
  obtain ⟨x, h1, h2, h3, h4, h5⟩ := h
  have := ha d
  have := hb d
  exact ⟨x, by omega, by omega, h3, by omega, by omega⟩

/-- Nearness of larger cells. -/
theorem Near.mono {a a' b b' : Nat} (h : Near g a b) (ha : Sub g a a') (hb : Sub g b b') :
    Near g a' b' := by
  have hs := ha.side_le
  unfold Near at h ⊢
  by_cases h0 : g.hood = 0
  · rw [if_pos h0] at h ⊢
    obtain ⟨d, h⟩ := h
    refine ⟨d, fun e => (h e).mono ha hb ?_⟩
    split <;> omega
  · rw [if_neg h0] at h ⊢
    exact fun e => (h e).mono ha hb (Nat.mul_le_mul_left _ hs)

theorem Ax.symm (hw : g.WF) {a b r : Nat} {d : Fin 3} (ha : g.Valid a) (h : Ax g a b r d) :
    Ax g b a r d := by
  obtain ⟨x, h1, h2, h3, h4, h5⟩ := h
  have hn := n_pos hw d
  have hle := idx_add_side_le hw ha d
  have hs := side_pos (g := g) a
  -- point of `a` closest to `x`
  obtain ⟨t, ht⟩ : ∃ t : Int, (g.idx a d : Int) ≤ t ∧ t < g.idx a d + g.side a ∧ t - x ≤ r ∧
      x - t ≤ r := by
    by_cases c1 : x < g.idx a d
    · exact ⟨g.idx a d, by omega⟩
    · by_cases c2 : x < g.idx a d + g.side a
      · exact ⟨x, by omega⟩
      · exact ⟨g.idx a d + g.side a - 1, by omega⟩
  have hm : (x % g.n d + (t - x)) % g.n d = t := by
    rw [← Int.emod_eq_of_lt (a := t) (b := g.n d) (by omega) (by omega)]
    rw [Int.emod_add_emod]
    congr 1
    rw [Int.emod_eq_of_lt (by omega) (by omega)]
    omega
  refine ⟨x % g.n d + (t - x), by omega, by omega, ?_, by omega, by omega⟩
  rcases h3 with h3 | h3
  · exact Or.inl h3
  · right
    rw [Int.emod_eq_of_lt h3.1 h3.2]
    omega

/-- Nearness is symmetric towards larger cells. -/
theorem Near.symm (hw : g.WF) {a b : Nat} (ha : g.Valid a) (hs : g.side a ≤ g.side b)
    (h : Near g a b) : Near g b a := by
  unfold Near at h ⊢
  by_cases h0 : g.hood = 0
  · rw [if_pos h0] at h ⊢
    obtain ⟨d, h⟩ := h
    refine ⟨d, fun e => ((h e).symm hw ha).mono (Sub.refl _) (Sub.refl _) ?_⟩
    split <;> omega
  · rw [if_neg h0] at h ⊢
    exact fun e => ((h e).symm hw ha).mono (Sub.refl _) (Sub.refl _) (Nat.mul_le_mul_left _ hs)

theorem sub_of_mem_children (hw : g.WF) {P k : Nat} (hv : g.Valid P) (hl : g.lvl P < g.maxLvl)
    (hk : k ∈ g.children P) : Sub g k P := by
  obtain ⟨o, ho, rfl⟩ := mem_children.1 hk
  intro d
  have h1 := idx_child hw hv hl ho d
  have h2 := side_child hw hv hl ho
  have h3 : o d * g.side (g.child P o) ≤ g.side (g.child P o) := by
    have := Nat.mul_le_mul_right (g.side (g.child P o)) (ho d)
    omega
  omega

/-- A cell near a refined cell is near one of its children. -/
theorem Near.child_right (hw : g.WF) {a P : Nat} (hv : g.Valid P) (hl : g.lvl P < g.maxLvl)
    (h : Near g a P) : ∃ k ∈ g.children P, Near g a k := by
  rw [near_iff hw] at h
  have key : ∀ o, Meets g a o P → ∃ k ∈ g.children P, Meets g a o k := by
    rintro o ⟨q, h1, h2, h3⟩
    obtain ⟨k, hk, hm⟩ := exists_child_mem hw hv hl h3
    exact ⟨k, hk, q, h1, h2, hm⟩
  rcases h with h | ⟨o, ho, h⟩
  · obtain ⟨k, hk, hm⟩ := key _ h
    exact ⟨k, hk, (near_iff hw).2 (Or.inl hm)⟩
  · obtain ⟨k, hk, hm⟩ := key _ h
    exact ⟨k, hk, (near_iff hw).2 (Or.inr ⟨o, ho, hm⟩)⟩

theorem meets_zero_iff (hw : g.WF) {a b : Nat} (ha : g.Valid a) :
    Meets g a (fun _ => 0) b ↔ ∃ p, g.Mem p a ∧ g.Mem p b := by
  constructor
  · rintro ⟨q, hq, -, hm⟩
    refine ⟨g.wrap q, mem_of_box hw ha (lift_self a) (fun d => ?_), hm⟩
    have := hq d
    simpa using this
  · rintro ⟨p, h1, h2⟩
    have hp := mem_inGrid hw ha h1
    refine ⟨fun d => p d, fun d => ?_, inCover_nat hp, by rw [wrap_nat hp]; exact h2⟩
    have := h1 d
    simp only [Int.zero_mul, Int.add_zero]
    omega

theorem near_self (hw : g.WF) {a : Nat} (ha : g.Valid a) : Near g a a :=
  (near_iff hw).2 (Or.inl ((meets_zero_iff hw ha).2 ⟨_, mem_idx a, mem_idx a⟩))

/-- Existing cells that are near differ by at most one refinement level. -/
def Balanced (g : Cfg) (E : Nat → Bool) : Prop :=
  ∀ a b, E a = true → E b = true → Near g a b → g.lvl a ≤ g.lvl b + 1 ∧ g.lvl b ≤ g.lvl a + 1

theorem balanced_iff (hw : g.WF) {E : Nat → Bool} (ht : Tiled g E) :
    Balanced g E ↔ BalancedFor g E (hoodOf g) := by
  constructor
  · intro h a b ha hb o ho hm
    exact h a b ha hb ((near_iff hw).2 (Or.inr ⟨o, ho, hm⟩))
  · intro h a b ha hb hn
    rcases (near_iff hw).1 hn with hm | ⟨o, ho, hm⟩
    · obtain ⟨p, h1, h2⟩ := (meets_zero_iff hw (ht.valid a ha)).1 hm
      have := ht.unique p a b ha hb h1 h2
      subst this; omega
    · exact h a b ha hb o ho hm

end
end Dccrg
