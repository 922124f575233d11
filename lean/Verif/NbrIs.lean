import Verif.NbrTo
/-!
# `is_neighbor`
-/
namespace Dccrg
open Cfg

theorem mem_irange {h : Nat} {x : Int} : x ∈ irange h ↔ -(h : Int) ≤ x ∧ x ≤ h := by
  unfold irange
  rw [List.mem_map]
  constructor
  · rintro ⟨i, hi, rfl⟩
    rw [List.mem_range] at hi
    omega
  · rintro ⟨h1, h2⟩
    exact ⟨(x + h).toNat, by rw [List.mem_range]; omega, by omega⟩

theorem mem_hoodOf {g : Cfg} (h0 : g.hood ≠ 0) {o : V3 Int} :
    o ∈ hoodOf g ↔ (∀ d, -(g.hood : Int) ≤ o d ∧ o d ≤ g.hood) ∧ o ≠ fun _ => 0 := by
  unfold hoodOf
  rw [if_neg h0]
  simp only [List.mem_flatMap, List.mem_filterMap, mem_irange]
  constructor
  · rintro ⟨z, hz, y, hy, x, hx, h⟩
    by_cases hc : x = 0 ∧ y = 0 ∧ z = 0
    · rw [if_pos hc] at h; cases h
    · rw [if_neg hc] at h
      have := Option.some.inj h
      subst this
      refine ⟨forall_fin3.2 ⟨hx, hy, hz⟩, fun h => hc ?_⟩
      exact ⟨congrFun h 0, congrFun h 1, congrFun h 2⟩
  · rintro ⟨h1, h2⟩
    refine ⟨o 2, h1 2, o 1, h1 1, o 0, h1 0, ?_⟩
    rw [if_neg]
    · congr 1; exact v3_ext rfl rfl rfl
    · rintro ⟨a, b, c⟩; exact h2 (v3_ext a b c)

theorem hoodOf_zero {g : Cfg} (h0 : g.hood = 0) : hoodOf g = faces := by
  unfold hoodOf faces; rw [if_pos h0]

theorem faces_mem {o : V3 Int} : o ∈ faces ↔ ∃ d pos, o = unitItem d pos := by
  constructor
  · intro h
    simp only [faces, List.mem_cons, List.not_mem_nil, or_false] at h
    rcases h with h | h | h | h | h | h <;> subst h
    · exact ⟨2, false, by decide⟩
    · exact ⟨1, false, by decide⟩
    · exact ⟨0, false, by decide⟩
    · exact ⟨0, true, by decide⟩
    · exact ⟨1, true, by decide⟩
    · exact ⟨2, true, by decide⟩
  · rintro ⟨d, pos, rfl⟩; exact unitItem_mem d pos

/-- Faces are in every default neighborhood. -/
theorem faces_sub_hoodOf {g : Cfg} {o : V3 Int} (h : o ∈ faces) : o ∈ hoodOf g := by
  by_cases h0 : g.hood = 0
  · rw [hoodOf_zero h0]; exact h
  · rw [mem_hoodOf h0]
    obtain ⟨d, pos, rfl⟩ := faces_mem.1 h
    constructor
    · intro e
      by_cases he : e = d
      · subst he; cases pos <;> simp [unitItem] <;> omega
      · rw [unitItem, setD_ne _ _ he]; omega
    · intro h
      have := congrFun h d
      cases pos <;> simp [unitItem] at this

/-- Opposite items of default neighborhoods. -/
theorem neg_mem_hoodOf {g : Cfg} {o : V3 Int} (h : o ∈ hoodOf g) : (fun d => - o d) ∈ hoodOf g := by
  by_cases h0 : g.hood = 0
  · rw [hoodOf_zero h0] at h ⊢
    simp only [faces, List.mem_cons, List.not_mem_nil, or_false] at h
    rcases h with h | h | h | h | h | h <;> subst h <;> decide
  · rw [mem_hoodOf h0] at h ⊢
    refine ⟨fun d => by have := h.1 d; omega, fun h' => h.2 ?_⟩
    funext d
    have := congrFun h' d
    show o d = 0
    have : - o d = 0 := this
    omega

/-- Distance in one dimension, `r` is the length of the neighborhood. -/
theorem distance1_lt {n i1 l1 i2 l2 r : Nat} {per : Bool} (h1 : i1 + l1 ≤ n) (h2 : i2 + l2 ≤ n)
    (hl1 : 0 < l1) (hl2 : 0 < l2) (hr : 0 < r) :
    distance1 n i1 l1 i2 l2 per < r ↔
      ∃ x : Int, (i1 : Int) - r ≤ x ∧ x < i1 + l1 + r ∧ (per = true ∨ (0 ≤ x ∧ x < n)) ∧
        (i2 : Int) ≤ x % n ∧ x % n < i2 + l2 := by
  have hn : (0 : Int) < n := by omega
  have inrange : ∀ x : Int, 0 ≤ x → x < n → x % n = x := fun x a b => Int.emod_eq_of_lt a b
  have left : ∀ x : Int, 0 ≤ x → x < n → (x - n) % n = x := fun x a b => by
    rw [Int.sub_emod_right]; exact inrange x a b
  have right : ∀ x : Int, 0 ≤ x → x < n → (x + n) % n = x := fun x a b => by
    rw [Int.add_emod_right]; exact inrange x a b
  constructor
  · intro hd
    unfold distance1 at hd
    by_cases hle : i1 ≤ i2
    · rw [if_pos hle] at hd
      by_cases hgap : (if i2 ≤ i1 + l1 then 0 else i2 - (i1 + l1)) < r
      · refine ⟨i2, ?_, ?_, Or.inr ⟨by omega, by omega⟩, ?_⟩
        · omega
        · split at hgap <;> omega
        · rw [inrange _ (by omega) (by omega)]; omega
      · cases per with
        | false => simp at hd; simp at hgap; omega
        | true =>
          simp only [if_true] at hd
          refine ⟨(i2 + l2 - 1 : Int) - n, by omega, by omega, Or.inl rfl, ?_⟩
          rw [left _ (by omega) (by omega)]; omega
    · rw [if_neg hle] at hd
      by_cases hgap : (if i1 ≤ i2 + l2 then 0 else i1 - (i2 + l2)) < r
      · by_cases hov : i1 < i2 + l2
        · refine ⟨i1, by omega, by omega, Or.inr ⟨by omega, by omega⟩, ?_⟩
          rw [inrange _ (by omega) (by omega)]; omega
        · refine ⟨i2 + l2 - 1, ?_, by omega, Or.inr ⟨by omega, by omega⟩, ?_⟩
          · split at hgap <;> omega
          · rw [inrange _ (by omega) (by omega)]; omega
      · cases per with
        | false => simp at hd; simp at hgap; omega
        | true =>
          simp only [if_true] at hd
          refine ⟨(i2 : Int) + n, by omega, by omega, Or.inl rfl, ?_⟩
          rw [right _ (by omega) (by omega)]; omega
  · rintro ⟨x, hx1, hx2, hper, hx3, hx4⟩
    -- number of times around the grid
    have hx5 := Int.emod_add_mul_ediv x n
    generalize hk : x / (n : Int) = k at hx5
    generalize hy : x % (n : Int) = y at *
    have hk0 : k = 0 ∨ n ≤ n * k ∨ n * k ≤ - n := by
      rcases Int.lt_trichotomy k 0 with h | h | h
      · right; right
        have := Int.mul_le_mul_of_nonneg_left (show k ≤ -1 by omega) (show (0 : Int) ≤ n by omega)
        rw [Int.mul_neg, Int.mul_one] at this
        exact this
      · exact Or.inl h
      · right; left
        have := Int.mul_le_mul_of_nonneg_left (show 1 ≤ k by omega) (show (0 : Int) ≤ n by omega)
        rwa [Int.mul_one] at this
    unfold distance1
    rcases hk0 with h | h | h
    · subst h
      rw [Int.mul_zero] at hx5
      by_cases hle : i1 ≤ i2
      · rw [if_pos hle]
        have : (if i2 ≤ i1 + l1 then 0 else i2 - (i1 + l1)) < r := by split <;> omega
        simp only
        split <;> omega
      · rw [if_neg hle]
        have : (if i1 ≤ i2 + l2 then 0 else i1 - (i2 + l2)) < r := by split <;> omega
        simp only
        split <;> omega
    · have hp : per = true := by
        rcases hper with h' | h'
        · exact h'
        · omega
      subst hp
      by_cases hle : i1 ≤ i2
      · rw [if_pos hle]
        have : (if i2 ≤ i1 + l1 then 0 else i2 - (i1 + l1)) < r := by split <;> omega
        simp only [if_true]
        omega
      · rw [if_neg hle]
        simp only [if_true]
        omega
    · have hp : per = true := by
        rcases hper with h' | h'
        · exact h'
        · omega
      subst hp
      by_cases hle : i1 ≤ i2
      · rw [if_pos hle]
        simp only [if_true]
        omega
      · rw [if_neg hle]
        have : (if i1 ≤ i2 + l2 then 0 else i1 - (i2 + l2)) < r := by split <;> omega
        simp only [if_true]
        omega

section
variable {g : Cfg}

theorem meets_dims (hw : g.WF) {a b : Nat} {o : V3 Int} :
    Meets g a o b ↔ ∀ d, ∃ x : Int, corner g a o d ≤ x ∧ x < corner g a o d + g.side a ∧
      (g.periodic d = true ∨ (0 ≤ x ∧ x < g.n d)) ∧
      (g.idx b d : Int) ≤ x % g.n d ∧ x % g.n d < g.idx b d + g.side b := by
  constructor
  · rintro ⟨q, hq, hc, hm⟩ d
    have h1 := wrap_cast hw q d
    have h2 := hm d
    have h3 : corner g a o d ≤ q d ∧ q d < corner g a o d + g.side a := hq d
    exact ⟨q d, h3.1, h3.2, hc d, by omega, by omega⟩
  · intro h
    have hx := fun d => Classical.choose_spec (h d)
    refine ⟨fun d => Classical.choose (h d), fun d => ?_, fun d => (hx d).2.2.1, fun d => ?_⟩
    · exact ⟨(hx d).1, (hx d).2.1⟩
    · have h1 := wrap_cast hw (fun d => Classical.choose (h d)) d
      have h2 := (hx d).2.2.2
      have h3 : ((g.wrap (fun d => Classical.choose (h d)) d : Nat) : Int)
          = Classical.choose (h d) % g.n d := h1
      omega

theorem isNeighbor_iff (hw : g.WF) {a b : Nat} (ha : g.Valid a) (hb : g.Valid b) :
    isNeighbor g a b = true ↔ Meets g a (fun _ => 0) b ∨ ∃ o ∈ hoodOf g, Meets g a o b := by
  have hsa := side_pos (g := g) a
  have hsb := side_pos (g := g) b
  have h1 := fun d => idx_add_side_le hw ha d
  have h2 := fun d => idx_add_side_le hw hb d
  have hdist := fun (d : Fin 3) (r : Nat) (hr : 0 < r) =>
    distance1_lt (per := g.periodic d) (h1 d) (h2 d) hsa hsb hr
  unfold isNeighbor
  by_cases h0 : g.hood = 0
  · simp only [if_pos h0, Bool.and_eq_true, decide_eq_true_eq]
    -- overlap in one dimension
    let Ov (d : Fin 3) : Prop := g.idx a d + g.side a > g.idx b d ∧ g.idx a d < g.idx b d + g.side b
    have ov_iff : ∀ d, Ov d ↔ ∃ x : Int, (g.idx a d : Int) ≤ x ∧ x < g.idx a d + g.side a ∧
        (g.periodic d = true ∨ (0 ≤ x ∧ x < g.n d)) ∧
        (g.idx b d : Int) ≤ x % g.n d ∧ x % g.n d < g.idx b d + g.side b := by
      intro d
      have a1 := h1 d
      have a2 := h2 d
      constructor
      · intro h
        have h' : g.idx a d + g.side a > g.idx b d ∧ g.idx a d < g.idx b d + g.side b := h
        refine ⟨max (g.idx a d) (g.idx b d), by omega, by omega, Or.inr ⟨by omega, by omega⟩, ?_⟩
        rw [Int.emod_eq_of_lt (by omega) (by omega)]; omega
      · rintro ⟨x, b1, b2, -, b3, b4⟩
        rw [Int.emod_eq_of_lt (by omega) (by omega)] at b3 b4
        show g.idx a d + g.side a > g.idx b d ∧ g.idx a d < g.idx b d + g.side b
        omega
    have ov_dist : ∀ d, Ov d → distance1 (g.n d) (g.idx a d) (g.side a) (g.idx b d) (g.side b)
        (g.periodic d) < g.side a := by
      intro d h
      rw [hdist d _ hsa]
      obtain ⟨x, b1, b2, b3, b4⟩ := (ov_iff d).1 h
      exact ⟨x, by omega, by omega, b3, b4⟩
    have hcount : overlapping g a b ≥ 2 ↔ (Ov 0 ∧ Ov 1) ∨ (Ov 0 ∧ Ov 2) ∨ (Ov 1 ∧ Ov 2) := by
      show (if Ov 0 then 1 else 0) + (if Ov 1 then 1 else 0) + (if Ov 2 then 1 else 0) ≥ 2 ↔ _
      by_cases o0 : Ov 0 <;> by_cases o1 : Ov 1 <;> by_cases o2 : Ov 2 <;> simp [o0, o1, o2]
    have meets0 : Meets g a (fun _ => 0) b ↔ ∀ d, Ov d := by
      rw [meets_dims hw]
      constructor
      · intro h d; rw [ov_iff]; simpa [corner] using h d
      · intro h d; have := (ov_iff d).1 (h d); simpa [corner] using this
    -- one face
    have hface : ∀ d, (∀ e, e ≠ d → Ov e) →
        distance1 (g.n d) (g.idx a d) (g.side a) (g.idx b d) (g.side b) (g.periodic d) < g.side a →
        Meets g a (fun _ => 0) b ∨ ∃ o ∈ hoodOf g, Meets g a o b := by
      intro d hov hd
      rw [hdist d _ hsa] at hd
      obtain ⟨x, x1, x2, x3, x4⟩ := hd
      have fin : ∀ o : V3 Int, (∀ e, e ≠ d → o e = 0) → corner g a o d ≤ x →
          x < corner g a o d + g.side a → Meets g a o b := by
        intro o ho c1 c2
        rw [meets_dims hw]
        intro e
        by_cases he : e = d
        · subst he; exact ⟨x, c1, c2, x3, x4⟩
        · have := (ov_iff e).1 (hov e he)
          simp only [corner, ho e he, Int.zero_mul, Int.add_zero]
          exact this
      by_cases c1 : x < g.idx a d
      · right
        refine ⟨unitItem d false, faces_sub_hoodOf (unitItem_mem d false), fin _ (fun e he => ?_) ?_ ?_⟩
        · rw [unitItem, setD_ne _ _ he]
        · simp [corner, unitItem]; omega
        · simp [corner, unitItem]; omega
      · by_cases c2 : x < g.idx a d + g.side a
        · left
          refine fin _ (fun e he => rfl) ?_ ?_
          · simp [corner]; omega
          · simp [corner]; omega
        · right
          refine ⟨unitItem d true, faces_sub_hoodOf (unitItem_mem d true), fin _ (fun e he => ?_) ?_ ?_⟩
          · rw [unitItem, setD_ne _ _ he]
          · simp [corner, unitItem]; omega
          · simp [corner, unitItem]; omega
    constructor
    · rintro ⟨hm, hc⟩
      rcases hcount.1 hc with h | h | h
      · exact hface 2 ((forall_fin3 (p := fun e => e ≠ 2 → Ov e)).2 ⟨fun _ => h.1, fun _ => h.2, fun h' => absurd rfl h'⟩) (by omega)
      · exact hface 1 ((forall_fin3 (p := fun e => e ≠ 1 → Ov e)).2 ⟨fun _ => h.1, fun h' => absurd rfl h', fun _ => h.2⟩) (by omega)
      · exact hface 0 ((forall_fin3 (p := fun e => e ≠ 0 → Ov e)).2 ⟨fun h' => absurd rfl h', fun _ => h.1, fun _ => h.2⟩) (by omega)
    · rintro (h | ⟨o, ho, h⟩)
      · have hall := meets0.1 h
        have d0 := ov_dist 0 (hall 0)
        have d1 := ov_dist 1 (hall 1)
        have d2 := ov_dist 2 (hall 2)
        exact ⟨by omega, hcount.2 (Or.inl ⟨hall 0, hall 1⟩)⟩
      · rw [hoodOf_zero h0] at ho
        obtain ⟨d, pos, rfl⟩ := faces_mem.1 ho
        rw [meets_dims hw] at h
        have hov : ∀ e, e ≠ d → Ov e := by
          intro e he
          rw [ov_iff]
          have := h e
          simp only [corner, unitItem, setD_ne _ _ he, Int.zero_mul, Int.add_zero] at this
          exact this
        have hdd : distance1 (g.n d) (g.idx a d) (g.side a) (g.idx b d) (g.side b) (g.periodic d)
            < g.side a := by
          rw [hdist d _ hsa]
          obtain ⟨x, x1, x2, x3⟩ := h d
          refine ⟨x, ?_, ?_, x3⟩ <;> cases pos <;> simp [corner, unitItem] at x1 x2 <;> omega
        have hd3 : ∀ e, distance1 (g.n e) (g.idx a e) (g.side a) (g.idx b e) (g.side b)
            (g.periodic e) < g.side a := by
          intro e
          by_cases he : e = d
          · rw [he]; exact hdd
          · exact ov_dist e (hov e he)
        have d0 := hd3 0
        have d1 := hd3 1
        have d2 := hd3 2
        refine ⟨by omega, hcount.2 ?_⟩
        match d, hov with
        | 0, hov => exact Or.inr (Or.inr ⟨hov 1 (by decide), hov 2 (by decide)⟩)
        | 1, hov => exact Or.inr (Or.inl ⟨hov 0 (by decide), hov 2 (by decide)⟩)
        | 2, hov => exact Or.inl ⟨hov 0 (by decide), hov 1 (by decide)⟩
  · simp only [if_neg h0, decide_eq_true_eq]
    have hr : 0 < g.hood * g.side a := Nat.mul_pos (by omega) hsa
    have hmax : ∀ x y z r : Nat, 0 < r → (max (max (max 0 x) y) z < r ↔ x < r ∧ y < r ∧ z < r) := by
      intro x y z r hr; omega
    rw [hmax _ _ _ _ hr, hdist 0 _ hr, hdist 1 _ hr, hdist 2 _ hr]
    have e3 : ((g.hood * g.side a : Nat) : Int) = (g.hood : Int) * g.side a := by simp
    constructor
    · rintro ⟨h00, h11, h22⟩
      have hall : ∀ d, ∃ x : Int, (g.idx a d : Int) - (g.hood * g.side a : Nat) ≤ x ∧
          x < g.idx a d + g.side a + (g.hood * g.side a : Nat) ∧
          (g.periodic d = true ∨ (0 ≤ x ∧ x < g.n d)) ∧
          (g.idx b d : Int) ≤ x % g.n d ∧ x % g.n d < g.idx b d + g.side b :=
        forall_fin3.2 ⟨h00, h11, h22⟩
      -- offset in units of cell length
      let X : V3 Int := fun d => Classical.choose (hall d)
      have hX := fun d => Classical.choose_spec (hall d)
      let o : V3 Int := fun d => (X d - g.idx a d) / g.side a
      have hs' : (0 : Int) < g.side a := by omega
      have ho : ∀ d, corner g a o d ≤ X d ∧ X d < corner g a o d + g.side a := by
        intro d
        have e1 := Int.emod_add_mul_ediv (X d - g.idx a d) (g.side a)
        have e2 := Int.emod_nonneg (X d - g.idx a d) (show (g.side a : Int) ≠ 0 by omega)
        have e4 := Int.emod_lt_of_pos (X d - g.idx a d) hs'
        have e5 : corner g a o d
            = g.idx a d + (g.side a : Int) * ((X d - g.idx a d) / g.side a) := by
          show (g.idx a d : Int) + (X d - g.idx a d) / g.side a * g.side a = _
          rw [Int.mul_comm]
        omega
      have hm : Meets g a o b := by
        rw [meets_dims hw]
        intro d
        exact ⟨X d, (ho d).1, (ho d).2, (hX d).2.2⟩
      by_cases hz : o = fun _ => 0
      · left; rw [hz] at hm; exact hm
      · right
        refine ⟨o, (mem_hoodOf h0).2 ⟨fun d => ?_, hz⟩, hm⟩
        have b1 : (g.idx a d : Int) - (g.hood * g.side a : Nat) ≤ X d := (hX d).1
        have b2 : X d < g.idx a d + g.side a + (g.hood * g.side a : Nat) := (hX d).2.1
        rw [e3] at b1 b2
        constructor
        · apply Int.le_ediv_of_mul_le hs'
          rw [Int.neg_mul]; omega
        · apply Int.lt_add_one_iff.1
          apply Int.ediv_lt_of_lt_mul hs'
          rw [Int.add_mul, Int.one_mul]; omega
    · intro h
      have hx : ∃ o : V3 Int, (∀ d, -(g.hood : Int) ≤ o d ∧ o d ≤ g.hood) ∧ Meets g a o b := by
        rcases h with h | ⟨o, ho, h⟩
        · exact ⟨_, fun d => (by show -(g.hood : Int) ≤ 0 ∧ (0 : Int) ≤ g.hood; omega), h⟩
        · exact ⟨o, ((mem_hoodOf h0).1 ho).1, h⟩
      obtain ⟨o, ho, hm⟩ := hx
      rw [meets_dims hw] at hm
      rw [← forall_fin3 (p := fun d => ∃ x : Int, (g.idx a d : Int) - (g.hood * g.side a : Nat) ≤ x ∧
          x < g.idx a d + g.side a + (g.hood * g.side a : Nat) ∧
          (g.periodic d = true ∨ (0 ≤ x ∧ x < g.n d)) ∧
          (g.idx b d : Int) ≤ x % g.n d ∧ x % g.n d < g.idx b d + g.side b)]
      intro d
      obtain ⟨x, x1, x2, x3⟩ := hm d
      have := ho d
      have hs' : (0 : Int) ≤ g.side a := by omega
      have b1 := Int.mul_le_mul_of_nonneg_right this.1 hs'
      have b2 := Int.mul_le_mul_of_nonneg_right this.2 hs'
      rw [Int.neg_mul] at b1
      simp only [corner] at x1 x2
      refine ⟨x, ?_, ?_, x3⟩ <;> rw [e3] <;> omega

end
end Dccrg
