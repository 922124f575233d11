import Verif.Stop
/-!
# Results of requests for refinement
-/
namespace Dccrg
open Cfg
variable {n : Nat} {D W : Type} {g : Cfg} {w : Owner n} {i : Fin n} {r : Req} {c : Nat}

theorem mem_without {l ks : List Nat} {x : Nat} : x ∈ without l ks ↔ x ∈ l ∧ x ∉ ks := by
  unfold without; rw [List.mem_filter]; simp

theorem valid_pos (h : g.Valid c) : c ≠ 0 := by
  unfold Valid at h; omega

theorem siblings_eq (hl : g.lvl c ≠ 0) : g.siblings c = g.children (g.parent c) := by
  unfold siblings; rw [if_neg hl]

theorem isOk_neighbors (hw : g.WF) (ht : Tiled g (exist w)) (hb : Balanced g (exist w))
    (hc : exist w c = true) : ∃ l, findNeighborsOf g (exist w) c (hoodOf g) = .ok l := by
  obtain ⟨f, h1, -⟩ := C15_neighbors_of hw ht ((balanced_iff hw ht).1 hb) hc (fun o h => h)
  exact ⟨_, h1⟩

/-- Larger neighbors of a cell. -/
theorem mem_nbrsOf_larger (hw : g.WF) (ht : Tiled g (exist w)) (hb : Balanced g (exist w)) {b : Nat}
    (hc : exist w c = true) (hl : g.lvl b < g.lvl c) :
    b ∈ nbrsOf g (exist w) c ↔ exist w b = true ∧ Near g c b := by
  rw [mem_nbrsOf hw ht hb hc]
  constructor
  · rintro ⟨h1, h2⟩
    exact ⟨h1, (near_iff_meets hw ht hc h1 (by rintro rfl; omega)).2 h2⟩
  · rintro ⟨h1, h2⟩
    exact ⟨h1, (near_iff_meets hw ht hc h1 (by rintro rfl; omega)).1 h2⟩

/-! ## dont_unrefine -/

theorem dontUnrefine_spec (hw : g.WF) (ht : Tiled g (exist w)) :
    ∃ b r', dontUnrefine g (exist w) r c = .ok (b, r') ∧
      (b = true ↔ exist w c = true) ∧ (b = false → r' = r) ∧
      r'.toRefine = r.toRefine ∧ r'.notRefine = r.notRefine ∧
      (∀ u, u ∈ r'.toUnrefine → u ∈ r.toUnrefine) ∧ (∀ u, u ∈ r.notUnrefine → u ∈ r'.notUnrefine) ∧
      (∀ u, u ∈ r'.notUnrefine → u ∈ r.notUnrefine ∨ u = c) ∧
      (exist w c = true → 0 < g.lvl c → ∃ k ∈ g.children (g.parent c), k ∈ r'.notUnrefine) := by
  unfold dontUnrefine
  by_cases he : c = 0 ∨ exist w c = false
  · rw [if_pos he]
    have hx : exist w c = false := by
      rcases he with h | h
      · cases hx : exist w c with
        | false => rfl
        | true => exact absurd h (valid_pos (ht.valid c hx))
      · exact h
    refine ⟨false, r, rfl, by simp [hx], fun _ => rfl, rfl, rfl, fun _ h => h, fun _ h => h,
      fun _ h => Or.inl h, ?_⟩
    intro h; rw [hx] at h; cases h
  · rw [if_neg he]
    have hc : exist w c = true := by
      cases hx : exist w c with
      | false => exact absurd (Or.inr hx) he
      | true => rfl
    have hv := ht.valid c hc
    rw [if_neg (by simpa using hv)]
    by_cases hl : g.lvl c = 0
    · rw [if_pos hl]
      exact ⟨true, r, rfl, by simp [hc], fun _ => rfl, rfl, rfl, fun _ h => h, fun _ h => h,
        fun _ h => Or.inl h, by omega⟩
    · rw [if_neg hl, siblings_eq hl]
      split
      · rename_i h
        exact ⟨true, r, rfl, by simp [hc], fun _ => rfl, rfl, rfl, fun _ h => h, fun _ h => h,
          fun _ h => Or.inl h, fun _ _ => h⟩
      · refine ⟨true, _, rfl, by simp [hc], (by simp), rfl, rfl, fun u h => (mem_without.1 h).1,
          fun u h => List.mem_cons_of_mem _ h, ?_, ?_⟩
        · intro u h
          rcases List.mem_cons.1 h with h | h
          · exact Or.inr h
          · exact Or.inl h
        · intro _ h
          exact ⟨c, mem_children_parent hw hv h, List.mem_cons_self⟩

/-! ## dont_refine -/

theorem dontRefine_spec (ht : Tiled g (exist w)) :
    ∃ b r', dontRefine g (exist w) r c = .ok (b, r') ∧ (b = true ↔ exist w c = true) ∧
      (b = false → r' = r) ∧
      r'.toUnrefine = r.toUnrefine ∧ r'.notUnrefine = r.notUnrefine ∧
      (∀ u, u ∈ r'.toRefine → u ∈ r.toRefine) ∧ (∀ u, u ∈ r.notRefine → u ∈ r'.notRefine) ∧
      (∀ u, u ∈ r'.notRefine → u ∈ r.notRefine ∨ u = c) ∧
      (exist w c = true → g.lvl c < g.maxLvl → c ∈ r'.notRefine ∧ c ∉ r'.toRefine) := by
  unfold dontRefine
  by_cases he : c = 0 ∨ exist w c = false
  · rw [if_pos he]
    have hx : exist w c = false := by
      rcases he with h | h
      · cases hx : exist w c with
        | false => rfl
        | true => exact absurd h (valid_pos (ht.valid c hx))
      · exact h
    refine ⟨false, r, rfl, by simp [hx], fun _ => rfl, rfl, rfl, fun _ h => h, fun _ h => h,
      fun _ h => Or.inl h, ?_⟩
    intro h; rw [hx] at h; cases h
  · rw [if_neg he]
    have hc : exist w c = true := by
      cases hx : exist w c with
      | false => exact absurd (Or.inr hx) he
      | true => rfl
    by_cases hl : g.lvl c = g.maxLvl
    · rw [if_pos hl]
      exact ⟨true, r, rfl, by simp [hc], fun _ => rfl, rfl, rfl, fun _ h => h, fun _ h => h,
        fun _ h => Or.inl h, by omega⟩
    · rw [if_neg hl]
      refine ⟨true, _, rfl, by simp [hc], (by simp), rfl, rfl, fun u h => (mem_without.1 h).1,
        fun u h => List.mem_cons_of_mem _ h, ?_, ?_⟩
      · intro u h
        rcases List.mem_cons.1 h with h | h
        · exact Or.inr h
        · exact Or.inl h
      · intro _ _
        refine ⟨List.mem_cons_self, fun h => ?_⟩
        have := (mem_without.1 h).2
        simp at this

/-! ## refine_completely -/

/-- Whether a refinement request of a process is refused because of its don't requests. -/
def Refused (g : Cfg) (w : Owner n) (r : Req) (c : Nat) : Prop :=
  c ∈ r.notRefine ∨ ∃ b, exist w b = true ∧ Near g c b ∧ g.lvl b < g.lvl c ∧ b ∈ r.notRefine

theorem refineCompletely_false {has : Nat → Bool} (hh : ∀ c, has c = true ↔ w c = some i)
    (h : w c ≠ some i) : refineCompletely g (exist w) has r c = .ok (false, r) := by
  unfold refineCompletely
  rw [if_pos]
  right; right
  cases hx : has c with
  | false => rfl
  | true => exact absurd ((hh c).1 hx) h

theorem refineCompletely_max (hw : g.WF) (ht : Tiled g (exist w)) {has : Nat → Bool}
    (hh : ∀ c, has c = true ↔ w c = some i) (h : w c = some i) (hl : g.lvl c = g.maxLvl) :
    ∃ r', refineCompletely g (exist w) has r c = .ok (true, r') ∧
      dontUnrefine g (exist w) r c = .ok (true, r') := by
  unfold refineCompletely
  have hc := exist_of h
  have h0 := valid_pos (ht.valid c hc)
  rw [if_neg (by rw [hc, (hh c).2 h]; simpa using h0), if_pos hl]
  obtain ⟨b, r', h1, h2, -⟩ := dontUnrefine_spec (r := r) (c := c) hw ht
  have : b = true := h2.2 hc
  subst this
  exact ⟨r', by rw [h1]; rfl, h1⟩

theorem refineCompletely_refused (hw : g.WF) (ht : Tiled g (exist w)) (hb : Balanced g (exist w))
    {has : Nat → Bool} (hh : ∀ c, has c = true ↔ w c = some i) (h : w c = some i)
    (hl : g.lvl c < g.maxLvl) (hr : Refused g w r c) :
    refineCompletely g (exist w) has r c = .ok (false, r) := by
  unfold refineCompletely
  have hc := exist_of h
  have h0 := valid_pos (ht.valid c hc)
  rw [if_neg (by rw [hc, (hh c).2 h]; simpa using h0), if_neg (by omega)]
  by_cases h1 : c ∈ r.notRefine
  · rw [if_pos h1]
  · obtain ⟨l, hk⟩ := isOk_neighbors hw ht hb hc
    rw [if_neg h1, if_neg (by rw [hk]; simp [Out.isOk]), if_pos]
    rcases hr with hr | ⟨b, e1, e2, e3, e4⟩
    · exact absurd hr h1
    · exact ⟨b, (mem_nbrsOf_larger hw ht hb hc e3).2 ⟨e1, e2⟩, e3, e4⟩

theorem refineCompletely_ok (hw : g.WF) (ht : Tiled g (exist w)) (hb : Balanced g (exist w))
    {has : Nat → Bool} (hh : ∀ c, has c = true ↔ w c = some i) (h : w c = some i)
    (hl : g.lvl c < g.maxLvl) (hr : ¬ Refused g w r c) :
    refineCompletely g (exist w) has r c = .ok (true, { r with
      toRefine := c :: r.toRefine
      toUnrefine := without r.toUnrefine (cancelled g (exist w) c) }) := by
  unfold refineCompletely
  have hc := exist_of h
  have h0 := valid_pos (ht.valid c hc)
  obtain ⟨l, hk⟩ := isOk_neighbors hw ht hb hc
  rw [if_neg (by rw [hc, (hh c).2 h]; simpa using h0), if_neg (by omega),
    if_neg (fun h => hr (Or.inl h)), if_neg (by rw [hk]; simp [Out.isOk]), if_neg]
  rintro ⟨b, e1, e2, e3⟩
  obtain ⟨e4, e5⟩ := (mem_nbrsOf_larger hw ht hb hc e2).1 e1
  exact hr (Or.inr ⟨b, e4, e5, e2, e3⟩)

/-! ## unrefine_completely -/

theorem familyCheck_none {E : Nat → Bool} {l : List Nat} :
    familyCheck g E r l = none ↔ ∀ s ∈ l, s = getChild g E s ∧ s ∉ r.toRefine ∧ s ∉ r.notUnrefine := by
  induction l with
  | nil => simp [familyCheck]
  | cons a l ih =>
    unfold familyCheck
    by_cases h1 : a = getChild g E a
    · rw [if_neg (by simpa using h1)]
      by_cases h2 : a ∈ r.toRefine ∨ a ∈ r.notUnrefine
      · rw [if_pos h2]
        constructor
        · intro h; cases h
        · intro h
          have := h a List.mem_cons_self
          rcases h2 with h2 | h2
          · exact absurd h2 this.2.1
          · exact absurd h2 this.2.2
      · rw [if_neg h2, ih]
        simp only [List.mem_cons, forall_eq_or_imp]
        constructor
        · intro h; exact ⟨⟨h1, fun h => h2 (Or.inl h), fun h => h2 (Or.inr h)⟩, h⟩
        · intro h; exact h.2
    · rw [if_pos (by simpa using h1)]
      constructor
      · intro h; cases h
      · intro h; exact absurd (h a List.mem_cons_self).1 h1

/-- The loop over siblings returns false only if a sibling does not exist, true only if all siblings
before the deciding one exist. -/
theorem familyCheck_false {E : Nat → Bool} {l : List Nat} (h : familyCheck g E r l = some false) :
    ∃ s ∈ l, s ≠ getChild g E s := by
  induction l with
  | nil => cases h
  | cons a l ih =>
    unfold familyCheck at h
    by_cases h1 : a = getChild g E a
    · rw [if_neg (by simpa using h1)] at h
      split at h
      · cases h
      · obtain ⟨s, h2, h3⟩ := ih h
        exact ⟨s, List.mem_cons_of_mem _ h2, h3⟩
    · exact ⟨a, List.mem_cons_self, h1⟩

theorem Tiled.parent_gone (hw : g.WF) {E : Nat → Bool} (ht : Tiled g E) (hc : E c = true)
    (hl : 0 < g.lvl c) : E (g.parent c) = false := by
  have hv := ht.valid c hc
  cases hx : E (g.parent c) with
  | false => rfl
  | true =>
    have := ht.no_child hw hx (lvl_parent_lt hw hv hl) (mem_children_parent hw hv hl)
    rw [hc] at this; cases this

theorem unrefineCompletely_false {has : Nat → Bool} (hh : ∀ c, has c = true ↔ w c = some i)
    (h : w c ≠ some i) : unrefineCompletely g (exist w) has r c = .ok (false, r) := by
  unfold unrefineCompletely
  rw [if_pos]
  right; right
  cases hx : has c with
  | false => rfl
  | true => exact absurd ((hh c).1 hx) h

theorem unrefineCompletely_spec (hw : g.WF) (ht : Tiled g (exist w)) (hb : Balanced g (exist w))
    {has : Nat → Bool} (hh : ∀ c, has c = true ↔ w c = some i) (h : w c = some i) :
    ∃ b r', unrefineCompletely g (exist w) has r c = .ok (b, r') ∧
      (b = false → r' = r ∧ 0 < g.lvl c ∧ ∃ s ∈ g.children (g.parent c), exist w s = false) ∧
      (0 < g.lvl c → (∃ s ∈ g.children (g.parent c), exist w s = false) →
        (∀ s ∈ g.children (g.parent c), s ∉ r.toRefine ∧ s ∉ r.notUnrefine) → b = false) ∧
      (r' = r ∨ r' = { r with toUnrefine := c :: r.toUnrefine } ∧ 0 < g.lvl c ∧
        (∀ s ∈ g.children (g.parent c), exist w s = true ∧ s ∉ r.toRefine ∧ s ∉ r.notUnrefine)) ∧
      (0 < g.lvl c →
        (∀ s ∈ g.children (g.parent c), exist w s = true ∧ s ∉ r.toRefine ∧ s ∉ r.notUnrefine) →
        (∀ b, exist w b = true → Near g c b → g.lvl b = g.lvl c + 1 → b ∉ r.toRefine) →
        ∃ s ∈ g.children (g.parent c), s ∈ r'.toUnrefine) := by
  unfold unrefineCompletely
  have hc := exist_of h
  have hv := ht.valid c hc
  have h0 := valid_pos hv
  rw [if_neg (by rw [hc, (hh c).2 h]; simpa using h0), if_neg (by simpa using hv)]
  by_cases hl : g.lvl c = 0
  · rw [if_pos hl]
    exact ⟨true, r, rfl, (by simp), by omega, Or.inl rfl, by omega⟩
  have hl' : 0 < g.lvl c := by omega
  rw [if_neg hl, siblings_eq hl]
  have hself := mem_children_parent hw hv hl'
  have hcv : ∀ s ∈ g.children (g.parent c), s ≠ 0 := fun s hs =>
    valid_pos ((children_spec hw (parent_valid hw hv) (lvl_parent_lt hw hv hl')).1 hs).1
  have hex : ∀ s ∈ g.children (g.parent c), (s = getChild g (exist w) s ↔ exist w s = true) :=
    fun s hs => eq_comm.trans (ht.getChild_eq_iff hw (hcv s hs))
  cases hf : familyCheck g (exist w) r (g.children (g.parent c)) with
  | some b =>
    refine ⟨b, r, rfl, ?_, ?_, Or.inl rfl, ?_⟩
    · rintro rfl
      obtain ⟨s, h1, h2⟩ := familyCheck_false hf
      refine ⟨rfl, hl', s, h1, ?_⟩
      cases hx : exist w s with
      | false => rfl
      | true => exact absurd ((hex s h1).2 hx) h2
    · intro _ _ h2
      cases b with
      | false => rfl
      | true =>
        exfalso
        clear hex hcv hself
        revert hf h2
        generalize g.children (g.parent c) = l
        intro h2 hf
        induction l with
        | nil => cases hf
        | cons a l ih =>
          unfold familyCheck at hf
          split at hf
          · cases hf
          · split at hf
            · rename_i h3
              rcases h3 with h3 | h3
              · exact (h2 a List.mem_cons_self).1 h3
              · exact (h2 a List.mem_cons_self).2 h3
            · exact ih (fun s hs => h2 s (List.mem_cons_of_mem _ hs)) hf
    · intro _ h2
      have := familyCheck_none.2 (fun s hs => ⟨(hex s hs).2 (h2 s hs).1, (h2 s hs).2⟩)
      rw [this] at hf; cases hf
  | none =>
    have hn := familyCheck_none.1 hf
    have hfam : ∀ s ∈ g.children (g.parent c), exist w s = true ∧ s ∉ r.toRefine ∧ s ∉ r.notUnrefine :=
      fun s hs => ⟨(hex s hs).1 (hn s hs).1, (hn s hs).2⟩
    have hP : getParent g (exist w) c = c := by
      unfold getParent
      rw [ht.parent_gone hw hc hl', hc]; simp
    obtain ⟨l, hk⟩ := isOk_neighbors hw ht hb hc
    have hmem : ∀ b, b ∈ l.map Prod.fst ↔ b ∈ nbrsOf g (exist w) c := by
      intro b; unfold nbrsOf; rw [hk]
    simp only [hP, hk]
    have hnofam : (∃ s ∈ g.children (g.parent c), exist w s = false) → False := by
      rintro ⟨s, h1, h2⟩
      rw [(hfam s h1).1] at h2; cases h2
    split
    · rename_i h1
      refine ⟨true, r, rfl, (by simp), fun _ h2 => (hnofam h2).elim, Or.inl rfl, ?_⟩
      intro _ _ h3
      obtain ⟨b, e1, e2⟩ := h1
      rw [hmem, mem_nbrsOf hw ht hb hc] at e1
      have hne : b ≠ c := by rintro rfl; omega
      have hnear := (near_iff_meets hw ht hc e1.1 hne).2 e1.2
      rcases e2 with e2 | ⟨e2, e3⟩
      · have := (hb c b hc e1.1 hnear).2; omega
      · exact absurd e3 (h3 b e1.1 hnear e2)
    · split
      · rename_i h1
        exact ⟨true, r, rfl, (by simp), fun _ h2 => (hnofam h2).elim, Or.inl rfl, fun _ _ _ => h1⟩
      · exact ⟨true, _, rfl, (by simp), fun _ h2 => (hnofam h2).elim, Or.inr ⟨rfl, hl', hfam⟩,
          fun _ _ _ => ⟨c, hself, List.mem_cons_self⟩⟩

/-! ## Requests stay possible -/

theorem ReqOk.dontUnrefine (hw : g.WF) (ht : Tiled g (exist w)) (h : ReqOk g w r) {b : Bool} {r' : Req}
    (hr : Dccrg.dontUnrefine g (exist w) r c = .ok (b, r')) : ReqOk g w r' := by
  obtain ⟨b', r'', h1, -, -, h3, -, h4, -⟩ := dontUnrefine_spec (r := r) (c := c) hw ht
  rw [hr] at h1
  injection h1 with h1
  injection h1 with _ h1
  subst h1
  exact ⟨by rw [h3]; exact h.refine, fun u hu => h.unrefine u (h4 u hu)⟩

theorem ReqOk.dontRefine (ht : Tiled g (exist w)) (h : ReqOk g w r) {b : Bool} {r' : Req}
    (hr : Dccrg.dontRefine g (exist w) r c = .ok (b, r')) : ReqOk g w r' := by
  obtain ⟨b', r'', h1, -, -, h3, -, h4, -⟩ := dontRefine_spec (r := r) (c := c) ht
  rw [hr] at h1
  injection h1 with h1
  injection h1 with _ h1
  subst h1
  exact ⟨fun u hu => h.refine u (h4 u hu), by rw [h3]; exact h.unrefine⟩

theorem ReqOk.refineCompletely (hw : g.WF) (ht : Tiled g (exist w)) (hb : Balanced g (exist w))
    {has : Nat → Bool} (hh : ∀ c, has c = true ↔ w c = some i) (h : ReqOk g w r) {b : Bool} {r' : Req}
    (hr : Dccrg.refineCompletely g (exist w) has r c = .ok (b, r')) : ReqOk g w r' := by
  by_cases hi : w c = some i
  · have hle := lvl_le (ht.valid c (exist_of hi))
    by_cases hl : g.lvl c = g.maxLvl
    · obtain ⟨r'', h1, h2⟩ := refineCompletely_max (r := r) hw ht hh hi hl
      rw [hr] at h1
      injection h1 with h1
      injection h1 with _ h1
      subst h1
      exact h.dontUnrefine hw ht h2
    · by_cases hq : Refused g w r c
      · rw [refineCompletely_refused hw ht hb hh hi (by omega) hq] at hr
        injection hr with hr
        injection hr with _ hr
        subst hr; exact h
      · rw [refineCompletely_ok hw ht hb hh hi (by omega) hq] at hr
        injection hr with hr
        injection hr with _ hr
        subst hr
        constructor
        · intro x hx
          rcases List.mem_cons.1 hx with rfl | hx
          · exact ⟨exist_of hi, by omega⟩
          · exact h.refine x hx
        · intro u hu
          exact h.unrefine u (mem_without.1 hu).1
  · rw [refineCompletely_false hh hi] at hr
    injection hr with hr
    injection hr with _ hr
    subst hr; exact h

theorem ReqOk.unrefineCompletely (hw : g.WF) (ht : Tiled g (exist w)) (hb : Balanced g (exist w))
    {has : Nat → Bool} (hh : ∀ c, has c = true ↔ w c = some i) (h : ReqOk g w r) {b : Bool} {r' : Req}
    (hr : Dccrg.unrefineCompletely g (exist w) has r c = .ok (b, r')) : ReqOk g w r' := by
  by_cases hi : w c = some i
  · obtain ⟨b', r'', h1, -, -, h2, -⟩ := unrefineCompletely_spec (r := r) hw ht hb hh hi
    rw [hr] at h1
    injection h1 with h1
    injection h1 with _ h1
    subst h1
    rcases h2 with rfl | ⟨rfl, h3, h4⟩
    · exact h
    · refine ⟨h.refine, ?_⟩
      intro u hu
      rcases List.mem_cons.1 hu with rfl | hu
      · exact ⟨exist_of hi, h3, fun k hk => (h4 k hk).1⟩
      · exact h.unrefine u hu
  · rw [unrefineCompletely_false hh hi] at hr
    injection hr with hr
    injection hr with _ hr
    subst hr; exact h

end Dccrg
