import Verif.Refine
import Verif.Props.Neighbors
/-!
# Results of override_refines and induce_refines
-/
namespace Dccrg
open Cfg
variable {n : Nat} {g : Cfg} {E : Nat → Bool}

/-- Cells that are not refined because of given cells `N`: those cells and, repeatedly, smaller
existing cells near them. -/
inductive Kept (g : Cfg) (E : Nat → Bool) (N : Nat → Prop) : Nat → Prop
  | base {c : Nat} : N c → Kept g E N c
  | step {c b : Nat} : Kept g E N c → E c = true → E b = true → Near g c b → g.lvl c < g.lvl b →
      Kept g E N b

/-- Cells that are refined because of given cells `R`: those cells and, repeatedly, larger existing
cells near them. -/
inductive Refd (g : Cfg) (E : Nat → Bool) (R : Nat → Prop) : Nat → Prop
  | base {c : Nat} : R c → Refd g E R c
  | step {c b : Nat} : Refd g E R c → E b = true → Near g b c → g.lvl b < g.lvl c → Refd g E R b

theorem mem_gather {α : Type} {f : Fin n → List α} {x : α} : x ∈ gather f ↔ ∃ i, x ∈ f i := by
  unfold gather
  rw [List.mem_flatMap]
  exact ⟨fun ⟨i, _, h⟩ => ⟨i, h⟩, fun ⟨i, h⟩ => ⟨i, List.mem_finRange i, h⟩⟩

theorem gather_nil {α : Type} {f : Fin n → List α} : gather f = [] ↔ ∀ i, f i = [] := by
  constructor
  · intro h i
    apply List.eq_nil_iff_forall_not_mem.2
    intro x hx
    have := mem_gather.2 ⟨i, hx⟩
    rw [h] at this; cases this
  · intro h
    apply List.eq_nil_iff_forall_not_mem.2
    intro x hx
    obtain ⟨i, hi⟩ := mem_gather.1 hx
    rw [h i] at hi; cases hi

theorem nbrsOf_nil {c : Nat} (h : E c = false) : nbrsOf g E c = [] := by
  unfold nbrsOf; rw [C15_not_existing c _ h]

theorem mem_nbrsOf (hw : g.WF) (ht : Tiled g E) (hb : Balanced g E) {b c : Nat} (hc : E c = true) :
    b ∈ nbrsOf g E c ↔ E b = true ∧ ∃ o ∈ hoodOf g, Meets g c o b := by
  obtain ⟨f, h1, -, -, h4⟩ := C15_neighbors_of hw ht ((balanced_iff hw ht).1 hb) hc (fun o h => h)
  unfold nbrsOf
  rw [h1, ← h4]
  simp only [List.mem_map]
  constructor
  · rintro ⟨⟨x, o⟩, hx, rfl⟩; exact ⟨o, hx⟩
  · rintro ⟨o, h⟩; exact ⟨(b, o), h, rfl⟩

theorem mem_nbrsTo (hw : g.WF) (ht : Tiled g E) (hb : Balanced g E) {b c : Nat} (hc : E c = true) :
    b ∈ nbrsTo g E c ↔ E b = true ∧ ∃ o ∈ hoodOf g, Meets g b o c := by
  obtain ⟨r, h1, -, h4⟩ := C16_neighbors_to hw ht ((balanced_iff hw ht).1 hb) hc (fun o h => h)
  unfold nbrsTo
  rw [h1, ← h4]

theorem nbrsTo_nil (hw : g.WF) (ht : Tiled g E) {c : Nat} (h : E c = false) : nbrsTo g E c = [] := by
  unfold nbrsTo findNeighborsTo
  by_cases h0 : c = 0
  · rw [if_pos (Or.inl h0)]
  · rw [if_pos]
    right; right
    intro hx
    rw [ht.getChild_eq_iff hw h0, h] at hx
    cases hx

/-- Neighborhood of existing cells other than the cell itself. -/
theorem near_iff_meets (hw : g.WF) (ht : Tiled g E) {b c : Nat} (hc : E c = true) (he : E b = true)
    (hne : b ≠ c) : Near g c b ↔ ∃ o ∈ hoodOf g, Meets g c o b := by
  rw [near_iff hw]
  constructor
  · rintro (h | h)
    · obtain ⟨p, h1, h2⟩ := (meets_zero_iff hw (ht.valid c hc)).1 h
      exact absurd (ht.unique p c b hc he h1 h2).symm hne
    · exact h
  · exact Or.inr

theorem side_le_of_lvl {a b : Nat} (h : g.lvl a ≤ g.lvl b) : g.side b ≤ g.side a := side_mono h

/-- Larger neighbors. -/
theorem mem_nbrs_larger (hw : g.WF) (ht : Tiled g E) (hb : Balanced g E) {b c : Nat} (hc : E c = true)
    (hl : g.lvl b < g.lvl c) : b ∈ nbrsOf g E c ++ nbrsTo g E c ↔ E b = true ∧ Near g b c := by
  have hne : c ≠ b := by rintro rfl; omega
  rw [List.mem_append, mem_nbrsOf hw ht hb hc, mem_nbrsTo hw ht hb hc]
  constructor
  · rintro (⟨h1, h2⟩ | ⟨h1, h2⟩)
    · rw [← near_iff_meets hw ht hc h1 hne.symm] at h2
      exact ⟨h1, h2.symm hw (ht.valid c hc) (side_mono (by omega))⟩
    · exact ⟨h1, (near_iff_meets hw ht h1 hc hne).2 h2⟩
  · rintro ⟨h1, h2⟩
    exact Or.inr ⟨h1, (near_iff_meets hw ht h1 hc hne).1 h2⟩

/-- Smaller neighbors. -/
theorem mem_nbrs_smaller (hw : g.WF) (ht : Tiled g E) (hb : Balanced g E) {b c : Nat} (hc : E c = true)
    (hl : g.lvl c < g.lvl b) : b ∈ nbrsOf g E c ++ nbrsTo g E c ↔ E b = true ∧ Near g c b := by
  have hne : c ≠ b := by rintro rfl; omega
  rw [List.mem_append, mem_nbrsOf hw ht hb hc, mem_nbrsTo hw ht hb hc]
  constructor
  · rintro (⟨h1, h2⟩ | ⟨h1, h2⟩)
    · exact ⟨h1, (near_iff_meets hw ht hc h1 hne.symm).2 h2⟩
    · rw [← near_iff_meets hw ht h1 hc hne] at h2
      exact ⟨h1, h2.symm hw (ht.valid b h1) (side_mono (by omega))⟩
  · rintro ⟨h1, h2⟩
    exact Or.inl ⟨h1, (near_iff_meets hw ht hc h1 hne.symm).1 h2⟩

/-! ## override_refines -/

theorem mem_dontRound (hw : g.WF) (ht : Tiled g E) (hb : Balanced g E) {old donts : List Nat} {b : Nat} :
    b ∈ dontRound g E old donts ↔
      b ∉ old ∧ b ∉ donts ∧ E b = true ∧ ∃ c ∈ donts, E c = true ∧ Near g c b ∧ g.lvl c < g.lvl b := by
  unfold dontRound
  simp only [List.mem_flatMap, List.mem_filter, Bool.and_eq_true, Bool.not_eq_true', Bool.or_eq_false_iff,
    List.contains_eq_mem, decide_eq_false_iff_not, decide_eq_true_eq]
  constructor
  · rintro ⟨c, hc, hm, ⟨h1, h2⟩, h3⟩
    cases he : E c with
    | false =>
      rw [nbrsOf_nil he, nbrsTo_nil hw ht he] at hm
      simp at hm
    | true =>
      rw [mem_nbrs_smaller hw ht hb he (by omega)] at hm
      exact ⟨h1, h2, hm.1, c, hc, he, hm.2, h3⟩
  · rintro ⟨h1, h2, h3, c, hc, he, hn, hl⟩
    exact ⟨c, hc, (mem_nbrs_smaller hw ht hb he hl).2 ⟨h3, hn⟩, ⟨h1, h2⟩, hl⟩

theorem dontLoop_spec (hw : g.WF) (ht : Tiled g E) (hb : Balanced g E) (N : Nat → Prop) (k t : Nat)
    (old donts : Fin n → List Nat) (hk : g.maxLvl + 1 < k + t)
    (h1 : ∀ i c, c ∈ old i ∨ c ∈ donts i → Kept g E N c)
    (h2 : ∀ c, N c → ∃ i, c ∈ old i ∨ c ∈ donts i)
    (h3 : ∀ i c b, c ∈ old i → E c = true → E b = true → Near g c b → g.lvl c < g.lvl b →
      ∃ j, b ∈ old j ∨ b ∈ donts j)
    (h4 : t = 0 ∨ ∀ i c, c ∈ donts i → E c = true ∧ t ≤ g.lvl c) (h5 : t ≤ g.maxLvl) :
    ∃ res, dontLoop g (fun _ : Fin n => E) k old donts = some res ∧
      ∀ c, (∃ i, c ∈ res i) ↔ Kept g E N c := by
  induction k generalizing t old donts with
  | zero => omega
  | succ k ih =>
    unfold dontLoop
    generalize hnew : (gather fun i : Fin n => dontRound g E (old i) (donts i)) = new
    have hmem : ∀ b, b ∈ new ↔ ∃ i, b ∉ old i ∧ b ∉ donts i ∧ E b = true ∧
        ∃ c ∈ donts i, E c = true ∧ Near g c b ∧ g.lvl c < g.lvl b := by
      intro b; rw [← hnew, mem_gather]; simp only [mem_dontRound hw ht hb]
    simp only
    by_cases hn : new = []
    · rw [if_pos hn]
      refine ⟨_, rfl, fun c => ⟨?_, ?_⟩⟩
      · rintro ⟨i, hi⟩
        exact h1 i c (List.mem_append.1 hi)
      · intro hc
        induction hc with
        | base h => obtain ⟨i, hi⟩ := h2 _ h; exact ⟨i, List.mem_append.2 hi⟩
        | @step c b _ hce hbe hnr hl ihc =>
          obtain ⟨i, hi⟩ := ihc
          rcases List.mem_append.1 hi with hi | hi
          · obtain ⟨j, hj⟩ := h3 i c b hi hce hbe hnr hl; exact ⟨j, List.mem_append.2 hj⟩
          · apply Classical.byContradiction
            intro hno
            have : b ∈ new := (hmem b).2 ⟨i, fun h => hno ⟨i, List.mem_append.2 (Or.inl h)⟩,
              fun h => hno ⟨i, List.mem_append.2 (Or.inr h)⟩, hbe, c, hi, hce, hnr, hl⟩
            rw [hn] at this; cases this
    · rw [if_neg hn]
      have hlv : ∀ c ∈ new, E c = true ∧ t + 1 ≤ g.lvl c := by
        intro c hc
        obtain ⟨i, -, -, hce, d, hd, hde, -, hl⟩ := (hmem c).1 hc
        refine ⟨hce, ?_⟩
        rcases h4 with h4 | h4
        · omega
        · have := (h4 i d hd).2; omega
      have ht1 : t + 1 ≤ g.maxLvl := by
        obtain ⟨x, hx⟩ := List.exists_mem_of_ne_nil _ hn
        have h := hlv x hx
        have := lvl_le (ht.valid x h.1)
        omega
      apply ih (t + 1)
      · omega
      · intro i c hc
        rcases hc with hc | hc
        · exact h1 i c (List.mem_append.1 hc)
        · obtain ⟨j, -, -, hce, d, hd, hde, hnr, hl⟩ := (hmem c).1 hc
          exact Kept.step (h1 j d (Or.inr hd)) hde hce hnr hl
      · intro c hc
        obtain ⟨i, hi⟩ := h2 c hc
        exact ⟨i, Or.inl (List.mem_append.2 hi)⟩
      · intro i c b hc hce hbe hnr hl
        rcases List.mem_append.1 hc with hc | hc
        · obtain ⟨j, hj⟩ := h3 i c b hc hce hbe hnr hl
          exact ⟨j, Or.inl (List.mem_append.2 hj)⟩
        · apply Classical.byContradiction
          intro hno
          apply hno
          refine ⟨i, Or.inr ((hmem b).2 ⟨i, fun h => hno ⟨i, Or.inl (List.mem_append.2 (Or.inl h))⟩,
              fun h => hno ⟨i, Or.inl (List.mem_append.2 (Or.inr h))⟩, hbe, c, hc, hce, hnr, hl⟩)⟩
      · exact Or.inr fun i c hc => hlv c hc
      · exact ht1

/-- Result of `override_refines`. -/
theorem overrideRefines_spec (hw : g.WF) (ht : Tiled g E) (hb : Balanced g E) (r : Fin n → Req) :
    ∃ r', overrideRefines g (fun _ => E) r = some r' ∧ ∀ i,
      (∀ c, c ∈ (r' i).notRefine ↔ Kept g E (fun c => ∃ j, c ∈ (r j).notRefine) c) ∧
      (∀ c, c ∈ (r' i).toRefine ↔ (∃ j, c ∈ (r j).toRefine) ∧
        ¬ Kept g E (fun c => ∃ j, c ∈ (r j).notRefine) c) ∧
      (r' i).toUnrefine = (r i).toUnrefine ∧ (r' i).notUnrefine = (r i).notUnrefine := by
  obtain ⟨res, h1, h2⟩ := dontLoop_spec (n := n) hw ht hb (fun c => ∃ j, c ∈ (r j).notRefine)
    (g.maxLvl + 2) 0 (fun _ => []) (fun i => (r i).notRefine) (by omega)
    (by
      intro i c hc
      rcases hc with hc | hc
      · cases hc
      · exact Kept.base ⟨i, hc⟩)
    (by rintro c ⟨i, hi⟩; exact ⟨i, Or.inr hi⟩)
    (by intro i c b hc; cases hc) (Or.inl rfl) (by omega)
  unfold overrideRefines
  rw [h1]
  have hnr : ∀ i c, c ∈ res i ++ gather res ↔ Kept g E (fun c => ∃ j, c ∈ (r j).notRefine) c := by
    intro i c
    rw [List.mem_append, mem_gather, ← h2]
    exact ⟨fun h => h.elim (fun h => ⟨i, h⟩) id, Or.inr⟩
  refine ⟨_, rfl, fun i => ⟨hnr i, fun c => ?_, rfl, rfl⟩⟩
  simp only [mem_gather, List.mem_filter, Bool.not_eq_true', List.contains_eq_mem,
    decide_eq_false_iff_not]
  constructor
  · rintro ⟨j, hj, hno⟩
    exact ⟨⟨j, hj⟩, fun h => hno ((hnr j c).2 h)⟩
  · rintro ⟨⟨j, hj⟩, hno⟩
    exact ⟨j, hj, fun h => hno ((hnr j c).1 h)⟩

/-! ## induce_refines -/

section
variable {w : Owner n}

theorem mem_ids {c : Nat} : c ∈ ids g ↔ c ≤ g.last := by
  unfold ids; rw [List.mem_range]; omega

theorem mem_localBoundary (hw : g.WF) (ht : Tiled g (exist w)) {i : Fin n} {has : Nat → Bool} {c : Nat} :
    c ∈ localBoundary g i w has ↔ has c = true ∧ w c = some i ∧
      ∃ b ∈ nbrsOf g (exist w) c ++ nbrsTo g (exist w) c, b ≠ 0 ∧ w b ≠ some i := by
  unfold localBoundary
  simp only [List.mem_filter, Bool.and_eq_true, mem_ids, List.any_eq_true, bne_iff_ne, beq_iff_eq]
  constructor
  · rintro ⟨h1, ⟨⟨h2, h3⟩, h4⟩, h5⟩
    exact ⟨h2, h4, h5⟩
  · rintro ⟨h2, h4, h5⟩
    have he : exist w c = true := by unfold exist; rw [h4]; rfl
    have hv := ht.valid c he
    exact ⟨hv.2, ⟨⟨h2, (ht.getChild_eq_iff hw (valid_ne_zero hv)).2 he⟩, h4⟩, h5⟩

theorem mem_remoteBoundary (hw : g.WF) (ht : Tiled g (exist w)) {i : Fin n} {has : Nat → Bool} {b : Nat} :
    b ∈ remoteBoundary g i w has ↔ b ≠ 0 ∧ w b ≠ some i ∧
      ∃ c, has c = true ∧ w c = some i ∧ b ∈ nbrsOf g (exist w) c ++ nbrsTo g (exist w) c := by
  unfold remoteBoundary
  simp only [List.mem_flatMap, List.mem_filter, Bool.and_eq_true, bne_iff_ne,
    mem_localBoundary hw ht]
  constructor
  · rintro ⟨c, ⟨h1, h2, -⟩, h3, h4, h5⟩
    exact ⟨h4, h5, c, h1, h2, h3⟩
  · rintro ⟨h4, h5, c, h1, h2, h3⟩
    exact ⟨c, ⟨h1, h2, b, h3, h4, h5⟩, h3, h4, h5⟩

theorem mem_induceRound (hw : g.WF) (ht : Tiled g (exist w)) (hb : Balanced g (exist w)) {i : Fin n}
    {has : Nat → Bool} (hh : ∀ c, has c = true ↔ w c = some i) {refs : List Nat}
    {news : Fin n → List Nat} (hE : ∀ i, ∀ r ∈ news i, exist w r = true)
    (hn : ∀ p, ∀ r ∈ news p, (∀ q, r ∈ news q) ∨ w r = some p) {b : Nat} :
    b ∈ induceRound g i w has refs news ↔ w b = some i ∧ b ∉ refs ∧
      ∃ p, ∃ r ∈ news p, Near g b r ∧ g.lvl b < g.lvl r := by
  have hex : ∀ {b : Nat} {j : Fin n}, w b = some j → exist w b = true := by
    intro b j h; unfold exist; rw [h]; rfl
  unfold induceRound
  simp only [List.mem_append, List.mem_flatMap, List.mem_filter, Bool.and_eq_true, bne_iff_ne,
    beq_iff_eq, decide_eq_true_eq, Bool.not_eq_true', List.contains_eq_mem, decide_eq_false_iff_not]
  constructor
  · rintro (⟨r, hr, hm, ⟨⟨h0, h1⟩, h2⟩, h3⟩ | ⟨p, -, hp⟩)
    · rw [← List.mem_append, mem_nbrs_larger hw ht hb (hE i r hr) h2] at hm
      exact ⟨h1, h3, i, r, hr, hm.2, h2⟩
    · by_cases hpi : p = i
      · rw [if_pos hpi] at hp; cases hp
      · rw [if_neg hpi] at hp
        obtain ⟨r, hr, hm⟩ := List.mem_flatMap.1 hp
        by_cases hc : r ∈ remoteBoundary g i w has
        · rw [if_pos hc] at hm
          obtain ⟨h1, h2⟩ := List.mem_filter.1 hm
          simp only [Bool.and_eq_true, decide_eq_true_eq, Bool.not_eq_true',
            decide_eq_false_iff_not] at h2
          have h3 := ((mem_localBoundary hw ht).1 h1).2.1
          refine ⟨h3, h2.2, p, r, hr, ?_, h2.1.2⟩
          exact (isNeighbor_near hw (ht.valid b (hex h3)) (ht.valid r (hE p r hr))).1 h2.1.1
        · rw [if_neg hc] at hm; cases hm
  · rintro ⟨h1, h2, p, r, hr, hnr, hl⟩
    have hbe := hex h1
    have hre := hE p r hr
    by_cases hri : r ∈ news i
    · left
      refine ⟨r, hri, ?_, ⟨⟨valid_ne_zero (ht.valid b hbe), h1⟩, hl⟩, h2⟩
      rw [← List.mem_append]
      exact (mem_nbrs_larger hw ht hb hre hl).2 ⟨hbe, hnr⟩
    · right
      have hpi : p ≠ i := by rintro rfl; exact hri hr
      have hwr : w r ≠ some i := by
        rcases hn p r hr with h | h
        · exact absurd (h i) hri
        · rw [h]; intro h; exact hpi (Option.some.inj h)
      have hnb : r ∈ nbrsOf g (exist w) b ++ nbrsTo g (exist w) b :=
        (mem_nbrs_smaller hw ht hb hbe hl).2 ⟨hre, hnr⟩
      have hr0 := valid_ne_zero (ht.valid r hre)
      refine ⟨p, List.mem_finRange p, ?_⟩
      rw [if_neg hpi]
      refine List.mem_flatMap.2 ⟨r, hr, ?_⟩
      rw [if_pos ((mem_remoteBoundary hw ht).2
        ⟨hr0, hwr, b, (hh b).2 h1, h1, hnb⟩)]
      apply List.mem_filter.2
      refine ⟨(mem_localBoundary hw ht).2 ⟨(hh b).2 h1, h1, r, hnb, hr0, hwr⟩, ?_⟩
      simp only [Bool.and_eq_true, decide_eq_true_eq, Bool.not_eq_true', decide_eq_false_iff_not]
      exact ⟨⟨(isNeighbor_near hw (ht.valid b hbe) (ht.valid r hre)).2 hnr, hl⟩, h2⟩

theorem induceLoop_spec (hw : g.WF) (ht : Tiled g (exist w)) (hb : Balanced g (exist w))
    {has : Fin n → Nat → Bool} (hh : ∀ i c, has i c = true ↔ w c = some i) (R : Nat → Prop)
    (k t : Nat) (refs news : Fin n → List Nat) (hk : g.maxLvl + 1 < k + t) (hkt : t ≤ g.maxLvl + 1)
    (h1 : ∀ i c, c ∈ refs i → Refd g (exist w) R c ∧ exist w c = true)
    (h2 : ∀ c, R c → ∃ i, c ∈ refs i) (h3 : ∀ i c, c ∈ news i → c ∈ refs i)
    (h4 : ∀ i c b, c ∈ refs i → exist w b = true → Near g b c → g.lvl b < g.lvl c →
      (∃ j, c ∈ news j) ∨ ∃ j, b ∈ refs j)
    (h5 : ∀ p, ∀ r ∈ news p, (∀ q, r ∈ news q) ∨ w r = some p)
    (h6 : ∀ i c, c ∈ news i → g.lvl c + t ≤ g.maxLvl) :
    ∃ res, induceLoop g (fun _ => w) has k refs news = .ok res ∧
      ∀ c, (∃ i, c ∈ res i) ↔ Refd g (exist w) R c := by
  induction k generalizing t refs news with
  | zero => omega
  | succ k ih =>
    unfold induceLoop
    by_cases hn : gather news = []
    · rw [if_pos hn]
      refine ⟨_, rfl, fun c => ⟨fun ⟨i, hi⟩ => (h1 i c hi).1, fun hc => ?_⟩⟩
      induction hc with
      | base h => exact h2 _ h
      | @step c b _ hbe hnr hl ihc =>
        obtain ⟨i, hi⟩ := ihc
        rcases h4 i c b hi hbe hnr hl with ⟨j, hj⟩ | h
        · rw [gather_nil.1 hn j] at hj; cases hj
        · exact h
    · rw [if_neg hn]
      have hE : ∀ i, ∀ r ∈ news i, exist w r = true := fun i r hr => (h1 i r (h3 i r hr)).2
      rw [if_neg (by rintro ⟨i, r, hr, h⟩; rw [hE i r hr] at h; cases h)]
      have hmem := fun i (b : Nat) => mem_induceRound (b := b) (refs := refs i) hw ht hb (hh i) hE h5
      have hex : ∀ {b : Nat} {j : Fin n}, w b = some j → exist w b = true := by
        intro b j h; unfold exist; rw [h]; rfl
      have htm : t ≤ g.maxLvl := by
        obtain ⟨x, hx⟩ := List.exists_mem_of_ne_nil _ hn
        obtain ⟨i, hi⟩ := mem_gather.1 hx
        have := h6 i x hi; omega
      apply ih (t + 1)
      · omega
      · omega
      · intro i c hc
        rcases List.mem_append.1 hc with hc | hc
        · exact h1 i c hc
        · obtain ⟨e1, e2, p, r, hr, e3, e4⟩ := (hmem i c).1 hc
          exact ⟨Refd.step (h1 p r (h3 p r hr)).1 (hex e1) e3 e4, hex e1⟩
      · intro c hc
        obtain ⟨i, hi⟩ := h2 c hc
        exact ⟨i, List.mem_append.2 (Or.inl hi)⟩
      · intro i c hc; exact List.mem_append.2 (Or.inr hc)
      · intro i c b hc hbe hnr hl
        rcases List.mem_append.1 hc with hc | hc
        · rcases h4 i c b hc hbe hnr hl with ⟨j, hj⟩ | ⟨j, hj⟩
          · right
            have hbo : ∃ q, w b = some q := Option.isSome_iff_exists.1 hbe
            obtain ⟨q, hq⟩ := hbo
            refine ⟨q, ?_⟩
            by_cases hbr : b ∈ refs q
            · exact List.mem_append.2 (Or.inl hbr)
            · exact List.mem_append.2 (Or.inr ((hmem q b).2 ⟨hq, hbr, j, c, hj, hnr, hl⟩))
          · exact Or.inr ⟨j, List.mem_append.2 (Or.inl hj)⟩
        · exact Or.inl ⟨i, hc⟩
      · intro p r hr; exact Or.inr ((hmem p r).1 hr).1
      · intro i c hc
        obtain ⟨-, -, p, r, hr, -, e4⟩ := (hmem i c).1 hc
        have := h6 p r hr; omega

/-- Result of `induce_refines`. -/
theorem induceRefines_spec (hw : g.WF) (ht : Tiled g (exist w)) (hb : Balanced g (exist w))
    {has : Fin n → Nat → Bool} (hh : ∀ i c, has i c = true ↔ w c = some i) (R : Nat → Prop)
    (hR : ∀ c, R c → exist w c = true) {refs : Fin n → List Nat} (hr : ∀ i c, c ∈ refs i ↔ R c) :
    ∃ res, induceRefines g (fun _ => w) has refs = .ok res ∧
      ∀ i c, c ∈ res i ↔ Refd g (exist w) R c := by
  by_cases hn : n = 0
  · subst hn
    refine ⟨fun i => i.elim0, ?_, fun i => i.elim0⟩
    unfold induceRefines induceLoop
    rw [if_pos (gather_nil.2 fun i => i.elim0)]
    simp only [Out.ok.injEq]
    funext i; exact i.elim0
  obtain ⟨res, h1, h2⟩ := induceLoop_spec hw ht hb hh R (g.maxLvl + 2) 0 refs refs (by omega) (by omega)
    (fun i c hc => ⟨Refd.base ((hr i c).1 hc), hR c ((hr i c).1 hc)⟩)
    (fun c hc => ⟨⟨0, by omega⟩, (hr _ c).2 hc⟩) (fun i c h => h)
    (fun i c b hc _ _ _ => Or.inl ⟨i, hc⟩)
    (fun p r h => Or.inl fun q => (hr q r).2 ((hr p r).1 h))
    (fun i c hc => by
      have := lvl_le (ht.valid c (hR c ((hr i c).1 hc)))
      omega)
  unfold induceRefines
  rw [h1]
  refine ⟨_, rfl, fun i c => ?_⟩
  rw [List.mem_append, mem_gather, ← h2]
  exact ⟨fun h => h.elim (fun h => ⟨i, h⟩) id, Or.inr⟩

end
end Dccrg
