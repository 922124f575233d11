import Verif.FloodGeom
/-!
# Result of override_unrefines
-/
namespace Dccrg
open Cfg
variable {n : Nat} {g : Cfg} {E : Nat → Bool}

theorem nbr6_near (hw : g.WF) (ht : Tiled g E) (hb : Balanced g E) {c : Nat} (hc : E c = true)
    (d : Fin 3) (pos : Bool) (h : nbr6 g E c d pos ≠ 0) :
    E (nbr6 g E c d pos) = true ∧ Near g c (nbr6 g E c d pos) := by
  have hbal := ((balanced_iff hw ht).1 hb).faces
  by_cases hq : g.InCover (nbrPt (fun d => (g.idx c d : Int)) (g.side c) d pos)
  · obtain ⟨a, ha, hm⟩ := ht.cover _ (wrap_inGrid hw (nbrPt (fun d => (g.idx c d : Int)) (g.side c) d pos))
    rw [nbr6_eq hw ht hbal hc (lift_self c) d pos ha hq hm]
    refine ⟨ha, (near_iff hw).2 (Or.inr ⟨_, faces_sub_hoodOf (unitItem_mem d pos), ?_⟩)⟩
    exact meets_of_lift hw (lift_self c) (nbrPt_block (side_pos c) d pos) hq hm
  · exact absurd (nbr6_none hw (ht.valid c hc) (lift_self c) d pos hq) h

theorem mem_sixNbrs {c b : Nat} : b ∈ sixNbrs g E c ↔ ∃ d pos, nbr6 g E c d pos = b := by
  unfold sixNbrs
  simp only [List.mem_cons, List.not_mem_nil, or_false]
  constructor
  · rintro (h | h | h | h | h | h)
    · exact ⟨0, false, h.symm⟩
    · exact ⟨0, true, h.symm⟩
    · exact ⟨1, false, h.symm⟩
    · exact ⟨1, true, h.symm⟩
    · exact ⟨2, false, h.symm⟩
    · exact ⟨2, true, h.symm⟩
  · rw [exists_fin3]
    rintro (⟨pos, h⟩ | ⟨pos, h⟩ | ⟨pos, h⟩) <;> cases pos <;> simp [h]

/-- Members after the inner loop. -/
theorem floodVisit_fold {P : Nat} (L : List Nat) (p q : List Nat) :
    (∀ c, c ∈ (L.foldl (floodVisit g P) (p, q)).1 ↔
      c ∈ p ∨ (c ∈ L ∧ c ≠ 0 ∧ c ∉ q ∧ isNeighbor g P c = true)) ∧
    (∀ c, c ∈ (L.foldl (floodVisit g P) (p, q)).2 ↔
      c ∈ q ∨ (c ∈ L ∧ c ≠ 0 ∧ isNeighbor g P c = false)) ∧
    (q.Nodup → (L.foldl (floodVisit g P) (p, q)).2.Nodup) := by
  induction L generalizing p q with
  | nil => simp
  | cons a L ih =>
    rw [List.foldl_cons]
    by_cases h0 : a = 0 ∨ a ∈ q
    · have e : floodVisit g P (p, q) a = (p, q) := if_pos h0
      rw [e]
      obtain ⟨i1, i2, i3⟩ := ih p q
      refine ⟨fun c => ?_, fun c => ?_, i3⟩
      · rw [i1, List.mem_cons]
        constructor
        · rintro (h | ⟨h, h'⟩)
          · exact Or.inl h
          · exact Or.inr ⟨Or.inr h, h'⟩
        · rintro (h | ⟨h | h, h1, h2, h3⟩)
          · exact Or.inl h
          · subst h; exact absurd h0 (by simp [h1, h2])
          · exact Or.inr ⟨h, h1, h2, h3⟩
      · rw [i2, List.mem_cons]
        constructor
        · rintro (h | ⟨h, h'⟩)
          · exact Or.inl h
          · exact Or.inr ⟨Or.inr h, h'⟩
        · rintro (h | ⟨h | h, h1, h3⟩)
          · exact Or.inl h
          · subst h; exact Or.inl (h0.resolve_left h1)
          · exact Or.inr ⟨h, h1, h3⟩
    · cases hn : isNeighbor g P a with
      | true =>
        have e : floodVisit g P (p, q) a = (a :: p, q) := by
          unfold floodVisit; rw [if_neg h0, if_pos hn]
        rw [e]
        obtain ⟨i1, i2, i3⟩ := ih (a :: p) q
        refine ⟨fun c => ?_, fun c => ?_, i3⟩
        · rw [i1, List.mem_cons, List.mem_cons]
          constructor
          · rintro ((h | h) | ⟨h, h'⟩)
            · subst h; exact Or.inr ⟨Or.inl rfl, fun h => h0 (Or.inl h), fun h => h0 (Or.inr h), hn⟩
            · exact Or.inl h
            · exact Or.inr ⟨Or.inr h, h'⟩
          · rintro (h | ⟨h | h, h'⟩)
            · exact Or.inl (Or.inr h)
            · exact Or.inl (Or.inl h)
            · exact Or.inr ⟨h, h'⟩
        · rw [i2, List.mem_cons]
          constructor
          · rintro (h | ⟨h, h'⟩)
            · exact Or.inl h
            · exact Or.inr ⟨Or.inr h, h'⟩
          · rintro (h | ⟨h | h, h1, h3⟩)
            · exact Or.inl h
            · subst h; rw [hn] at h3; cases h3
            · exact Or.inr ⟨h, h1, h3⟩
      | false =>
        have e : floodVisit g P (p, q) a = (p, a :: q) := by
          unfold floodVisit; rw [if_neg h0, if_neg (by rw [hn]; simp)]
        rw [e]
        obtain ⟨i1, i2, i3⟩ := ih p (a :: q)
        refine ⟨fun c => ?_, fun c => ?_, ?_⟩
        · rw [i1, List.mem_cons, List.mem_cons]
          constructor
          · rintro (h | ⟨h, h1, h2, h3⟩)
            · exact Or.inl h
            · exact Or.inr ⟨Or.inr h, h1, fun hx => h2 (Or.inr hx), h3⟩
          · rintro (h | ⟨h | h, h1, h2, h3⟩)
            · exact Or.inl h
            · subst h; rw [hn] at h3; cases h3
            · refine Or.inr ⟨h, h1, ?_, h3⟩
              rintro (hx | hx)
              · subst hx; rw [hn] at h3; cases h3
              · exact h2 hx
        · rw [i2, List.mem_cons, List.mem_cons]
          constructor
          · rintro ((h | h) | ⟨h, h'⟩)
            · subst h; exact Or.inr ⟨Or.inl rfl, fun h => h0 (Or.inl h), hn⟩
            · exact Or.inl h
            · exact Or.inr ⟨Or.inr h, h'⟩
          · rintro (h | ⟨h | h, h1, h3⟩)
            · exact Or.inl (Or.inr h)
            · exact Or.inl (Or.inl h)
            · exact Or.inr ⟨h, h1, h3⟩
        · intro hnd
          exact i3 (List.nodup_cons.2 ⟨fun h => h0 (Or.inr h), hnd⟩)

theorem minOf_mem (x : Nat) (l : List Nat) : minOf x l ∈ x :: l := by
  unfold minOf
  induction l generalizing x with
  | nil => simp
  | cons a l ih =>
    rw [List.foldl_cons]
    have := ih (min x a)
    rw [List.mem_cons] at this
    rcases this with h | h
    · rw [h]
      rcases Nat.le_total x a with h1 | h1
      · rw [Nat.min_eq_left h1]; simp
      · rw [Nat.min_eq_right h1]; simp
    · simp [h]

/-- A cell that does not prevent unrefinement of nearby cells of level `l`. -/
def Fits (g : Cfg) (R : List Nat) (l c : Nat) : Prop := g.lvl c < l ∨ (g.lvl c = l ∧ c ∉ R)

theorem flood_spec (hw : g.WF) (ht : Tiled g E) (hb : Balanced g E) {R : List Nat} {P l : Nat}
    (hP : g.Valid P) (k : Nat) (p q : List Nat)
    (h1 : ∀ c ∈ p, E c = true ∧ Near g P c) (h2 : ∀ c ∈ p, c ∉ q) (h3 : ∀ c ∈ q, c ≤ g.last)
    (h4 : q.Nodup) (h5 : g.last + 1 < k + q.length)
    (h6 : ∀ c ∈ q, Near g P c → E c = true ∧ Fits g R l c ∧
      ∀ d pos, nbr6 g E c d pos ≠ 0 → Near g P (nbr6 g E c d pos) →
        nbr6 g E c d pos ∈ p ∨ nbr6 g E c d pos ∈ q) :
    (flood g E R P l k p q = .ok true ∧ ∃ F : Nat → Prop,
      (∀ c, c ∈ p ∨ (c ∈ q ∧ Near g P c) → F c) ∧
      ∀ c, F c → Near g P c ∧ E c = true ∧ Fits g R l c ∧
        ∀ d pos, nbr6 g E c d pos ≠ 0 → Near g P (nbr6 g E c d pos) → F (nbr6 g E c d pos)) ∨
    (flood g E R P l k p q = .ok false ∧ ∃ c, E c = true ∧ Near g P c ∧ ¬ Fits g R l c) := by
  induction k generalizing p q with
  | zero =>
    exfalso
    have := h4.length_le_of_subset (l₂ := List.range (g.last + 1)) (fun c hc =>
      List.mem_range.2 (by have := h3 c hc; omega))
    rw [List.length_range] at this
    omega
  | succ k ih =>
    cases p with
    | nil =>
      left
      refine ⟨rfl, fun c => c ∈ q ∧ Near g P c, fun c hc => hc.resolve_left (by simp),
        fun c hc => ?_⟩
      obtain ⟨e1, e2, e3⟩ := h6 c hc.1 hc.2
      refine ⟨hc.2, e1, e2, fun d pos hn hnr => ⟨?_, hnr⟩⟩
      exact (e3 d pos hn hnr).resolve_left (by simp)
    | cons x xs =>
      have hmin := minOf_mem x xs
      generalize hx : minOf x xs = next at hmin
      obtain ⟨hnE, hnN⟩ := h1 next hmin
      have hv := ht.valid next hnE
      have hn0 := valid_ne_zero hv
      rw [flood]
      simp only [hx]
      rw [if_neg (by simpa using (ht.getChild_eq_iff hw hn0).2 hnE)]
      obtain ⟨f1, f2, f3⟩ := floodVisit_fold (g := g) (P := P) (sixNbrs g E next)
        ((x :: xs).filter (· != next)) (next :: q)
      generalize (sixNbrs g E next).foldl (floodVisit g P)
        ((x :: xs).filter (· != next), next :: q) = s at f1 f2 f3
      have hsix : ∀ c ∈ sixNbrs g E next, c ≠ 0 → E c = true := by
        intro c hc h0
        obtain ⟨d, pos, rfl⟩ := mem_sixNbrs.1 hc
        exact (nbr6_near hw ht hb hnE d pos h0).1
      have hnq := h2 next hmin
      have hf1 : ∀ c, c ∈ s.1 ↔ (c ∈ x :: xs ∧ c ≠ next) ∨
          (c ∈ sixNbrs g E next ∧ c ≠ 0 ∧ c ∉ next :: q ∧ Near g P c) := by
        intro c
        rw [f1, List.mem_filter]
        simp only [bne_iff_ne]
        constructor
        · rintro (h | ⟨e1, e2, e3, e4⟩)
          · exact Or.inl h
          · exact Or.inr ⟨e1, e2, e3, (isNeighbor_near hw hP (ht.valid c (hsix c e1 e2))).1 e4⟩
        · rintro (h | ⟨e1, e2, e3, e4⟩)
          · exact Or.inl h
          · exact Or.inr ⟨e1, e2, e3, (isNeighbor_near hw hP (ht.valid c (hsix c e1 e2))).2 e4⟩
      have hf2 : ∀ c, c ∈ s.2 ↔ c = next ∨ c ∈ q ∨
          (c ∈ sixNbrs g E next ∧ c ≠ 0 ∧ ¬ Near g P c) := by
        intro c
        rw [f2, List.mem_cons, or_assoc]
        constructor
        · rintro (h | h | ⟨e1, e2, e4⟩)
          · exact Or.inl h
          · exact Or.inr (Or.inl h)
          · refine Or.inr (Or.inr ⟨e1, e2, fun hn => ?_⟩)
            rw [(isNeighbor_near hw hP (ht.valid c (hsix c e1 e2))).2 hn] at e4; cases e4
        · rintro (h | h | ⟨e1, e2, e4⟩)
          · exact Or.inl h
          · exact Or.inr (Or.inl h)
          · refine Or.inr (Or.inr ⟨e1, e2, ?_⟩)
            cases hi : isNeighbor g P c with
            | false => rfl
            | true => exact absurd ((isNeighbor_near hw hP (ht.valid c (hsix c e1 e2))).1 hi) e4
      have hnd2 : (next :: q).Nodup := List.nodup_cons.2 ⟨hnq, h4⟩
      have hlen : q.length + 1 ≤ s.2.length := by
        have := hnd2.length_le_of_subset (l₂ := s.2) (fun c hc => by
          rcases List.mem_cons.1 hc with h | h
          · exact (hf2 c).2 (Or.inl h)
          · exact (hf2 c).2 (Or.inr (Or.inl h)))
        simpa using this
      -- the rest of the loop
      have go : Fits g R l next →
          (flood g E R P l k s.1 s.2 = .ok true ∧ ∃ F : Nat → Prop,
            (∀ c, c ∈ x :: xs ∨ (c ∈ q ∧ Near g P c) → F c) ∧
            ∀ c, F c → Near g P c ∧ E c = true ∧ Fits g R l c ∧
            ∀ d pos, nbr6 g E c d pos ≠ 0 → Near g P (nbr6 g E c d pos) → F (nbr6 g E c d pos)) ∨
          (flood g E R P l k s.1 s.2 = .ok false ∧ ∃ c, E c = true ∧ Near g P c ∧ ¬ Fits g R l c) := by
        intro hfit
        have hi := ih s.1 s.2
          (by
            intro c hc
            rcases (hf1 c).1 hc with h | ⟨e1, e2, -, e4⟩
            · exact h1 c h.1
            · exact ⟨hsix c e1 e2, e4⟩)
          (by
            intro c hc hq
            rcases (hf1 c).1 hc with ⟨h, hne⟩ | ⟨e1, e2, e3, e4⟩
            · rcases (hf2 c).1 hq with h' | h' | ⟨-, -, h'⟩
              · exact hne h'
              · exact h2 c h h'
              · exact h' (h1 c h).2
            · rcases (hf2 c).1 hq with h' | h' | ⟨-, -, h'⟩
              · exact e3 (by simp [h'])
              · exact e3 (by simp [h'])
              · exact h' e4)
          (by
            intro c hc
            rcases (hf2 c).1 hc with h' | h' | ⟨e1, e2, -⟩
            · rw [h']; exact hv.2
            · exact h3 c h'
            · exact (ht.valid c (hsix c e1 e2)).2)
          (f3 hnd2) (by omega)
          (by
            intro c hc hcn
            rcases (hf2 c).1 hc with h' | h' | ⟨-, -, h'⟩
            · subst h'
              refine ⟨hnE, hfit, fun d pos e1 e2 => ?_⟩
              have hmem : nbr6 g E c d pos ∈ sixNbrs g E c := mem_sixNbrs.2 ⟨d, pos, rfl⟩
              by_cases hin : nbr6 g E c d pos ∈ c :: q
              · right
                rw [hf2]
                rcases List.mem_cons.1 hin with h | h
                · exact Or.inl h
                · exact Or.inr (Or.inl h)
              · left
                exact (hf1 _).2 (Or.inr ⟨hmem, e1, hin, e2⟩)
            · obtain ⟨e1, e2, e3⟩ := h6 c h' hcn
              refine ⟨e1, e2, fun d pos e4 e5 => ?_⟩
              rcases e3 d pos e4 e5 with h | h
              · by_cases hne : nbr6 g E c d pos = next
                · exact Or.inr ((hf2 _).2 (Or.inl hne))
                · exact Or.inl ((hf1 _).2 (Or.inl ⟨h, hne⟩))
              · exact Or.inr ((hf2 _).2 (Or.inr (Or.inl h)))
            · exact absurd hcn h')
        rcases hi with ⟨e1, F, e2, e3⟩ | hi
        · left
          refine ⟨e1, F, fun c hc => e2 c ?_, e3⟩
          rcases hc with hc | ⟨hc, hcn⟩
          · by_cases hne : c = next
            · exact Or.inr ⟨(hf2 c).2 (Or.inl hne), (h1 c hc).2⟩
            · exact Or.inl ((hf1 c).2 (Or.inl ⟨hc, hne⟩))
          · exact Or.inr ⟨(hf2 c).2 (Or.inr (Or.inl hc)), hcn⟩
        · exact Or.inr hi
      by_cases hlt : g.lvl next < l
      · rw [if_pos hlt]; exact go (Or.inl hlt)
      · rw [if_neg hlt]
        by_cases heq : g.lvl next = l
        · rw [if_pos heq]
          by_cases hR : next ∈ R
          · rw [if_pos hR]
            right
            refine ⟨rfl, next, hnE, hnN, ?_⟩
            rintro (h | h)
            · omega
            · exact h.2 hR
          · rw [if_neg hR]; exact go (Or.inr ⟨heq, hR⟩)
        · rw [if_neg heq]
          right
          refine ⟨rfl, next, hnE, hnN, ?_⟩
          rintro (h | h) <;> omega

/-- Existing cells near a cell with existing children are not larger than it. -/
theorem lvl_near_parent (hw : g.WF) (hb : Balanced g E) {P : Nat} (hP : g.Valid P)
    (hl : g.lvl P < g.maxLvl) (hch : ∀ k ∈ g.children P, E k = true) {b : Nat} (hbe : E b = true)
    (hn : Near g P b) : g.lvl P ≤ g.lvl b := by
  apply Classical.byContradiction
  intro hlt
  have h1 := hn.symm hw hP (side_mono (by omega))
  obtain ⟨k, hk, hnk⟩ := h1.child_right hw hP hl
  have h2 := (hb b k hbe (hch k hk) hnk).2
  have h3 := ((children_spec hw hP hl).1 hk).2.1
  omega

/-- A cell is unrefined unless its siblings are refined or kept, or a cell near its parent is or will
be too small. -/
theorem canUnrefine_spec (hw : g.WF) (ht : Tiled g E) (hb : Balanced g E) {R N : List Nat} {u : Nat}
    (hu : E u = true) (hul : 0 < g.lvl u) (hch : ∀ k ∈ g.children (g.parent u), E k = true) :
    ∃ r, canUnrefine g E R N u = .ok r ∧ (r = true ↔
      (∀ s ∈ g.children (g.parent u), s ∉ R ∧ s ∉ N) ∧
      ∀ b, E b = true → Near g (g.parent u) b → Fits g R (g.lvl u) b) := by
  have huv := ht.valid u hu
  have hu0 := valid_ne_zero huv
  have hPv := parent_valid hw huv
  have hPl : g.lvl (g.parent u) + 1 = g.lvl u := by rw [lvl_parent hw huv]; omega
  have hPm : g.lvl (g.parent u) < g.maxLvl := by have := lvl_le huv; omega
  have huc : u ∈ g.children (g.parent u) := mem_children_parent hw huv hul
  generalize hPe : g.parent u = P at *
  unfold canUnrefine
  simp only [hPe]
  by_cases hs : ∃ s ∈ g.children P, s ≠ 0 ∧ (s ∈ R ∨ s ∈ N)
  · rw [if_pos hs]
    refine ⟨false, rfl, ⟨fun h => (by cases h), fun h => ?_⟩⟩
    obtain ⟨s, h1, -, h2⟩ := hs
    have := h.1 s h1
    exact absurd h2 (by simp [this])
  rw [if_neg hs]
  have hsib : ∀ s ∈ g.children P, s ∉ R ∧ s ∉ N := by
    intro s h1
    have h0 := valid_ne_zero (ht.valid s (hch s h1))
    exact ⟨fun h => hs ⟨s, h1, h0, Or.inl h⟩, fun h => hs ⟨s, h1, h0, Or.inr h⟩⟩
  rw [if_neg (by simpa using (ht.getChild_eq_iff hw hu0).2 hu)]
  have hsub := sub_of_mem_children hw hPv hPm huc
  have hspec := flood_spec (R := R) (l := g.lvl u) hw ht hb hPv (g.last + 2)
    ((sixNbrs g E u).filter (· != 0)) []
    (by
      intro c hc
      obtain ⟨h1, h2⟩ := List.mem_filter.1 hc
      obtain ⟨d, pos, rfl⟩ := mem_sixNbrs.1 h1
      have := nbr6_near hw ht hb hu d pos (by simpa using h2)
      exact ⟨this.1, this.2.mono hsub (Sub.refl _)⟩)
    (by simp) (by simp) (by simp) (by simp) (by simp)
  rcases hspec with ⟨e1, F, e2, e3⟩ | ⟨e1, c, h1, h2, h3⟩
  · refine ⟨true, e1, ⟨fun _ => ⟨hsib, ?_⟩, fun _ => rfl⟩⟩
    have hside : ∀ b, g.lvl b ≤ g.maxLvl → g.lvl b = g.lvl P + 1 → 2 * g.side b = g.side P := by
      intro b h1 h2
      unfold side
      rw [h2, show g.maxLvl - g.lvl P = (g.maxLvl - (g.lvl P + 1)) + 1 by omega, Nat.pow_succ]
      omega
    have hF : Reach g E P F := by
      refine ⟨fun b hb => (e3 b hb).2.1, fun b hF => ?_, fun b d pos hF => (e3 b hF).2.2.2 d pos⟩
      obtain ⟨i1, i2, i3, -⟩ := e3 b hF
      have h4 := lvl_near_parent hw hb hPv hPm hch i2 i1
      have h5 : g.lvl b ≤ g.lvl u := by rcases i3 with h | h <;> omega
      by_cases hx : g.lvl b = g.lvl P
      · left; unfold side; rw [hx]
      · right; exact hside b (lvl_le (ht.valid b i2)) (by omega)
    have hbal := ((balanced_iff hw ht).1 hb).faces
    have hs2 := hside u (lvl_le huv) hPl.symm
    have hus := side_pos (g := g) u
    -- sibling through a face
    obtain ⟨o, ho, hou⟩ := mem_children.1 huc
    have hidx : ∀ d, g.idx u d = g.idx P d + o d * g.side u := by
      intro d
      rw [← hou]
      exact idx_child hw hPv hPm ho d
    have ho1 := ho
    have hc0 : g.InCover (corner g P (fun _ => 0)) := by
      have : corner g P (fun _ => 0) = fun d => (g.idx P d : Int) := by
        funext d; simp [corner]
      rw [this]; exact inCover_nat (idx_inGrid hw hPv)
    have hq : Block g P (fun _ => 0) (nbrPt (fun d => (g.idx u d : Int)) (g.side u) 0 (decide (o 0 = 0))) := by
      intro e
      simp only [Int.zero_mul, Int.add_zero]
      have h1 := hidx e
      have h2 := ho1 e
      by_cases he : e = 0
      · subst he
        rcases (by omega : o 0 = 0 ∨ o 0 = 1) with h | h
        · simp only [nbrPt, setD_same, h, decide_true, if_true] at h1 ⊢; omega
        · simp only [nbrPt, setD_same, h, show decide (1 = 0) = false by decide] at h1 ⊢
          simp only [Bool.false_eq_true, if_false]; omega
      · rw [nbrPt, setD_ne _ _ he]
        rcases (by omega : o e = 0 ∨ o e = 1) with h | h <;> rw [h] at h1 <;> omega
    have hcq := (inCover_corner_iff hw hPv _ hq).2 hc0
    obtain ⟨a, la, ha, hla, hbox⟩ := ht.leaf_lift hw hcq
    have hm := mem_of_box hw (ht.valid a ha) hla hbox
    have hnb := nbr6_eq hw ht hbal hu (lift_self u) 0 _ ha hcq hm
    have haF : F a := by
      apply e2
      left
      apply List.mem_filter.2
      refine ⟨mem_sixNbrs.2 ⟨0, _, hnb⟩, ?_⟩
      simpa using valid_ne_zero (ht.valid a ha)
    have h0 := hF.enter hw ht hbal hPv (Or.inl rfl) hc0 haF hla hbox hq
    intro b hbe hnr
    exact (e3 b (reach_all hw ht hbal hPv hF h0 hbe hnr)).2.2.1
  · exact ⟨false, e1, ⟨fun h => (by cases h), fun h => absurd (h.2 c h1 h2) h3⟩⟩

theorem Out.filter_spec {f : Nat → Out Bool} (p : Nat → Prop) (l : List Nat)
    (h : ∀ a ∈ l, ∃ r, f a = .ok r ∧ (r = true ↔ p a)) :
    ∃ l', Out.filter f l = .ok l' ∧ ∀ a, a ∈ l' ↔ a ∈ l ∧ p a := by
  induction l with
  | nil => exact ⟨[], rfl, by simp⟩
  | cons a l ih =>
    obtain ⟨l', h1, h2⟩ := ih (fun b hb => h b (List.mem_cons_of_mem _ hb))
    obtain ⟨r, h3, h4⟩ := h a (List.mem_cons_self)
    refine ⟨if r then a :: l' else l', by simp only [Out.filter, h3, h1], fun b => ?_⟩
    cases r with
    | true =>
      simp only [if_true, List.mem_cons, h2]
      constructor
      · rintro (e | e)
        · subst e; exact ⟨Or.inl rfl, h4.1 rfl⟩
        · exact ⟨Or.inr e.1, e.2⟩
      · rintro ⟨e | e, e'⟩
        · exact Or.inl e
        · exact Or.inr ⟨e, e'⟩
    | false =>
      simp only [Bool.false_eq_true, if_false, List.mem_cons, h2]
      constructor
      · exact fun e => ⟨Or.inr e.1, e.2⟩
      · rintro ⟨e | e, e'⟩
        · subst e; cases h4.2 e'
        · exact ⟨e, e'⟩

theorem Out.all_ok {α : Type} {f : Fin n → Out (List α)} {l : Fin n → List α}
    (h : ∀ i, f i = .ok (l i)) : Out.all f = .ok l := by
  unfold Out.all
  have : f = fun i => .ok (l i) := funext h
  subst this
  rw [if_neg, if_neg, if_neg]
  · rintro ⟨i, hi⟩; cases hi
  · rintro ⟨i, hi⟩; cases hi
  · rintro ⟨i, hi⟩; cases hi

/-- Result of `override_unrefines`. -/
theorem overrideUnrefines_spec (hw : g.WF) (ht : Tiled g E) (hb : Balanced g E)
    {refs notUnref unref : Fin n → List Nat} {R : Nat → Prop} (hR : ∀ i c, c ∈ refs i ↔ R c)
    (hu : ∀ i, ∀ u ∈ unref i, E u = true ∧ 0 < g.lvl u ∧ ∀ k ∈ g.children (g.parent u), E k = true) :
    ∃ res, overrideUnrefines g (fun _ => E) refs notUnref unref = .ok res ∧
      ∀ i u, u ∈ res i ↔ (∃ j, u ∈ unref j) ∧
        (∀ s ∈ g.children (g.parent u), ¬ R s ∧ ∀ j, s ∉ notUnref j) ∧
        ∀ b, E b = true → Near g (g.parent u) b →
          g.lvl b ≤ g.lvl u ∧ (g.lvl b = g.lvl u → ¬ R b) := by
  have key : ∀ i, ∃ l', Out.filter
      (canUnrefine g E (refs i) (notUnref i ++ gather notUnref)) (unref i) = .ok l' ∧
      ∀ u, u ∈ l' ↔ u ∈ unref i ∧ (∀ s ∈ g.children (g.parent u), ¬ R s ∧ ∀ j, s ∉ notUnref j) ∧
        ∀ b, E b = true → Near g (g.parent u) b →
          g.lvl b ≤ g.lvl u ∧ (g.lvl b = g.lvl u → ¬ R b) := by
    intro i
    apply Out.filter_spec
    intro u hui
    obtain ⟨h1, h2, h3⟩ := hu i u hui
    obtain ⟨r, h4, h5⟩ := canUnrefine_spec (R := refs i) (N := notUnref i ++ gather notUnref)
      hw ht hb h1 h2 h3
    refine ⟨r, h4, h5.trans ?_⟩
    have e1 : ∀ s, (s ∉ refs i ∧ s ∉ notUnref i ++ gather notUnref) ↔
        (¬ R s ∧ ∀ j, s ∉ notUnref j) := by
      intro s
      rw [hR, List.mem_append, mem_gather]
      constructor
      · rintro ⟨h1, h2⟩
        exact ⟨h1, fun j hj => h2 (Or.inr ⟨j, hj⟩)⟩
      · rintro ⟨h1, h2⟩
        refine ⟨h1, ?_⟩
        rintro (h | ⟨j, h⟩)
        · exact h2 i h
        · exact h2 j h
    have e2 : ∀ b, Fits g (refs i) (g.lvl u) b ↔
        (g.lvl b ≤ g.lvl u ∧ (g.lvl b = g.lvl u → ¬ R b)) := by
      intro b
      unfold Fits
      rw [hR]
      constructor
      · rintro (h | h)
        · exact ⟨by omega, fun h' => by omega⟩
        · exact ⟨by omega, fun _ => h.2⟩
      · rintro ⟨h1, h2⟩
        by_cases h3 : g.lvl b = g.lvl u
        · exact Or.inr ⟨h3, h2 h3⟩
        · left; omega
    simp only [e1, e2]
  let f : Fin n → List Nat := fun i => Classical.choose (key i)
  have hf := fun i => Classical.choose_spec (key i)
  have hall : (Out.all fun i => Out.filter
      (canUnrefine g E (refs i) (notUnref i ++ gather notUnref)) (unref i)) = .ok f := by
    exact Out.all_ok fun i => (hf i).1
  unfold overrideUnrefines
  rw [hall]
  refine ⟨_, rfl, fun i u => ?_⟩
  rw [mem_gather]
  constructor
  · rintro ⟨j, hj⟩
    have := ((hf j).2 u).1 hj
    exact ⟨⟨j, this.1⟩, this.2⟩
  · rintro ⟨⟨j, hj⟩, h⟩
    exact ⟨j, ((hf j).2 u).2 ⟨hj, h⟩⟩

end Dccrg
