import Verif.Flood
/-!
# The grid after refining and unrefining

`R` are the refined cells and `U` the unrefined cells (`Plan`); `After` says which cells exist
afterwards. The new cells again tile the grid and are balanced.
-/
namespace Dccrg
open Cfg
variable {g : Cfg} {E E' : Nat → Bool} {R U : Nat → Prop}

/-- Decisions about refinement that keep the grid consistent. -/
structure Plan (g : Cfg) (E : Nat → Bool) (R U : Nat → Prop) : Prop where
  refE : ∀ r, R r → E r = true ∧ g.lvl r < g.maxLvl
  refC : ∀ r b, R r → E b = true → Near g b r → g.lvl b < g.lvl r → R b
  unE : ∀ u, U u → E u = true ∧ 0 < g.lvl u ∧ ∀ k ∈ g.children (g.parent u), E k = true ∧ ¬ R k
  unN : ∀ u b, U u → E b = true → Near g (g.parent u) b →
    g.lvl b ≤ g.lvl u ∧ (g.lvl b = g.lvl u → ¬ R b)

/-- Cells that exist after refining `R` and unrefining `U`: other cells, children of `R`, parents
of `U`. -/
def After (g : Cfg) (E : Nat → Bool) (R U : Nat → Prop) (c : Nat) : Prop :=
  (E c = true ∧ ¬ R c ∧ ¬ ∃ u, U u ∧ c ∈ g.children (g.parent u)) ∨
  (∃ r, R r ∧ c ∈ g.children r) ∨ ∃ u, U u ∧ c = g.parent u

theorem Plan.parent (hw : g.WF) (ht : Tiled g E) (hp : Plan g E R U) {u : Nat} (hu : U u) :
    g.Valid (g.parent u) ∧ g.lvl (g.parent u) < g.maxLvl ∧ g.lvl u = g.lvl (g.parent u) + 1 := by
  obtain ⟨h1, h2, -⟩ := hp.unE u hu
  have hv := ht.valid u h1
  refine ⟨parent_valid hw hv, lvl_parent_lt hw hv h2, ?_⟩
  rw [lvl_parent hw hv]; omega

/-- Existing cell at a point of a new cell. -/
theorem Plan.source (hw : g.WF) (ht : Tiled g E) (hp : Plan g E R U) {c a : Nat} {p : V3 Nat}
    (ha : After g E R U a) (hm : g.Mem p a) (hc : E c = true) (hmc : g.Mem p c) :
    (a = c ∧ ¬ R c ∧ ¬ ∃ u, U u ∧ c ∈ g.children (g.parent u)) ∨ (R c ∧ a ∈ g.children c) ∨
      ∃ u, U u ∧ a = g.parent u ∧ c ∈ g.children a := by
  rcases ha with ⟨h1, h2, h3⟩ | ⟨r, h1, h2⟩ | ⟨u, h1, rfl⟩
  · have := ht.unique p a c h1 hc hm hmc
    subst this
    exact Or.inl ⟨rfl, h2, h3⟩
  · right; left
    obtain ⟨e1, e2⟩ := hp.refE r h1
    have := ht.unique p r c e1 hc (mem_of_mem_children hw (ht.valid r e1) e2 h2 hm) hmc
    subst this
    exact ⟨h1, h2⟩
  · right; right
    refine ⟨u, h1, rfl, ?_⟩
    obtain ⟨e1, e2, -⟩ := hp.parent hw ht h1
    obtain ⟨k, hk, hkm⟩ := exists_child_mem hw e1 e2 hm
    have := ht.unique p k c ((hp.unE u h1).2.2 k hk).1 hc hkm hmc
    subst this
    exact hk

/-- C13, one change of the grid: cells tile the grid afterwards. -/
theorem Plan.tiled (hw : g.WF) (ht : Tiled g E) (hp : Plan g E R U)
    (hE : ∀ c, E' c = true ↔ After g E R U c) : Tiled g E' := by
  constructor
  · intro c hc
    rcases (hE c).1 hc with h | ⟨r, h1, h2⟩ | ⟨u, h1, rfl⟩
    · exact ht.valid c h.1
    · obtain ⟨e1, e2⟩ := hp.refE r h1
      exact ((children_spec hw (ht.valid r e1) e2).1 h2).1
    · exact (hp.parent hw ht h1).1
  · intro p hpg
    obtain ⟨c, hc, hm⟩ := ht.cover p hpg
    by_cases hR : R c
    · obtain ⟨e1, e2⟩ := hp.refE c hR
      obtain ⟨k, hk, hkm⟩ := exists_child_mem hw (ht.valid c e1) e2 hm
      exact ⟨k, (hE k).2 (Or.inr (Or.inl ⟨c, hR, hk⟩)), hkm⟩
    · by_cases hU : ∃ u, U u ∧ c ∈ g.children (g.parent u)
      · obtain ⟨u, hu, hcu⟩ := hU
        obtain ⟨e1, e2, -⟩ := hp.parent hw ht hu
        exact ⟨g.parent u, (hE _).2 (Or.inr (Or.inr ⟨u, hu, rfl⟩)), mem_of_mem_children hw e1 e2 hcu hm⟩
      · exact ⟨c, (hE c).2 (Or.inl ⟨hc, hR, hU⟩), hm⟩
  · intro p a b ha hb hma hmb
    have hpg : g.InGrid p := by
      rcases (hE a).1 ha with h | ⟨r, h1, h2⟩ | ⟨u, h1, rfl⟩
      · exact mem_inGrid hw (ht.valid a h.1) hma
      · obtain ⟨e1, e2⟩ := hp.refE r h1
        exact mem_inGrid hw ((children_spec hw (ht.valid r e1) e2).1 h2).1 hma
      · exact mem_inGrid hw (hp.parent hw ht h1).1 hma
    obtain ⟨c, hc, hm⟩ := ht.cover p hpg
    rcases hp.source hw ht ((hE a).1 ha) hma hc hm with ⟨e1, e2, e3⟩ | ⟨e1, e2⟩ | ⟨u, e1, e2, e3⟩
    · rcases hp.source hw ht ((hE b).1 hb) hmb hc hm with ⟨f1, f2, f3⟩ | ⟨f1, f2⟩ | ⟨v, f1, f2, f3⟩
      · rw [e1, f1]
      · exact absurd f1 e2
      · subst f2; exact absurd ⟨v, f1, f3⟩ e3
    · rcases hp.source hw ht ((hE b).1 hb) hmb hc hm with ⟨f1, f2, f3⟩ | ⟨f1, f2⟩ | ⟨v, f1, f2, f3⟩
      · exact absurd e1 f2
      · obtain ⟨_, hl⟩ := hp.refE c e1
        have s1 := (children_spec hw (ht.valid c hc) hl).1 e2
        have s2 := (children_spec hw (ht.valid c hc) hl).1 f2
        exact eq_of_mem_lvl hw s1.1 s2.1 (by rw [s1.2.1, s2.2.1]) hma hmb
      · subst f2; exact absurd e1 ((hp.unE v f1).2.2 c f3).2
    · rcases hp.source hw ht ((hE b).1 hb) hmb hc hm with ⟨f1, f2, f3⟩ | ⟨f1, f2⟩ | ⟨v, f1, f2, f3⟩
      · subst e2; exact absurd ⟨u, e1, e3⟩ f3
      · subst e2; exact absurd f1 ((hp.unE u e1).2.2 c e3).2
      · subst e2; subst f2
        obtain ⟨i1, i2, -⟩ := hp.parent hw ht e1
        obtain ⟨j1, j2, -⟩ := hp.parent hw ht f1
        have s1 := ((children_spec hw i1 i2).1 e3).2.2
        have s2 := ((children_spec hw j1 j2).1 f3).2.2
        rw [← s1, ← s2]

/-- Refinement levels of a new cell and a smaller one near it. -/
theorem Plan.levels (hw : g.WF) (ht : Tiled g E) (hb : Balanced g E) (hp : Plan g E R U) {a b : Nat}
    (ha : After g E R U a) (hbb : After g E R U b) (hn : Near g a b) : g.lvl b ≤ g.lvl a + 1 := by
  have hchild : ∀ {r k : Nat}, R r → k ∈ g.children r → g.lvl k = g.lvl r + 1 ∧ Sub g k r := by
    intro r k hr hk
    obtain ⟨e1, e2⟩ := hp.refE r hr
    exact ⟨((children_spec hw (ht.valid r e1) e2).1 hk).2.1,
      sub_of_mem_children hw (ht.valid r e1) e2 hk⟩
  -- existing cell of a family that is unrefined
  have hfam : ∀ {u x : Nat}, U u → Near g x (g.parent u) →
      ∃ k, E k = true ∧ g.lvl k = g.lvl (g.parent u) + 1 ∧ Near g x k := by
    intro u x hu hx
    obtain ⟨e1, e2, -⟩ := hp.parent hw ht hu
    obtain ⟨k, hk, hnk⟩ := hx.child_right hw e1 e2
    exact ⟨k, ((hp.unE u hu).2.2 k hk).1, ((children_spec hw e1 e2).1 hk).2.1, hnk⟩
  rcases ha with ⟨h1, h2, h3⟩ | ⟨r, h1, h2⟩ | ⟨u, h1, rfl⟩
  · rcases hbb with ⟨k1, k2, k3⟩ | ⟨s, k1, k2⟩ | ⟨v, k1, rfl⟩
    · exact (hb a b h1 k1 hn).2
    · obtain ⟨e1, e2⟩ := hchild k1 k2
      have hs := (hp.refE s k1).1
      have hns : Near g a s := hn.mono (Sub.refl _) e2
      have := (hb a s h1 hs hns).2
      by_cases hx : g.lvl a < g.lvl s
      · exact absurd (hp.refC s a k1 h1 hns hx) h2
      · omega
    · obtain ⟨k, e1, e2, e3⟩ := hfam k1 hn
      have := (hb a k h1 e1 e3).2
      omega
  · obtain ⟨f1, f2⟩ := hchild h1 h2
    have hr := (hp.refE r h1).1
    have hnr : Near g r b := hn.mono f2 (Sub.refl _)
    rcases hbb with ⟨k1, k2, k3⟩ | ⟨s, k1, k2⟩ | ⟨v, k1, rfl⟩
    · have := (hb r b hr k1 hnr).2
      omega
    · obtain ⟨e1, e2⟩ := hchild k1 k2
      have := (hb r s hr (hp.refE s k1).1 (hnr.mono (Sub.refl _) e2)).2
      omega
    · obtain ⟨k, e1, e2, e3⟩ := hfam k1 hnr
      have := (hb r k hr e1 e3).2
      omega
  · obtain ⟨_, _, f3⟩ := hp.parent hw ht h1
    rcases hbb with ⟨k1, k2, k3⟩ | ⟨s, k1, k2⟩ | ⟨v, k1, rfl⟩
    · have := (hp.unN u b h1 k1 hn).1
      omega
    · obtain ⟨e1, e2⟩ := hchild k1 k2
      obtain ⟨e3, e4⟩ := hp.unN u s h1 (hp.refE s k1).1 (hn.mono (Sub.refl _) e2)
      have : g.lvl s ≠ g.lvl u := fun h => e4 h k1
      omega
    · obtain ⟨k, e1, e2, e3⟩ := hfam k1 hn
      have := (hp.unN u k h1 e1 e3).1
      omega

/-- C14, one change of the grid: cells are balanced afterwards. -/
theorem Plan.balanced (hw : g.WF) (ht : Tiled g E) (hb : Balanced g E) (hp : Plan g E R U)
    (hE : ∀ c, E' c = true ↔ After g E R U c) : Balanced g E' := by
  intro a b ha hbe hn
  have ht' := hp.tiled hw ht hE
  refine ⟨?_, hp.levels hw ht hb ((hE a).1 ha) ((hE b).1 hbe) hn⟩
  by_cases h : g.lvl a ≤ g.lvl b
  · omega
  · exact hp.levels hw ht hb ((hE b).1 hbe) ((hE a).1 ha)
      (hn.symm hw (ht'.valid a ha) (side_mono (by omega)))

end Dccrg
