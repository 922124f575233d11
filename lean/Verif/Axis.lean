import Verif.Geom
import Verif.MappingTree64
import Verif.Grid
/-!
# Positions along a dimension

Strictly increasing positions of the corners of smallest cells, shared by all geometries.
-/
namespace Dccrg
open Cfg

/-- Positions `pos 0 < pos 1 < ... < pos N`. -/
def Increasing (pos : Nat → Rat) (N : Nat) : Prop := ∀ a b, a < b → b ≤ N → pos a < pos b

section
variable {pos : Nat → Rat} {N : Nat}

theorem Increasing.of_succ (h : ∀ a, a < N → pos a < pos (a + 1)) : Increasing pos N := by
  intro a b hab hb
  induction b with
  | zero => omega
  | succ b ih =>
    have h1 := h b (by omega)
    by_cases e : a = b
    · subst e; exact h1
    · have h2 := ih (by omega) (by omega)
      grind

theorem Increasing.le (h : Increasing pos N) {a b : Nat} (hab : a ≤ b) (hb : b ≤ N) : pos a ≤ pos b := by
  by_cases e : a = b
  · subst e; grind
  · have := h a b (by omega) hb; grind

/-- Every number between the ends is between two consecutive positions. -/
theorem Increasing.locate (x : Rat) (h0 : pos 0 ≤ x) (h1 : x < pos N) :
    ∃ p, p < N ∧ pos p ≤ x ∧ x < pos (p + 1) := by
  induction N with
  | zero => grind
  | succ N ih =>
    by_cases e : x < pos N
    · obtain ⟨p, a, b⟩ := ih e
      exact ⟨p, by omega, b⟩
    · exact ⟨N, by omega, by grind, h1⟩

theorem Increasing.between (h : Increasing pos N) {x : Rat} {p a b : Nat} (hp : p < N) (h1 : pos p ≤ x)
    (h2 : x < pos (p + 1)) (ha : a ≤ N) (hb : b ≤ N) : pos a ≤ x ∧ x < pos b ↔ a ≤ p ∧ p < b := by
  constructor
  · rintro ⟨e1, e2⟩
    constructor
    · apply Classical.byContradiction
      intro e
      have := h.le (a := p + 1) (b := a) (by omega) ha
      grind
    · apply Classical.byContradiction
      intro e
      have := h.le (a := b) (b := p) (by omega) (by omega)
      grind
  · rintro ⟨e1, e2⟩
    have a1 := h.le (a := a) (b := p) e1 (by omega)
    have a2 := h.le (a := p + 1) (b := b) (by omega) hb
    constructor <;> grind
end

/-- The same with intervals that do not include their start. -/
theorem Increasing.betweenL {pos : Nat → Rat} {N : Nat} (h : Increasing pos N) {x : Rat} {p a b : Nat} (hp : p < N)
    (h1 : pos p < x) (h2 : x ≤ pos (p + 1)) (ha : a ≤ N) (hb : b ≤ N) : pos a < x ∧ x ≤ pos b ↔ a ≤ p ∧ p < b := by
  constructor
  · rintro ⟨e1, e2⟩
    constructor
    · apply Classical.byContradiction
      intro e
      have := h.le (a := p + 1) (b := a) (by omega) ha
      grind
    · apply Classical.byContradiction
      intro e
      have := h.le (a := b) (b := p) (by omega) (by omega)
      grind
  · rintro ⟨e1, e2⟩
    have a1 := h.le (a := a) (b := p) e1 (by omega)
    have a2 := h.le (a := p + 1) (b := b) (by omega) hb
    constructor <;> grind

/-! ## Boxes of cells -/

/-- Half-open box. -/
def InBoxQ (lo hi : V3 Num) (x : V3 Rat) : Prop :=
  ∀ d, ∃ a b, lo d = some a ∧ hi d = some b ∧ a ≤ x d ∧ x d < b

/-- Closed box. -/
def InBoxC (lo hi : V3 Num) (x : V3 Rat) : Prop :=
  ∀ d, ∃ a b, lo d = some a ∧ hi d = some b ∧ a ≤ x d ∧ x d ≤ b

/-- Inside of the box, not on its sides. -/
def InBoxO (lo hi : V3 Num) (x : V3 Rat) : Prop :=
  ∀ d, ∃ a b, lo d = some a ∧ hi d = some b ∧ a < x d ∧ x d < b

/-- Box without its first sides. -/
def InBoxL (lo hi : V3 Num) (x : V3 Rat) : Prop :=
  ∀ d, ∃ a b, lo d = some a ∧ hi d = some b ∧ a < x d ∧ x d ≤ b

theorem InBoxO.half {lo hi : V3 Num} {x : V3 Rat} (h : InBoxO lo hi x) : InBoxQ lo hi x := fun d => by
  obtain ⟨a, b, h1, h2, h3, h4⟩ := h d
  exact ⟨a, b, h1, h2, by grind, h4⟩

/-- Corners of cells are at positions `pos`. -/
structure Mesh (g : Cfg) (pos : Fin 3 → Nat → Rat) (lo hi : Nat → V3 Num) : Prop where
  inc : ∀ d, Increasing (pos d) (g.n d)
  lo : ∀ c, g.Valid c → ∀ d, lo c d = some (pos d (g.idx c d))
  hi : ∀ c, g.Valid c → ∀ d, hi c d = some (pos d (g.idx c d + g.side c))

section
variable {g : Cfg} {pos : Fin 3 → Nat → Rat} {lo hi : Nat → V3 Num}

theorem end_le (hw : g.WF) {c : Nat} (h : g.Valid c) (d : Fin 3) : g.idx c d + g.side c ≤ g.n d := by
  have hs := side_pos (g := g) c
  have hm : g.Mem (fun d => g.idx c d + g.side c - 1) c := by
    intro d
    show g.idx c d ≤ g.idx c d + g.side c - 1 ∧ g.idx c d + g.side c - 1 < g.idx c d + g.side c
    omega
  have : g.idx c d + g.side c - 1 < g.n d := mem_inGrid hw h hm d
  omega

/-- Point `x` is at index triple `p`. -/
def AtIdx (pos : Fin 3 → Nat → Rat) (x : V3 Rat) (p : V3 Nat) : Prop :=
  ∀ d, pos d (p d) ≤ x d ∧ x d < pos d (p d + 1)

theorem Mesh.mem_iff (hM : Mesh g pos lo hi) (hw : g.WF) {x : V3 Rat} {p : V3 Nat} (hp : g.InGrid p)
    (hx : AtIdx pos x p) {c : Nat} (hc : g.Valid c) : InBoxQ (lo c) (hi c) x ↔ g.Mem p c := by
  have hd : ∀ d, (∃ a b, lo c d = some a ∧ hi c d = some b ∧ a ≤ x d ∧ x d < b) ↔
      g.idx c d ≤ p d ∧ p d < g.idx c d + g.side c := by
    intro d
    rw [← (hM.inc d).between (hp d) (hx d).1 (hx d).2 (by have := end_le hw hc d; omega) (end_le hw hc d)]
    rw [hM.lo c hc d, hM.hi c hc d]
    constructor
    · rintro ⟨a, b, e1, e2, e3⟩
      injection e1 with e1; injection e2 with e2
      subst e1; subst e2; exact e3
    · intro e; exact ⟨_, _, rfl, rfl, e⟩
  exact forall_congr' hd

theorem Mesh.mem_iffL (hM : Mesh g pos lo hi) (hw : g.WF) {x : V3 Rat} {p : V3 Nat} (hp : g.InGrid p)
    (hx : ∀ d, pos d (p d) < x d ∧ x d ≤ pos d (p d + 1)) {c : Nat} (hc : g.Valid c) :
    InBoxL (lo c) (hi c) x ↔ g.Mem p c := by
  have hd : ∀ d, (∃ a b, lo c d = some a ∧ hi c d = some b ∧ a < x d ∧ x d ≤ b) ↔
      g.idx c d ≤ p d ∧ p d < g.idx c d + g.side c := by
    intro d
    rw [← (hM.inc d).betweenL (hp d) (hx d).1 (hx d).2 (by have := end_le hw hc d; omega) (end_le hw hc d)]
    rw [hM.lo c hc d, hM.hi c hc d]
    constructor
    · rintro ⟨a, b, e1, e2, e3⟩
      injection e1 with e1; injection e2 with e2
      subst e1; subst e2; exact e3
    · intro e; exact ⟨_, _, rfl, rfl, e⟩
  exact forall_congr' hd

/-- Every point of the grid is at some index triple. -/
theorem Mesh.locate (x : V3 Rat) (hx : ∀ d, pos d 0 ≤ x d ∧ x d < pos d (g.n d)) :
    ∃ p, g.InGrid p ∧ AtIdx pos x p := by
  have h := fun d => Increasing.locate (pos := pos d) (N := g.n d) (x d) (hx d).1 (hx d).2
  exact ⟨fun d => Classical.choose (h d), fun d => (Classical.choose_spec (h d)).1,
    fun d => (Classical.choose_spec (h d)).2⟩

theorem Mesh.inside (hM : Mesh g pos lo hi) (hw : g.WF) {x : V3 Rat} {c : Nat} (hc : g.Valid c)
    (h : InBoxQ (lo c) (hi c) x) (d : Fin 3) : pos d 0 ≤ x d ∧ x d < pos d (g.n d) := by
  obtain ⟨a, b, h1, h2, h3, h4⟩ := h d
  rw [hM.lo c hc d] at h1
  rw [hM.hi c hc d] at h2
  injection h1 with h1; injection h2 with h2
  subst h1; subst h2
  have e1 := (hM.inc d).le (Nat.zero_le (g.idx c d)) (by have := end_le hw hc d; omega)
  have e2 := (hM.inc d).le (end_le hw hc d) (Nat.le_refl _)
  constructor <;> grind

theorem Mesh.tiled (hM : Mesh g pos lo hi) (hw : g.WF) {E : Nat → Bool} (ht : Tiled g E) (x : V3 Rat)
    (hx : ∀ d, pos d 0 ≤ x d ∧ x d < pos d (g.n d)) :
    ∃ c, E c = true ∧ InBoxQ (lo c) (hi c) x ∧ ∀ b, E b = true → InBoxQ (lo b) (hi b) x → b = c := by
  obtain ⟨p, hp, ha⟩ := Mesh.locate x hx
  obtain ⟨c, hc, hpc⟩ := ht.cover p hp
  refine ⟨c, hc, (hM.mem_iff hw hp ha (ht.valid c hc)).2 hpc, fun b hb hxb => ?_⟩
  exact ht.unique p b c hb hc ((hM.mem_iff hw hp ha (ht.valid b hb)).1 hxb) hpc

/-- Existing cells' boxes with their sides cover the grid with its sides. -/
theorem Mesh.covered (hM : Mesh g pos lo hi) (hw : g.WF) {E : Nat → Bool} (ht : Tiled g E) (x : V3 Rat)
    (hx : ∀ d, pos d 0 ≤ x d ∧ x d ≤ pos d (g.n d)) : ∃ c, E c = true ∧ InBoxC (lo c) (hi c) x := by
  have hn : ∀ d, 0 < g.n d := fun d => Nat.mul_pos (hw d) (Nat.pow_pos (by omega))
  -- a point of the same smallest cell that is not at the end
  have hy : ∀ d, ∃ y p, p < g.n d ∧ pos d p ≤ y ∧ y < pos d (p + 1) ∧ pos d p ≤ x d ∧ x d ≤ pos d (p + 1) := by
    intro d
    by_cases e : x d < pos d (g.n d)
    · obtain ⟨p, h1, h2, h3⟩ := Increasing.locate (pos := pos d) (N := g.n d) (x d) (hx d).1 e
      exact ⟨x d, p, h1, h2, h3, h2, by grind⟩
    · have e1 : x d = pos d (g.n d) := by have := (hx d).2; grind
      have h1 := hn d
      have h2 := hM.inc d (g.n d - 1) (g.n d) (by omega) (Nat.le_refl _)
      refine ⟨pos d (g.n d - 1), g.n d - 1, by omega, by grind, ?_, by grind, ?_⟩
      · rw [show g.n d - 1 + 1 = g.n d by omega]; exact h2
      · rw [show g.n d - 1 + 1 = g.n d by omega, e1]; grind
  let p : V3 Nat := fun d => Classical.choose (Classical.choose_spec (hy d))
  have hp := fun d => Classical.choose_spec (Classical.choose_spec (hy d))
  have hpg : g.InGrid p := fun d => (hp d).1
  obtain ⟨c, hc, hpc⟩ := ht.cover p hpg
  have hv := ht.valid c hc
  refine ⟨c, hc, fun d => ⟨_, _, hM.lo c hv d, hM.hi c hv d, ?_, ?_⟩⟩
  · have := (hM.inc d).le (hpc d).1 (Nat.le_of_lt (hpg d))
    have := (hp d).2.2.2.1
    show pos d (g.idx c d) ≤ x d
    grind
  · have := (hM.inc d).le (a := p d + 1) (b := g.idx c d + g.side c) (by have := (hpc d).2; omega) (end_le hw hv d)
    have := (hp d).2.2.2.2
    show x d ≤ pos d (g.idx c d + g.side c)
    grind

/-- Children's boxes partition the box of their parent. -/
theorem Mesh.children (hM : Mesh g pos lo hi) (hw : g.WF) {c : Nat} (hc : g.Valid c) (hl : g.lvl c < g.maxLvl)
    (x : V3 Rat) :
    (InBoxQ (lo c) (hi c) x ↔ ∃ k ∈ g.children c, InBoxQ (lo k) (hi k) x) ∧
    ∀ k ∈ g.children c, ∀ k' ∈ g.children c, InBoxQ (lo k) (hi k) x → InBoxQ (lo k') (hi k') x → k = k' := by
  have hkv : ∀ k ∈ g.children c, g.Valid k := fun k hk => ((children_spec hw hc hl).1 hk).1
  by_cases hx : ∀ d, pos d 0 ≤ x d ∧ x d < pos d (g.n d)
  · obtain ⟨p, hp, ha⟩ := Mesh.locate x hx
    rw [hM.mem_iff hw hp ha hc]
    constructor
    · constructor
      · intro h
        obtain ⟨k, h1, h2⟩ := exists_child_mem hw hc hl h
        exact ⟨k, h1, (hM.mem_iff hw hp ha (hkv k h1)).2 h2⟩
      · rintro ⟨k, h1, h2⟩
        exact mem_of_mem_children hw hc hl h1 ((hM.mem_iff hw hp ha (hkv k h1)).1 h2)
    · intro k hk k' hk' h1 h2
      have h1' := (hM.mem_iff hw hp ha (hkv k hk)).1 h1
      have h2' := (hM.mem_iff hw hp ha (hkv k' hk')).1 h2
      exact eq_of_mem_lvl hw (hkv k hk) (hkv k' hk') (by
        rw [((children_spec hw hc hl).1 hk).2.1, ((children_spec hw hc hl).1 hk').2.1]) h1' h2'
  · have hn : ∀ k, g.Valid k → ¬ InBoxQ (lo k) (hi k) x := fun k hk h => hx (hM.inside hw hk h)
    constructor
    · constructor
      · intro h; exact absurd h (hn c hc)
      · rintro ⟨k, h1, h2⟩; exact absurd h2 (hn k (hkv k h1))
    · intro k hk k' hk' h1; exact absurd h1 (hn k (hkv k hk))
end
end Dccrg
