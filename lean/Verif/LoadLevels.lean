import Verif.LoadCells
import Verif.Props.Refine
/-!
# Refining level by level

What each iteration of `load_cells` makes of the grid.
-/
namespace Dccrg
open Cfg
variable {n : Nat} {D W : Type} {g : Cfg} {dflt : D} {maxTag : Nat} {X : Nat → Bool}

/-- There are smaller cells of `X` in cell `c`. -/
def Split (g : Cfg) (X : Nat → Bool) (c : Nat) : Prop := ∃ x, X x = true ∧ g.lvl c < g.lvl x ∧ g.Mem (g.idx x) c

/-- Cells `X` with cells smaller than level `l` replaced by the ones of level `l` that contain them. -/
def Cut (g : Cfg) (X : Nat → Bool) (l c : Nat) : Prop :=
  g.Valid c ∧ ((X c = true ∧ g.lvl c ≤ l) ∨ (g.lvl c = l ∧ Split g X c))

theorem Split.lvl_lt (hw : g.WF) (hX : Tiled g X) {c : Nat} (hc : g.Valid c) (h : Split g X c) {y : Nat} {p : V3 Nat}
    (hy : X y = true) (h1 : g.Mem p c) (h2 : g.Mem p y) : g.lvl c < g.lvl y := by
  obtain ⟨x, e1, e2, e3⟩ := h
  apply Nat.lt_of_not_le
  intro hl
  have := nested hw (hX.valid y hy) hc hl h2 h1 e3
  have := hX.unique _ _ _ e1 hy (mem_idx x) this
  subst this
  omega

theorem split_not (hw : g.WF) (hX : Tiled g X) {c : Nat} (hc : X c = true) : ¬ Split g X c := fun h => by
  have := h.lvl_lt hw hX (hX.valid c hc) hc (mem_idx c) (mem_idx c)
  omega

/-- A cell of which `X` has a cell at least as small at its first corner is in `X` or split. -/
theorem or_split (hw : g.WF) (hX : Tiled g X) {c y : Nat} (hc : g.Valid c) (hy : X y = true) (hl : g.lvl c ≤ g.lvl y)
    {p : V3 Nat} (h1 : g.Mem p c) (h2 : g.Mem p y) : X c = true ∨ Split g X c := by
  by_cases e : g.lvl c = g.lvl y
  · left
    rw [eq_of_mem_lvl hw hc (hX.valid y hy) e h1 h2]; exact hy
  · right
    exact ⟨y, hy, by omega, nested hw hc (hX.valid y hy) hl h1 h2 (mem_idx y)⟩

theorem Split.lt_max (hX : Tiled g X) {c : Nat} (h : Split g X c) : g.lvl c < g.maxLvl := by
  obtain ⟨x, e1, e2, -⟩ := h
  have := lvl_le (hX.valid x e1)
  omega

/-- State of the grid before level `l` is refined, `d0` is data of level 0 cells. -/
structure AtLevel (g : Cfg) (dflt : D) (maxTag : Nat) (X : Nat → Bool) (w0 : Owner n) (d0 : Fin n → Nat → Option D)
    (l : Nat) (s : Sys n D W) : Prop where
  history : ∃ k, History g dflt maxTag k s ∧ k.Only fun _ => False
  cells : ∀ j c, exist (s j).owner c = true ↔ Cut g X l c
  owner : ∀ j c, exist (s j).owner c = true → (s j).owner c = w0 (g.root c)
  hoods : ∃ H, ∀ j, (s j).hoods = H
  data : ∀ j c, (s j).owner c = some j → (s j).data c = if g.lvl c = 0 then d0 j c else some dflt

theorem AtLevel.next (hw : g.WF) (hn : 0 < n) (hm : g.last ≤ maxTag) (hX : Tiled g X)
    (hb : BalancedFor g X (hoodOf g)) {w0 : Owner n} {d0 : Fin n → Nat → Option D} {l : Nat}
    {s : Sys n D W} (h : AtLevel g dflt maxTag X w0 d0 l s) {par : Fin n → List Nat}
    (hp : ∀ i c, c ∈ par i ↔ g.Valid c ∧ g.lvl c = l ∧ Split g X c ∧ w0 (g.root c) = some i) :
    ∃ s', run g dflt maxTag s (loadLevel par) = .ok s' ∧ AtLevel g dflt maxTag X w0 d0 (l + 1) s' := by
  obtain ⟨⟨k, hk, hko⟩, hc, ho, hH, hd⟩ := h
  obtain ⟨w, hi, -⟩ := hk.stored hw hn
  have how := hi.sys.owner
  have hcw : ∀ c, exist w c = true ↔ Cut g X l c := fun c => by rw [← how ⟨0, hn⟩]; exact hc _ c
  have hown : ∀ c, exist w c = true → w c = w0 (g.root c) := fun c => by rw [← how ⟨0, hn⟩]; exact ho _ c
  let L : List (Fin n × Nat) := (List.finRange n).flatMap fun i => (par i).map fun c => (i, c)
  have hL : ∀ i c, (i, c) ∈ L ↔ c ∈ par i := by
    intro i c
    simp only [L, List.mem_flatMap, List.mem_map, List.mem_finRange, true_and]
    constructor
    · rintro ⟨j, x, h1, h2⟩; injection h2 with h2 h3; subst h2 h3; exact h1
    · intro h; exact ⟨i, c, h, rfl⟩
  have hrun : (List.finRange n).flatMap (fun i => (par i).map (Op.refine (D := D) (W := W) i)) =
      L.map fun x => Op.refine x.1 x.2 := by
    simp only [L, List.map_flatMap, List.map_map]
    rfl
  obtain ⟨s1, k1, a1, a2, a3, a4⟩ := run_refine hw hk hko how L (by
    rintro ⟨i, c⟩ hx
    obtain ⟨b1, b2, b3, b4⟩ := (hp i c).1 ((hL i c).1 hx)
    exact ⟨by rw [hown c ((hcw c).2 ⟨b1, Or.inr ⟨b2, b3⟩⟩)]; exact b4, b3.lt_max hX⟩)
  have hreq : ∀ c, k1.refine c ↔ g.Valid c ∧ g.lvl c = l ∧ Split g X c := by
    intro c
    rw [a3.1]
    constructor
    · rintro (h | ⟨i, h⟩)
      · cases h
      · obtain ⟨b1, b2, b3, -⟩ := (hp i c).1 ((hL i c).1 h); exact ⟨b1, b2, b3⟩
    · rintro ⟨b1, b2, b3⟩
      have e := (hcw c).2 ⟨b1, Or.inr ⟨b2, b3⟩⟩
      have e2 := hown c e
      obtain ⟨i, hi⟩ := Option.isSome_iff_exists.1 e
      exact Or.inr ⟨i, (hL i c).2 ((hp i c).2 ⟨b1, b2, b3, by rw [← e2]; exact hi⟩)⟩
  obtain ⟨w1, hi1, hst1⟩ := a2.stored hw hn
  have e : w1 = w := by rw [← hi1.sys.owner ⟨0, hn⟩, (a4 _).1]
  subst e
  obtain ⟨s2, a5⟩ := step_ok hw hn dflt hi1 hm (.stop false) trivial trivial
  obtain ⟨res, a6, a7⟩ := Out.bind_inv (show (stopRefining g dflt maxTag false s1).bind _ = .ok s2 from a5)
  injection a7 with a7
  obtain ⟨w2, hi2, hst2, h3, h4, h5⟩ := a2.stopped hw a6 ⟨0, hn⟩
  have e : w2 = w1 := by rw [← hi2.sys.owner ⟨0, hn⟩, (a4 _).1]
  subst e
  -- refined cells
  have hR : ∀ c, Refines g w2 s1 c ↔ g.Valid c ∧ g.lvl c = l ∧ Split g X c := by
    intro c
    rw [hst2.refines_iff hw hi2.sys.tiled hi2.req]
    constructor
    · intro hf
      induction hf with
      | base h1 h2 h3 => exact (hreq _).1 h1
      | @step b c o hf h1 h2 h3 h4 ih =>
        exfalso
        obtain ⟨f1, f2, f3⟩ := ih
        obtain ⟨g1, g2⟩ := (hcw b).1 h1
        have g3 : X b = true := by
          rcases g2 with ⟨g2, -⟩ | ⟨g2, -⟩
          · exact g2
          · omega
        obtain ⟨q, q1, q2, q3⟩ := h3
        obtain ⟨y, y1, y2⟩ := hX.cover _ (mem_inGrid hw f1 q3)
        have := f3.lvl_lt hw hX f1 y1 q3 y2
        have := (hb b y g3 y1 o h2 ⟨q, q1, q2, y2⟩).2
        omega
    · intro hc
      exact .base ((hreq c).2 hc) (hc.2.2.lt_max hX) (Veto.none a3.2.2.1)
  have hU : ∀ u, ¬ Unrefines g w2 s1 u := by
    rintro u ⟨⟨j, hj⟩, -⟩
    exact a3.2.1 _ (hst2.unrefine' j u hj)
  have hF : ∀ x, ¬ Fam g (Unrefines g w2 s1) x := by rintro x ⟨u, hu, -⟩; exact hU u hu
  have hafter : ∀ x, After g (exist w2) (Refines g w2 s1) (Unrefines g w2 s1) x ↔ Cut g X (l + 1) x := by
    intro x
    constructor
    · rintro (⟨b1, b2, -⟩ | ⟨r, b1, b2⟩ | ⟨u, b1, -⟩)
      · obtain ⟨c1, c2⟩ := (hcw x).1 b1
        rcases c2 with ⟨c2, c3⟩ | ⟨c2, c3⟩
        · exact ⟨c1, Or.inl ⟨c2, by omega⟩⟩
        · exact absurd ((hR x).2 ⟨c1, c2, c3⟩) b2
      · obtain ⟨c1, c2, c3⟩ := (hR r).1 b1
        obtain ⟨d1, d2, d3⟩ := (children_spec hw c1 (c3.lt_max hX)).1 b2
        obtain ⟨y, y1, y2⟩ := hX.cover _ (idx_inGrid hw d1)
        have := c3.lvl_lt hw hX c1 y1 (mem_of_mem_children hw c1 (c3.lt_max hX) b2 (mem_idx x)) y2
        refine ⟨d1, ?_⟩
        rcases or_split hw hX d1 y1 (by omega) (mem_idx x) y2 with h | h
        · exact Or.inl ⟨h, by omega⟩
        · exact Or.inr ⟨by omega, h⟩
      · exact absurd b1 (hU u)
    · rintro ⟨b1, b2⟩
      by_cases hl : g.lvl x = l + 1
      · right; left
        have hpv := parent_valid hw b1
        have hlp := lvl_parent hw b1
        have hs : Split g X (g.parent x) := by
          rcases b2 with ⟨b2, -⟩ | ⟨-, y, y1, y2, y3⟩
          · exact ⟨x, b2, by omega, mem_parent hw b1 (mem_idx x)⟩
          · exact ⟨y, y1, by omega, mem_parent hw b1 y3⟩
        exact ⟨g.parent x, (hR _).2 ⟨hpv, by omega, hs⟩, mem_children_parent hw b1 (by omega)⟩
      · left
        rcases b2 with ⟨b2, b3⟩ | ⟨b2, -⟩
        · exact ⟨(hcw x).2 ⟨b1, Or.inl ⟨b2, by omega⟩⟩, fun h => split_not hw hX b2 ((hR x).1 h).2.2, hF x⟩
        · omega
  have hs2 : ∀ j, (s2 j).owner = newOwner g w2 (Refines g w2 s1) (Unrefines g w2 s1) := fun j => by
    rw [← a7]; exact (h3.exec j).owner
  have hk2 := History.stop false a2 a5
  obtain ⟨s3, k3, a8, a9, a10, a11, a12⟩ := run_clear hk2 (R := fun _ => False)
    ⟨fun _ => Iff.rfl, fun _ h => h, fun c h => by obtain ⟨i, hv⟩ := h; exact Veto.none a3.2.2.1 hv, fun _ h => h⟩ hs2
    (List.finRange n)
  refine ⟨s3, ?_, ⟨k3, a9, a10⟩, ?_, ?_, ?_, ?_⟩
  · unfold loadLevel
    rw [hrun, run_append, a1]
    show run g dflt maxTag s1 (_ :: _) = _
    rw [run, a5]
    exact a8
  · intro j c
    rw [a11, h5, hafter]
  · intro j c hc
    rw [a11] at hc ⊢
    rw [h5] at hc
    rcases hc with ⟨b1, b2, b3⟩ | ⟨r, b1, b2⟩ | ⟨u, b1, -⟩
    · rw [newOwner_same hw hi2.sys.tiled h3.plan b1 b2 b3, hown c b1]
    · have hr := (hR r).1 b1
      have d := (children_spec hw hr.1 (hr.2.2.lt_max hX)).1 b2
      rw [newOwner_new hw hi2.sys.tiled h3.plan ⟨r, b1, b2⟩, d.2.2, hown r ((h3.plan.refE r b1).1),
        root_eq hw hr.1 d.1 (by omega) (mem_of_mem_children hw hr.1 (hr.2.2.lt_max hX) b2 (mem_idx c))]
    · exact absurd b1 (hU u)
  · obtain ⟨w3, hi3, -⟩ := a9.stored hw hn
    exact ⟨_, fun j => hi3.hoods j ⟨0, hn⟩⟩
  · intro j c hc
    rw [a11] at hc
    rw [(a12 j).1, ← a7]
    have hx := h3.exec j
    have he : exist (newOwner g w2 (Refines g w2 s1) (Unrefines g w2 s1)) c = true := exist_of hc
    rw [h5] at he
    rcases he with ⟨b1, b2, b3⟩ | ⟨r, b1, b2⟩ | ⟨u, b1, -⟩
    · rw [hx.dataSame c b1 b2 b3, (a4 j).2]
      rw [newOwner_same hw hi2.sys.tiled h3.plan b1 b2 b3] at hc
      exact hd j c (by rw [how]; exact hc)
    · have hr := (hR r).1 b1
      have d := (children_spec hw hr.1 (hr.2.2.lt_max hX)).1 b2
      rw [hx.dataNew c ⟨r, b1, b2⟩ hc, if_neg (by omega)]
    · exact absurd b1 (hU u)

end Dccrg
