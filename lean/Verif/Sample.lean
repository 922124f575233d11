import Verif.NbrIs
/-!
# Checkers for concrete grids and a sample grid

Used only in examples: shows that hypotheses of theorems are met by a non-trivial grid.
-/
namespace Dccrg
open Cfg

/-- All index triples of the grid. -/
def points (g : Cfg) : List (V3 Nat) :=
  (List.range (g.n 2)).flatMap fun z => (List.range (g.n 1)).flatMap fun y =>
    (List.range (g.n 0)).map fun x => v3 x y z

theorem mem_points {g : Cfg} {p : V3 Nat} : p ∈ points g ↔ g.InGrid p := by
  unfold points
  simp only [List.mem_flatMap, List.mem_map, List.mem_range]
  constructor
  · rintro ⟨z, hz, y, hy, x, hx, rfl⟩
    exact forall_fin3.2 ⟨hx, hy, hz⟩
  · intro h
    exact ⟨p 2, h 2, p 1, h 1, p 0, h 0, v3_ext rfl rfl rfl⟩

/-- Given cells tile the grid. -/
def tiledB (g : Cfg) (L : List Nat) : Bool :=
  L.all (fun c => decide (g.Valid c)) &&
  (points g).all fun p => (L.filter fun c => decide (g.Mem p c)).length == 1

theorem tiled_of {g : Cfg} (hw : g.WF) {L : List Nat} (h : tiledB g L = true) :
    Tiled g (fun c => decide (c ∈ L)) := by
  unfold tiledB at h
  rw [Bool.and_eq_true, List.all_eq_true, List.all_eq_true] at h
  obtain ⟨h1, h2⟩ := h
  have hv : ∀ c, c ∈ L → g.Valid c := fun c hc => of_decide_eq_true (h1 c hc)
  have key : ∀ p, g.InGrid p → ∃ c, (L.filter fun c => decide (g.Mem p c)) = [c] := by
    intro p hp
    have := h2 p (mem_points.2 hp)
    rw [beq_iff_eq] at this
    match hL : L.filter fun c => decide (g.Mem p c), this with
    | [c], _ => exact ⟨c, rfl⟩
  refine ⟨fun c hc => hv c (of_decide_eq_true hc), fun p hp => ?_, fun p a b ha hb ma mb => ?_⟩
  · obtain ⟨c, hc⟩ := key p hp
    have : c ∈ L.filter fun c => decide (g.Mem p c) := by rw [hc]; simp
    rw [List.mem_filter] at this
    exact ⟨c, by simpa using this.1, by simpa using this.2⟩
  · obtain ⟨c, hc⟩ := key p (mem_inGrid hw (hv a (of_decide_eq_true ha)) ma)
    have h3 : a ∈ L.filter fun c => decide (g.Mem p c) := by
      rw [List.mem_filter]; exact ⟨of_decide_eq_true ha, by simpa using ma⟩
    have h4 : b ∈ L.filter fun c => decide (g.Mem p c) := by
      rw [List.mem_filter]; exact ⟨of_decide_eq_true hb, by simpa using mb⟩
    rw [hc] at h3 h4
    simp at h3 h4
    rw [h3, h4]

/-- `Meets` by enumeration. -/
def meetsB (g : Cfg) (a : Nat) (o : V3 Int) (b : Nat) : Bool :=
  (List.finRange 3).all fun d => (List.range (g.side a)).any fun i =>
    let x : Int := corner g a o d + i
    (g.periodic d || (decide (0 ≤ x) && decide (x < g.n d))) &&
    decide ((g.idx b d : Int) ≤ x % g.n d) && decide (x % g.n d < g.idx b d + g.side b)

theorem meetsB_iff {g : Cfg} (hw : g.WF) {a b : Nat} {o : V3 Int} :
    meetsB g a o b = true ↔ Meets g a o b := by
  rw [meets_dims hw]
  unfold meetsB
  simp only [List.all_eq_true, List.mem_finRange, true_implies, List.any_eq_true, List.mem_range,
    Bool.and_eq_true, Bool.or_eq_true, decide_eq_true_eq]
  constructor
  · intro h d
    obtain ⟨i, hi, h1⟩ := h d
    exact ⟨_, by omega, by omega, h1.1.1, h1.1.2, h1.2⟩
  · intro h d
    obtain ⟨x, h1, h2, h3, h4, h5⟩ := h d
    refine ⟨(x - corner g a o d).toNat, by omega, ?_⟩
    rw [show corner g a o d + ((x - corner g a o d).toNat : Nat) = x by omega]
    exact ⟨⟨h3, h4⟩, h5⟩

/-- `BalancedFor` by enumeration. -/
def balancedB (g : Cfg) (L : List Nat) (H : List (V3 Int)) : Bool :=
  L.all fun a => L.all fun b =>
    (decide (g.lvl a ≤ g.lvl b + 1) && decide (g.lvl b ≤ g.lvl a + 1)) ||
      H.all fun o => !meetsB g a o b

theorem balanced_of {g : Cfg} (hw : g.WF) {L : List Nat} {H : List (V3 Int)}
    (h : balancedB g L H = true) : BalancedFor g (fun c => decide (c ∈ L)) H := by
  intro a b ha hb o ho hm
  unfold balancedB at h
  simp only [List.all_eq_true, Bool.or_eq_true, Bool.and_eq_true, decide_eq_true_eq] at h
  rcases h a (of_decide_eq_true ha) b (of_decide_eq_true hb) with h' | h'
  · exact h'
  · have := h' o ho
    rw [(meetsB_iff hw).2 hm] at this
    cases this

/-- 3 x 1 x 1 level 0 cells, maximum refinement level 2, periodic in y, neighborhood length 1. -/
def sampleG : Cfg := { len := v3 3 1 1, maxLvl := 2, periodic := v3 false true false, hood := 1 }

/-- The first two cells are refined and so is the first child of the first (cell 4): eight cells of
level 2, fifteen of level 1 and one of level 0. -/
def sampleL : List Nat :=
  [28, 29, 40, 41, 76, 77, 88, 89, 5, 10, 11, 16, 17, 22, 23, 6, 7, 12, 13, 18, 19, 24, 25, 3]

/-- Existing cells of the sample grid. -/
def sampleE : Nat → Bool := fun c => decide (c ∈ sampleL)

theorem sampleG_wf : sampleG.WF := by unfold Cfg.WF; rw [forall_fin3]; decide

theorem sample_tiled : Tiled sampleG sampleE := tiled_of sampleG_wf (by decide +kernel)

theorem sample_balanced : BalancedFor sampleG sampleE (hoodOf sampleG) :=
  balanced_of sampleG_wf (by decide +kernel)

theorem BalancedFor.mono {g : Cfg} {E : Nat → Bool} {H K : List (V3 Int)} (h : BalancedFor g E H)
    (hs : ∀ o ∈ K, o ∈ H) : BalancedFor g E K := fun a b ha hb o ho => h a b ha hb o (hs o ho)

theorem BalancedFor.faces {g : Cfg} {E : Nat → Bool} (h : BalancedFor g E (hoodOf g)) :
    BalancedFor g E faces := h.mono fun _ => faces_sub_hoodOf

end Dccrg
