import Verif.Demo
import Verif.Sample
/-!
# C10, C13, C14, C25, C26: the distributed grid

`Reachable g dflt maxTag s`: state `s` of all processes is the result of `initialize` followed by any
operations (`Op`): requests for refinement, `stop_refining`, pins, weights, load balancing with any result
of the partitioner that satisfies `MovesOk`, updates of remote neighbors, writing of cell data, adding and
removing neighborhoods. `exist (s i).owner c` says that cell `c` exists according to process `i`.
-/
namespace Dccrg
open Cfg
variable {n : Nat} {D W : Type} {g : Cfg} {s : Sys n D W} {dflt : D} {maxTag : Nat}

/-- Specification of C10: `first p` is the first cell of process `p`, cell `first n` is past the last
cell. -/
structure EvenShares (n t : Nat) (w : Owner n) (first : Nat → Nat) : Prop where
  start : first 0 = 1
  stop : first n = t + 1
  owner : ∀ c (p : Fin n), w c = some p ↔ first p ≤ c ∧ c < first (p.1 + 1)
  even : ∀ p q, p < n → q < n → first (p + 1) - first p ≤ first (q + 1) - first q + 1
  mono : ∀ p, p < n → first p ≤ first (p + 1)

/-- C10: initial distribution of cells. -/
theorem C10_initial_distribution (hw : g.WF) (h : createGrid g n dflt maxTag = .ok s) :
    ∃ first, ∀ i : Fin n, EvenShares n (g.len 0 * g.len 1 * g.len 2) (s i).owner first ∧
      (∀ c, exist (s i).owner c = true ↔ 1 ≤ c ∧ c ≤ g.len 0 * g.len 1 * g.len 2) ∧
      (∀ c, (s i).data c = if (s i).owner c = some i then some dflt else none) := by
  refine ⟨firstOf n g.total, fun i => ?_⟩
  have hn : 0 < n := by have := i.2; omega
  have hM : maxTag ≤ max maxTag g.last := Nat.le_max_left _ _
  have hM' : g.last ≤ max maxTag g.last := Nat.le_max_right _ _
  obtain ⟨s', h1, h2, h3⟩ := createGrid_spec (W := W) hw hn dflt
    (fitsTags_mono hM' (fitsTags_last (createLevel0_tiled hw hn).valid))
  rw [createGrid_mono hM h] at h1
  injection h1 with h1
  subst h1
  rw [h2.owner i]
  refine ⟨⟨by unfold firstOf; omega, by rw [firstOf_last hn]; unfold total; omega, fun c p => createLevel0_owner hn, ?_, ?_⟩,
    fun c => createLevel0_exist hn, fun c => (h3 i).2.2.1 c⟩
  · intro p q _ _
    rw [firstOf_succ hn, firstOf_succ hn]
    have : ∀ p, perProcess n g.total ≤ toCreate n g.total p + 1 ∧ toCreate n g.total p ≤ perProcess n g.total := by
      intro p; unfold toCreate; split <;> omega
    have h1 := this p
    have h2 := this q
    omega
  · intro p _
    rw [firstOf_succ hn]; omega

example : ∃ s : Sys 2 Nat Nat, createGrid tinyG 2 0 146 = .ok s := by
  obtain ⟨s, h, -⟩ := tiny_init
  exact ⟨s, h⟩

/-- C13: every index of the grid is in exactly one existing cell. -/
theorem C13_tiling (hw : g.WF) (hs : Reachable g dflt maxTag s) (i : Fin n) :
    (∀ c, exist (s i).owner c = true → g.Valid c) ∧
    ∀ p, g.InGrid p → ∃ c, exist (s i).owner c = true ∧ g.Mem p c ∧
      ∀ b, exist (s i).owner b = true → g.Mem p b → b = c := by
  obtain ⟨w, h⟩ := hs.inv hw (by have := i.2; omega)
  rw [h.sys.owner i]
  refine ⟨h.sys.tiled.valid, fun p hp => ?_⟩
  obtain ⟨c, h1, h2⟩ := h.sys.tiled.cover p hp
  exact ⟨c, h1, h2, fun b h3 h4 => h.sys.tiled.unique p b c h3 h1 h4 h2⟩

/-- A reachable state in which the first cell has been refined. -/
example : ∃ s : Sys 2 Nat Nat, tinyG.WF ∧ Reachable tinyG 0 146 s ∧
    ∀ i, exist (s i).owner 2 = true ∧ exist (s i).owner 1 = false ∧
      ∀ c ∈ [3, 4, 7, 8, 11, 12, 15, 16], exist (s i).owner c = true := by
  obtain ⟨s, res, -, -, -, h1, h2⟩ := tiny_refined
  refine ⟨_, tiny_wf, h1, fun i => ⟨exist_of (h2 i).2.2.1, ?_, fun c hc => exist_of ((h2 i).1 c ?_)⟩⟩
  · unfold exist; rw [(h2 i).2.1]; rfl
  · revert c; decide

/-- C14: a cell that overlaps a block of the neighborhood of another cell differs from it by at most
one refinement level. -/
theorem C14_level_difference (hw : g.WF) (hs : Reachable g dflt maxTag s) (i : Fin n) {a b : Nat}
    (ha : exist (s i).owner a = true) (hb : exist (s i).owner b = true) {o : V3 Int} (ho : o ∈ hoodOf g)
    (h : Meets g a o b) : g.lvl a ≤ g.lvl b + 1 ∧ g.lvl b ≤ g.lvl a + 1 := by
  obtain ⟨w, hi⟩ := hs.inv hw (by have := i.2; omega)
  rw [hi.sys.owner i] at ha hb
  exact (balanced_iff hw hi.sys.tiled).1 hi.sys.balanced a b ha hb o ho h

/-- Cells of different size that are neighbors. -/
example : ∃ s : Sys 2 Nat Nat, Reachable tinyG 0 146 s ∧ exist (s 0).owner 2 = true ∧
    exist (s 0).owner 4 = true ∧ v3 (-1) 0 0 ∈ hoodOf tinyG ∧ Meets tinyG 2 (v3 (-1) 0 0) 4 ∧
    tinyG.lvl 2 < tinyG.lvl 4 := by
  obtain ⟨s, res, -, -, -, h1, h2⟩ := tiny_refined
  refine ⟨_, h1, exist_of (h2 0).2.2.1, exist_of ((h2 0).1 4 (by decide)), by decide, ?_, by decide⟩
  refine ⟨v3 3 0 0, by decide +kernel, ?_, ?_⟩
  · show ∀ d, _
    rw [forall_fin3]; decide +kernel
  · show ∀ d, _
    rw [forall_fin3]; decide +kernel

/-- C25: processes agree about existing cells and their owners. -/
theorem C25_processes_agree (hw : g.WF) (hs : Reachable g dflt maxTag s) (i j : Fin n) :
    (s i).owner = (s j).owner := by
  obtain ⟨w, h⟩ := hs.inv hw (by have := i.2; omega)
  rw [h.sys.owner i, h.sys.owner j]

/-- C26: data of a cell is on its owner and nowhere else. -/
theorem C26_data_on_owner (hw : g.WF) (hs : Reachable g dflt maxTag s) (i j : Fin n) (c : Nat) :
    ((s i).data c).isSome = true ↔ (s j).owner c = some i := by
  obtain ⟨w, h⟩ := hs.inv hw (by have := i.2; omega)
  rw [h.sys.owner j]
  exact h.sys.placed i c

example : ∃ s : Sys 2 Nat Nat, Reachable tinyG 0 146 s ∧ (s 0).owner 4 = some 0 ∧ (s 1).owner 2 = some 1 := by
  obtain ⟨s, res, -, -, -, h1, h2⟩ := tiny_refined
  exact ⟨_, h1, (h2 0).1 4 (by decide), (h2 1).2.2.1⟩

/-! ## Volume -/

/-- Index triples of a cell. -/
def cellPoints (g : Cfg) (c : Nat) : List (V3 Nat) :=
  (List.range (g.side c)).flatMap fun z => (List.range (g.side c)).flatMap fun y =>
    (List.range (g.side c)).map fun x => v3 (g.idx c 0 + x) (g.idx c 1 + y) (g.idx c 2 + z)

theorem length_box (a b c : Nat) (f : Nat → Nat → Nat → V3 Nat) :
    ((List.range c).flatMap fun z => (List.range b).flatMap fun y => (List.range a).map fun x => f x y z).length
      = a * b * c := by
  have h : ∀ (k m : Nat) (F : Nat → List (V3 Nat)), (∀ z, (F z).length = k) →
      ((List.range m).flatMap F).length = k * m := by
    intro k m F hF
    induction m with
    | zero => simp
    | succ m ih =>
      rw [List.range_succ, List.flatMap_append, List.length_append, ih]
      simp [hF, Nat.mul_succ]
  exact h _ _ _ fun z => h _ _ _ fun y => by simp

theorem flatMap_nodup {α β : Type} {l : List α} (hl : l.Nodup) {F : α → List β}
    (h1 : ∀ a ∈ l, (F a).Nodup) (h2 : ∀ a ∈ l, ∀ b ∈ l, ∀ x, x ∈ F a → x ∈ F b → a = b) :
    (l.flatMap F).Nodup := by
  induction l with
  | nil => simp
  | cons a l ih =>
    rw [List.nodup_cons] at hl
    rw [List.flatMap_cons, List.nodup_append]
    refine ⟨h1 a List.mem_cons_self, ih hl.2 (fun b hb => h1 b (List.mem_cons_of_mem _ hb))
      (fun b hb c hc => h2 b (List.mem_cons_of_mem _ hb) c (List.mem_cons_of_mem _ hc)), ?_⟩
    intro x hx y hy e
    subst e
    obtain ⟨b, hb, hxb⟩ := List.mem_flatMap.1 hy
    have := h2 a List.mem_cons_self b (List.mem_cons_of_mem _ hb) x hx hxb
    subst this
    exact hl.1 hb

theorem map_nodup {α β : Type} {l : List α} (hl : l.Nodup) {F : α → β}
    (h : ∀ a ∈ l, ∀ b ∈ l, F a = F b → a = b) : (l.map F).Nodup := by
  have := flatMap_nodup hl (F := fun a => [F a]) (fun _ _ => by simp)
    (fun a ha b hb x h1 h2 => h a ha b hb (by simp at h1 h2; rw [← h1, ← h2]))
  rw [show l.flatMap (fun a => [F a]) = l.map F from by
    clear this h hl
    induction l with
    | nil => rfl
    | cons a l ih => simp [ih]] at this
  exact this

theorem nodup_box (a b c : Nat) (f : Nat → Nat → Nat → V3 Nat)
    (hf : ∀ x y z x' y' z', f x y z = f x' y' z' → x = x' ∧ y = y' ∧ z = z') :
    ((List.range c).flatMap fun z => (List.range b).flatMap fun y => (List.range a).map fun x => f x y z).Nodup := by
  refine flatMap_nodup List.nodup_range (fun z _ => flatMap_nodup List.nodup_range (fun y _ =>
    map_nodup List.nodup_range fun x _ x' _ h => (hf _ _ _ _ _ _ h).1) ?_) ?_
  · intro y _ y' _ p h1 h2
    obtain ⟨x, -, h1⟩ := List.mem_map.1 h1
    obtain ⟨x', -, h2⟩ := List.mem_map.1 h2
    exact (hf _ _ _ _ _ _ (h1.trans h2.symm)).2.1
  · intro z _ z' _ p h1 h2
    obtain ⟨y, -, h1⟩ := List.mem_flatMap.1 h1
    obtain ⟨x, -, h1⟩ := List.mem_map.1 h1
    obtain ⟨y', -, h2⟩ := List.mem_flatMap.1 h2
    obtain ⟨x', -, h2⟩ := List.mem_map.1 h2
    exact (hf _ _ _ _ _ _ (h1.trans h2.symm)).2.2

theorem mem_cellPoints {c : Nat} {p : V3 Nat} : p ∈ cellPoints g c ↔ g.Mem p c := by
  unfold cellPoints
  simp only [List.mem_flatMap, List.mem_map, List.mem_range]
  constructor
  · rintro ⟨z, hz, y, hy, x, hx, rfl⟩
    exact forall_fin3.2 ⟨⟨by show _ ≤ g.idx c 0 + x; omega, by show g.idx c 0 + x < _; omega⟩,
      ⟨by show _ ≤ g.idx c 1 + y; omega, by show g.idx c 1 + y < _; omega⟩,
      ⟨by show _ ≤ g.idx c 2 + z; omega, by show g.idx c 2 + z < _; omega⟩⟩
  · intro h
    have h0 := h 0
    have h1 := h 1
    have h2 := h 2
    exact ⟨p 2 - g.idx c 2, by omega, p 1 - g.idx c 1, by omega, p 0 - g.idx c 0, by omega,
      v3_ext (by show g.idx c 0 + _ = _; omega) (by show g.idx c 1 + _ = _; omega)
        (by show g.idx c 2 + _ = _; omega)⟩

theorem v3_inj {a b c x y z : Nat} (h : v3 a b c = v3 x y z) : a = x ∧ b = y ∧ c = z :=
  ⟨congrFun h 0, congrFun h 1, congrFun h 2⟩

/-- Number of index triples in cells that tile the grid. -/
theorem Tiled.volume (hw : g.WF) {E : Nat → Bool} (ht : Tiled g E) :
    (((List.range (g.last + 1)).filter E).map fun c => g.side c * g.side c * g.side c).sum =
      g.n 0 * g.n 1 * g.n 2 := by
  have h1 : (((List.range (g.last + 1)).filter E).flatMap (cellPoints g)).length =
      (((List.range (g.last + 1)).filter E).map fun c => g.side c * g.side c * g.side c).sum := by
    rw [List.length_flatMap]
    congr 1
    apply List.map_congr_left
    intro c _
    exact length_box _ _ _ _
  have h2 : (points g).length = g.n 0 * g.n 1 * g.n 2 := length_box _ _ _ (fun x y z => v3 x y z)
  have h3 : (points g).Nodup := nodup_box _ _ _ (fun x y z => v3 x y z) fun x y z x' y' z' h => v3_inj h
  have h4 : (((List.range (g.last + 1)).filter E).flatMap (cellPoints g)).Nodup := by
    refine flatMap_nodup (List.Pairwise.filter _ List.nodup_range) ?_ ?_
    · intro c _
      refine nodup_box _ _ _ _ fun x y z x' y' z' h => ?_
      have := v3_inj h
      omega
    · intro a ha b hb p hpa hpb
      rw [List.mem_filter] at ha hb
      exact ht.unique p a b ha.2 hb.2 (mem_cellPoints.1 hpa) (mem_cellPoints.1 hpb)
  have h5 : ∀ p, p ∈ ((List.range (g.last + 1)).filter E).flatMap (cellPoints g) ↔ p ∈ points g := by
    intro p
    rw [mem_points, List.mem_flatMap]
    constructor
    · rintro ⟨c, hc, hp⟩
      rw [List.mem_filter] at hc
      exact mem_inGrid hw (ht.valid c hc.2) (mem_cellPoints.1 hp)
    · intro hp
      obtain ⟨c, hc, hm⟩ := ht.cover p hp
      have := ht.valid c hc
      exact ⟨c, List.mem_filter.2 ⟨List.mem_range.2 (by unfold Valid at this; omega), hc⟩,
        mem_cellPoints.2 hm⟩
  rw [← h1, ← h2]
  exact Nat.le_antisymm (List.Nodup.length_le_of_subset h4 fun p hp => (h5 p).1 hp)
    (List.Nodup.length_le_of_subset h3 fun p hp => (h5 p).2 hp)

/-- C13: volumes of existing cells add up to the volume of the grid (in units of the smallest
possible cell). -/
theorem C13_volume (hw : g.WF) (hs : Reachable g dflt maxTag s) (i : Fin n) :
    (((List.range (g.last + 1)).filter (exist (s i).owner)).map fun c =>
      g.side c * g.side c * g.side c).sum = g.n 0 * g.n 1 * g.n 2 := by
  obtain ⟨w, h⟩ := hs.inv hw (by have := i.2; omega)
  rw [h.sys.owner i]
  exact h.sys.tiled.volume hw

end Dccrg
