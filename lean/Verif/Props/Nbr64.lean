import Verif.Nbr64Spec
import Verif.Props.Neighbors
import Verif.Props.Halo
/-!
# C79: neighbor searches in machine integers
-/
namespace Dccrg
open Cfg
variable {n : Nat} {D V : Type} {m : Mapping} {per : V3 Bool} {hood : Nat} {s : Sys n D V} {dflt : D}
  {maxTag : Nat}

theorem Inv.facesBal {g : Cfg} {w : Owner n} {s : Sys n D V} (hw : g.WF) (h : Inv g w s) :
    BalancedFor g (exist w) (hoodOf g) := (balanced_iff hw h.sys.tiled).1 h.sys.balanced

theorem room_of (h : m.OK) : Room m 1022 := by
  have := pow_max (per := fun _ => false) (hood := 0) h
  have : 2 ^ m.maxLvl.toNat ≤ 2097152 := this
  unfold Room
  omega

theorem roomTo_of (h : m.OK) (hd : ∀ d, m.len d * 2 ^ m.maxLvl.toNat ≤ 2 ^ 64 - 2 ^ 31) : RoomTo m 1022 := by
  have := pow_max (per := fun _ => false) (hood := 0) h
  have : 2 ^ m.maxLvl.toNat ≤ 2097152 := this
  intro d
  have := hd d
  have : W = 18446744073709551616 := rfl
  omega

/-- C79, `find_neighbors_of`: in every state of every grid whose cell ids fit, searching a
neighborhood whose items are at most 1022 cells away ends normally without undefined behavior: for
every item in order, exactly the cells of the item with their locations, and the cells are exactly
the existing cells that overlap the neighborhood. -/
theorem C79_neighbors_of_partial (hm : m.OK) (h : Reachable (m.grid per hood) dflt maxTag s) (i : Fin n)
    {c : Nat} (hc : exist (s i).owner c = true) {H : List (V3 Int)}
    (hH : ∀ o ∈ H, o ∈ hoodOf (m.grid per hood)) (hk : ∀ o ∈ H, ∀ d, -1022 ≤ o d ∧ o d ≤ 1022) :
    ∃ f : V3 Int → List (Nat × V3 Int),
      findNeighborsOf64 m per (exist (s i).owner) c H = .val (H.flatMap f) ∧
      (∀ o ∈ H, IsItem (m.grid per hood) (exist (s i).owner) c o (f o)) ∧
      (∀ b, (∃ off, (b, off) ∈ H.flatMap f) ↔
        exist (s i).owner b = true ∧ ∃ o ∈ H, Meets (m.grid per hood) c o b) := by
  have hw := gridWF (per := per) (hood := hood) hm
  obtain ⟨w, hi⟩ := h.inv hw (by have := i.2; omega)
  rw [hi.sys.owner] at hc ⊢
  obtain ⟨f, h1, h2, -, h4⟩ := C15_neighbors_of hw hi.sys.tiled (hi.facesBal hw) hc hH
  refine ⟨f, ?_, h2, h4⟩
  rw [findNeighborsOf64_eq hm hi.sys.tiled (hi.facesBal hw).faces (room_of hm) c H
    (fun o ho d => by have := hk o ho d; omega), h1]
  rfl

/-- C79, `find_neighbors_to`: in grids shorter than `2^64 - 2^31` indices in every dimension. -/
theorem C79_neighbors_to_partial (hm : m.OK) (hd : ∀ d, m.len d * 2 ^ m.maxLvl.toNat ≤ 2 ^ 64 - 2 ^ 31)
    (h : Reachable (m.grid per hood) dflt maxTag s) (i : Fin n)
    {c : Nat} (hc : exist (s i).owner c = true) {H : List (V3 Int)}
    (hH : ∀ o ∈ H, o ∈ hoodOf (m.grid per hood)) (hk : ∀ o ∈ H, ∀ d, -1022 ≤ o d ∧ o d ≤ 1022) :
    ∃ r, findNeighborsTo64 m per (exist (s i).owner) c (negHood H) = .val r ∧ r.Nodup ∧
      ∀ b, b ∈ r ↔ exist (s i).owner b = true ∧ ∃ o ∈ H, Meets (m.grid per hood) b o c := by
  have hw := gridWF (per := per) (hood := hood) hm
  obtain ⟨w, hi⟩ := h.inv hw (by have := i.2; omega)
  rw [hi.sys.owner] at hc ⊢
  obtain ⟨r, h1, h2, h3⟩ := C16_neighbors_to hw hi.sys.tiled (hi.facesBal hw) hc hH
  refine ⟨r, ?_, h2, h3⟩
  rw [findNeighborsTo64_eq hm hi.sys.tiled (roomTo_of hm hd) c _ (fun o ho d => by
    unfold negHood at ho
    obtain ⟨o', ho', rfl⟩ := List.mem_map.1 ho
    have := hk o' ho' d
    simp only
    omega), h1]
  rfl

/-- C79, neighbors in six directions: all grids. -/
theorem C79_six (hm : m.OK) (h : Reachable (m.grid per hood) dflt maxTag s) (i : Fin n)
    {c : Nat} (hc : exist (s i).owner c = true) (d : Fin 3) (pos : Bool) {q : V3 Int}
    (hq : q = fun e => if e = d then (if pos then ((m.grid per hood).idx c d : Int) + (m.grid per hood).side c
      else (m.grid per hood).idx c d - 1) else (m.grid per hood).idx c e) :
    ((m.grid per hood).InCover q → exist (s i).owner (nbr6x64 m per (exist (s i).owner) c d pos) = true ∧
      (m.grid per hood).Mem ((m.grid per hood).wrap q) (nbr6x64 m per (exist (s i).owner) c d pos)) ∧
    (¬ (m.grid per hood).InCover q → nbr6x64 m per (exist (s i).owner) c d pos = 0) := by
  have hw := gridWF (per := per) (hood := hood) hm
  obtain ⟨w, hi⟩ := h.inv hw (by have := i.2; omega)
  rw [hi.sys.owner] at hc ⊢
  rw [nbr6x64_eq hm hi.sys.tiled (hi.sys.tiled.valid c hc)]
  exact C18_six hw hi.sys.tiled (hi.facesBal hw) hc d pos hq

/-- C79, `get_existing_cell`: all grids. -/
theorem C79_existing (hm : m.OK) (h : Reachable (m.grid per hood) dflt maxTag s) (i : Fin n)
    (p : V3 Nat) (lo hi : Int) {b : Nat} (hb : b ≠ 0) :
    existing64 m (exist (s i).owner) p lo hi = b ↔ exist (s i).owner b = true ∧
      (m.grid per hood).Mem p b ∧ lo ≤ (m.grid per hood).lvl b ∧ ((m.grid per hood).lvl b : Int) ≤ hi := by
  have hw := gridWF (per := per) (hood := hood) hm
  obtain ⟨w, hi'⟩ := h.inv hw (by have := i.2; omega)
  rw [hi'.sys.owner, existing64_eq (per := per) (hood := hood) hm]
  exact (C12_existing_cell hw hi'.sys.tiled p lo hi).1 b hb

/-- C79, `is_neighbor`: all grids, cells and neighborhood lengths (`unsigned int`). -/
theorem C79_is_neighbor (hm : m.OK) (hh : hood < 2 ^ 32) {a b : Nat}
    (ha : 1 ≤ a ∧ a ≤ m.lastCell) (hb : 1 ≤ b ∧ b ≤ m.lastCell) :
    isNeighbor64 m per hood a b = true ↔
      Meets (m.grid per hood) a (fun _ => 0) b ∨ ∃ o ∈ hoodOf (m.grid per hood), Meets (m.grid per hood) a o b := by
  have hw := gridWF (per := per) (hood := hood) hm
  rw [hm.last, ← grid_last (per := per) (hood := hood)] at ha hb
  rw [isNeighbor64_eq hm hh ha hb]
  exact isNeighbor_iff hw ha hb

/-! ## The hypotheses are met -/

example : ∃ s : Sys 2 Nat Nat, tinyM.OK ∧ (∀ d, tinyM.len d * 2 ^ tinyM.maxLvl.toNat ≤ 2 ^ 64 - 2 ^ 31) ∧
    Reachable (tinyM.grid (v3 false false true) 1) 0 146 s ∧ exist (s 0).owner 2 = true ∧
    exist (s 0).owner 1 = false ∧ v3 (-1) 0 0 ∈ hoodOf (tinyM.grid (v3 false false true) 1) := by
  obtain ⟨s, res, -, -, -, h1, h2⟩ := tiny_refined
  refine ⟨_, tinyM_ok, by rw [forall_fin3]; decide, h1, exist_of (h2 0).2.2.1, ?_, by decide⟩
  unfold exist; rw [(h2 0).2.1]; rfl

/-- Neighbors of the unrefined cell among children of the other one. -/
example : (match findNeighborsOf64 tinyM (v3 false false true) (fun c => c == 2 || (tinyG.children 1).contains c)
      2 [v3 (-1) 0 0, v3 1 0 0, v3 0 0 (-1)] with
    | .val l => l.map fun x => (x.1, x.2 0, x.2 1, x.2 2)
    | _ => []) =
    [(3, -4, 0, 0), (4, -2, 0, 0), (7, -4, 2, 0), (8, -2, 2, 0), (11, -4, 0, 2), (12, -2, 0, 2),
      (15, -4, 2, 2), (16, -2, 2, 2), (2, 0, 0, -4)] := by decide +kernel

/-! ## Limits -/

/-- One level 0 cell, as many refinement levels as fit. -/
def deepM : Mapping := { len := v3 1 1 1, maxLvl := 21, lastCell := 10540996613548315209 }

theorem deepM_ok : deepM.OK where
  pos := by rw [forall_fin3]; decide
  nonneg := by decide
  fits := by decide +kernel
  last := by decide +kernel

/-- C79, false without the limit on neighborhood items: the end of the searched block does not fit
into `int` for items 1023 cells away from a cell of `2^21` indices. -/
theorem C79_far_item_false : ∃ (m : Mapping) (per : V3 Bool) (E : Nat → Bool), m.OK ∧
    Tiled (m.grid per 0) E ∧ E 1 = true ∧ findNeighborsOf64 m per E 1 [v3 1023 0 0] = .undef := by
  refine ⟨deepM, fun _ => true, fun c => c == 1, deepM_ok, ?_, by decide, by decide +kernel⟩
  have hw : (deepM.grid (fun _ => true) 0).WF := deepM_ok.pos
  have h1 : (deepM.grid (fun _ => true) 0).idx 1 = fun _ => 0 := by
    funext d
    match d with
    | 0 => decide +kernel
    | 1 => decide +kernel
    | 2 => decide +kernel
  have h2 : (deepM.grid (fun _ => true) 0).side 1 = 2097152 := by decide +kernel
  refine ⟨fun c hc => ?_, fun p hp => ⟨1, rfl, fun d => ?_⟩, fun p a b ha hb _ _ => ?_⟩
  · rw [beq_iff_eq] at hc; subst hc; unfold Cfg.Valid; decide +kernel
  · have := hp d
    rw [h1, h2]
    have e : (deepM.grid (fun _ => true) 0).n d = 2097152 := by
      match d with
      | 0 => decide +kernel
      | 1 => decide +kernel
      | 2 => decide +kernel
    rw [e] at this
    simp only
    omega
  · rw [beq_iff_eq] at ha hb; rw [ha, hb]

/-- As many level 0 cells as fit. -/
def longestM : Mapping := { len := v3 18446744073709551614 1 1, maxLvl := 0, lastCell := 18446744073709551614 }

theorem longestM_ok : longestM.OK where
  pos := by rw [forall_fin3]; decide
  nonneg := by decide
  fits := by decide +kernel
  last := by decide +kernel

/-- C79, false without the limit on lengths: `index + offset * length` wraps around, the first cell of
the longest possible grid is found three cells after the last one although the grid is not
periodic. -/
theorem C79_long_grid_false :
    longestM.OK ∧ findNeighborsTo64 longestM (fun _ => false) (fun c => decide (1 ≤ c ∧ c ≤ longestM.lastCell))
        longestM.lastCell [v3 3 0 0] = .val [1] ∧
      findNeighborsTo (longestM.grid (fun _ => false) 0) (fun c => decide (1 ≤ c ∧ c ≤ longestM.lastCell))
        longestM.lastCell [v3 3 0 0] = .ok [] :=
  ⟨longestM_ok, by decide +kernel, by decide +kernel⟩

end Dccrg
