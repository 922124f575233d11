import Verif.Grid
/-!
# Neighbor searches

Functions of `class Dccrg` that compute neighbors of a cell from the set of existing cells.
Indices, lengths and offsets are unbounded here. The code uses `uint64_t` for indices and `int`
for cell lengths and offsets: Verif/Nbr64.lean models that and Verif/Nbr64Spec.lean proves that the
results are the same for neighborhood items at most 1022 cells away (C79).
-/
namespace Dccrg

/-- Outcome of a member function: normal result, exception, or an endless loop. -/
inductive Out (α : Type) where
  | ok (a : α)
  | throws
  | hangs
  /-- Undefined behavior, or arguments with which results of MPI are not defined. -/
  | undef
deriving DecidableEq

/-- Replace one entry of a triple. -/
def setD {α : Type} (p : V3 α) (d : Fin 3) (x : α) : V3 α := fun e => if e = d then x else p e

/-- `Mapping::get_siblings` of a valid cell (dccrg_mapping.hpp:450-471). -/
def Cfg.siblings (g : Cfg) (c : Nat) : List Nat :=
  if g.lvl c = 0 then c :: List.replicate 7 0 else g.children (g.parent c)

/-! ## Default neighborhoods -/

/-- `-h, ..., h` (loops in dccrg.hpp:8103-8117). -/
def irange (h : Nat) : List Int := (List.range (2 * h + 1)).map fun i : Nat => (i : Int) - h

/-- `neighborhood_of` set by `initialize_neighborhoods` (dccrg.hpp:8072-8124). -/
def hoodOf (g : Cfg) : List (V3 Int) :=
  if g.hood = 0 then
    [v3 0 0 (-1), v3 0 (-1) 0, v3 (-1) 0 0, v3 1 0 0, v3 0 1 0, v3 0 0 1]
  else
    (irange g.hood).flatMap fun z => (irange g.hood).flatMap fun y =>
      (irange g.hood).filterMap fun x =>
        if x = 0 ∧ y = 0 ∧ z = 0 then none else some (v3 x y z)

/-- `neighborhood_to` of a `neighborhood_of` (dccrg.hpp:8126-8130, 6622-6630). -/
def negHood (H : List (V3 Int)) : List (V3 Int) := H.map fun o => fun d => - o d

/-! ## indices_from_neighborhood -/

/-- One dimension of `indices_from_neighborhood` (dccrg.hpp:4330-4401): grid length `n` and cell
length `len` in indices, starting index `i`. `none` is `error_index`. -/
def shiftIdx (n len i : Nat) (periodic : Bool) (off : Int) : Option Nat :=
  if off < 0 then
    if periodic then
      some (Nat.repeat (fun t => if t ≥ len then t - len else n - len) off.natAbs i)
    else if i < off.natAbs * len then none
    else some (i - off.natAbs * len)
  else
    if periodic then
      some (Nat.repeat (fun t => if t < n - len then t + len else 0) off.natAbs i)
    else if i + off.natAbs * len ≥ n then none
    else some (i + off.natAbs * len)

/-- `indices_from_neighborhood` for one neighborhood item (dccrg.hpp:4325-4404). -/
def shift (g : Cfg) (p : V3 Nat) (len : Nat) (o : V3 Int) : Option (V3 Nat) :=
  match shiftIdx (g.n 0) len (p 0) (g.periodic 0) (o 0), shiftIdx (g.n 1) len (p 1) (g.periodic 1) (o 1),
    shiftIdx (g.n 2) len (p 2) (g.periodic 2) (o 2) with
  | some a, some b, some c => some (v3 a b c)
  | _, _, _ => none

/-! ## Six-directional neighbors -/

/-- Search index of `update_neighbors_(cell)` (dccrg.hpp:9531-9575) in dimension `d`, positive or
negative direction. `none` is `error_index`. -/
def searchIdx (g : Cfg) (c : Nat) (d : Fin 3) (pos : Bool) : Option (V3 Nat) :=
  let p := g.idx c
  let len := g.side c
  if pos then
    if g.n d - 1 < len ∨ p d > g.n d - 1 - len then
      if g.periodic d then some (setD p d 0) else none
    else some (setD p d (p d + len))
  else
    if p d = 0 then
      if g.periodic d then some (setD p d (g.n d - 1)) else none
    else some (setD p d (p d - 1))

/-- Entry of `neighbors_` set by `update_neighbors_(cell)` (dccrg.hpp:9577-9598), `0` is
`error_cell`. -/
def nbr6 (g : Cfg) (E : Nat → Bool) (c : Nat) (d : Fin 3) (pos : Bool) : Nat :=
  match searchIdx g c d pos with
  | none => 0
  | some p => existing g E p (g.lvl c - 1) (if g.lvl c = g.maxLvl then g.maxLvl else g.lvl c + 1)

/-! ## find_neighbors_of -/

/-- `get_parent_offset` (dccrg.hpp:4471-4491). -/
def parOff (g : Cfg) (c : Nat) : V3 Int :=
  if g.parent c = c then fun _ => 0 else fun d => (g.idx (g.parent c) d : Int) - g.idx c d

/-- `adjust_offset` (dccrg.hpp:4494-4609), direction `d` with sign `pos`. -/
def adjust (g : Cfg) (off : V3 Int) (fr to : Nat) (d : Fin 3) (pos : Bool) : V3 Int :=
  let fl : Int := g.side fr
  let tl : Int := g.side to
  if fl = tl then setD off d (if pos then off d + fl else off d - fl)
  else if fl < tl then
    let o : V3 Int := fun e => off e + parOff g fr e
    setD o d (if pos then o d + tl else o d - tl)
  else
    let o : V3 Int := fun e => off e - parOff g to e
    setD o d (if pos then o d + fl else o d - fl)

/-- Direction of the next step of the search loop (dccrg.hpp:4630-4714), `none` when the current
cell overlaps the searched block. `L` is the length of the starting cell, `o` the neighborhood item,
`len` the length of the current cell. -/
def nextDir (L : Int) (o : V3 Int) (len : Int) (off : V3 Int) : Option (Fin 3 × Bool) :=
  if off 0 > (o 0 + 1) * L - 1 then some (0, false)
  else if off 0 + len - 1 < o 0 * L then some (0, true)
  else if off 1 > (o 1 + 1) * L - 1 then some (1, false)
  else if off 1 + len - 1 < o 1 * L then some (1, true)
  else if off 2 > (o 2 + 1) * L - 1 then some (2, false)
  else if off 2 + len - 1 < o 2 * L then some (2, true)
  else none

/-- End of the search loop. -/
inductive Walk where
  /-- loop did not end within given number of steps -/
  | hang
  /-- no `neighbors_` for a visited cell -/
  | threw
  /-- walked out of the grid, `current == error_cell` -/
  | outside
  | found (c : Nat) (off : V3 Int)
deriving DecidableEq

/-- Search loop of `find_neighbors_of` (dccrg.hpp:4626-4714), at most `fuel` steps. `neighbors_` has
entries exactly for cells without children (dccrg.hpp:9519-9527). -/
def walk (g : Cfg) (E : Nat → Bool) (L : Int) (o : V3 Int) : Nat → Nat → V3 Int → Walk
  | fuel, cur, off =>
    match nextDir L o (g.side cur) off with
    | none => .found cur off
    | some (d, pos) =>
      match fuel with
      | 0 => .hang
      | fuel + 1 =>
        if getChild g E cur ≠ cur then .threw
        else
          let nb := nbr6 g E cur d pos
          if nb = 0 then .outside
          else walk g E L o fuel nb (adjust g off cur nb d pos)

/-- Steps that are enough for the search loop (shown in `Verif.NbrWalk`). -/
def walkFuel (g : Cfg) (o : V3 Int) : Nat :=
  32 ^ (g.maxLvl + 1) * ((o 0).natAbs + (o 1).natAbs + (o 2).natAbs + 1)

/-- Neighbors from the cell found by the search loop (dccrg.hpp:4720-4767): the cell itself or all
its siblings. `none` is the thrown internal error. -/
def collect (g : Cfg) (c cur : Nat) (off : V3 Int) : Option (List (Nat × V3 Int)) :=
  let len : Int := g.side cur
  if g.side cur ≥ g.side c then some [(cur, off)]
  else
    let sib := g.siblings cur
    match sib.findIdx? (· == cur) with
    | none => none
    | some i =>
      let base : V3 Int := v3 (if i % 2 > 0 then off 0 - len else off 0)
        (if i % 4 > 1 then off 1 - len else off 1) (if i > 3 then off 2 - len else off 2)
      some (List.zipWith (fun k (w : V3 Nat) => (k, fun d => base d + w d * len)) sib octants)

/-- Loop over neighborhood items in `find_neighbors_of` (dccrg.hpp:4611-4768). -/
def findItems (g : Cfg) (E : Nat → Bool) (c : Nat) : List (V3 Int) → Out (List (Nat × V3 Int))
  | [] => .ok []
  | o :: H =>
    match walk g E (g.side c) o (walkFuel g o) c (fun _ => 0) with
    | .hang => .hangs
    | .threw => .throws
    | .outside => findItems g E c H
    | .found cur off =>
      match collect g c cur off with
      | none => .throws
      | some l =>
        match findItems g E c H with
        | .ok r => .ok (l ++ r)
        | x => x

/-- `find_neighbors_of(cell, neighborhood)` (dccrg.hpp:4430-4771). -/
def findNeighborsOf (g : Cfg) (E : Nat → Bool) (c : Nat) (H : List (V3 Int)) :
    Out (List (Nat × V3 Int)) :=
  if c = 0 ∨ E c = false then .throws
  else if getChild g E c ≠ c then .throws
  else findItems g E c H

/-! ## find_neighbors_to -/

/-- Existing cells without children of level `l` at given neighborhood of a box
(e.g. dccrg.hpp:4859-4881). -/
def foundAt (g : Cfg) (E : Nat → Bool) (p : V3 Nat) (len l : Nat) (H : List (V3 Int)) : List Nat :=
  (H.filterMap fun o => (shift g p len o).map (g.cellAt l)).filter fun f => getChild g E f == f

/-- Remove repeated elements, keep the last one of each. Keys of `unique_neighbors`
(dccrg.hpp:4851), whose order is unspecified in the code. -/
def dedup : List Nat → List Nat
  | [] => []
  | a :: l => if a ∈ l then dedup l else a :: dedup l

/-- `find_neighbors_to(cell, neighborhood)` (dccrg.hpp:4799-4952), cells only (all offsets are 0).
`H` is the (negated) `neighborhood_to`. -/
def findNeighborsTo (g : Cfg) (E : Nat → Bool) (c : Nat) (H : List (V3 Int)) : Out (List Nat) :=
  if c = 0 ∨ c > g.last ∨ getChild g E c ≠ c then .throws
  else
    let larger := if g.lvl c > 0 then
      foundAt g E (g.idx (g.parent c)) (g.side (g.parent c)) (g.lvl c - 1) H else []
    let smaller := if g.lvl c < g.maxLvl then
      (g.children c).flatMap fun k => foundAt g E (g.idx k) (g.side k) (g.lvl c + 1) H else []
    let same := foundAt g E (g.idx c) (g.side c) (g.lvl c) H
    .ok (dedup (larger ++ smaller ++ same))

/-! ## is_neighbor -/

/-- Distance between two cells in one dimension (dccrg.hpp:9699-9721). -/
def distance1 (n i1 l1 i2 l2 : Nat) (periodic : Bool) : Nat :=
  if i1 ≤ i2 then
    let r := if i2 ≤ i1 + l1 then 0 else i2 - (i1 + l1)
    if periodic then min r (i1 + (n - (i2 + l2))) else r
  else
    let r := if i1 ≤ i2 + l2 then 0 else i1 - (i2 + l2)
    if periodic then min r (i2 + (n - (i1 + l1))) else r

/-- `overlapping_indices` (dccrg.hpp:11329-11368). -/
def overlapping (g : Cfg) (a b : Nat) : Nat :=
  let f (d : Fin 3) : Nat :=
    if g.idx a d + g.side a > g.idx b d ∧ g.idx a d < g.idx b d + g.side b then 1 else 0
  f 0 + f 1 + f 2

/-- `is_neighbor(cell1, cell2)` (dccrg.hpp:9658-9739). -/
def isNeighbor (g : Cfg) (a b : Nat) : Bool :=
  let dist (d : Fin 3) : Nat :=
    distance1 (g.n d) (g.idx a d) (g.side a) (g.idx b d) (g.side b) (g.periodic d)
  let m := max (max (max 0 (dist 0)) (dist 1)) (dist 2)
  if g.hood = 0 then decide (m < g.side a) && decide (overlapping g a b ≥ 2)
  else decide (m < g.hood * g.side a)

end Dccrg
