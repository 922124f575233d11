import Verif.MappingRefine
import Verif.Nbr
/-!
# Neighbor searches in machine integers

The functions of `Verif.Nbr` as the code computes them: cell ids, indices, grid lengths and cell
lengths are `uint64_t` (naturals below `W`, operations modulo `W`), refinement levels, neighborhood
items and offsets between cells are `int`. Overflow of `int` is undefined and is an outcome of its
own. `E` says which cells are in `cell_process`, `per` in which dimensions the grid is periodic.
-/
namespace Dccrg

/-- Outcome of a function that computes in machine integers. -/
inductive Mach (α : Type) where
  | val (a : α)
  | throws
  | hangs
  /-- overflow of an `int`: undefined behavior -/
  | undef
deriving DecidableEq

/-- Sequence of computations. -/
def Mach.bind {α β : Type} : Mach α → (α → Mach β) → Mach β
  | .val a, f => f a
  | .throws, _ => .throws
  | .hangs, _ => .hangs
  | .undef, _ => .undef

instance : Monad Mach where
  pure := Mach.val
  bind := Mach.bind

/-- Value of type `int`. Conversion of a `uint64_t` that does not fit is implementation defined before
C++20, it is also undefined here. -/
def i32 (x : Int) : Mach Int := if -2147483648 ≤ x ∧ x ≤ 2147483647 then .val x else .undef

/-- Conversion of `int` to `uint64_t`. -/
def u64 (x : Int) : Nat := (x % (W : Int)).toNat

/-- Three computations, one for each dimension. -/
def each3 {α : Type} (f : Fin 3 → Mach α) : Mach (V3 α) := do
  let a ← f 0
  let b ← f 1
  let c ← f 2
  return v3 a b c

/-! ## get_existing_cell, get_child -/

/-- Loop of `get_existing_cell` (dccrg.hpp:11399-11408), `k` iterations from level `l` down. -/
def existingLoop64 (m : Mapping) (E : Nat → Bool) (p : V3 Nat) : Int → Nat → Nat
  | _, 0 => errorCell
  | l, k + 1 =>
    if E (m.cellFromIndices p l) then m.cellFromIndices p l else existingLoop64 m E p (l - 1) k

/-- `get_existing_cell(indices, min, max)` (dccrg.hpp:11379-11412). Simplification: levels are not
checked for overflow, they are between -1 and 22 in all calls modelled here. -/
def existing64 (m : Mapping) (E : Nat → Bool) (p : V3 Nat) (lo hi : Int) : Nat :=
  if p 0 ≥ m.nIdx 0 then errorCell
  else if p 1 ≥ m.nIdx 1 then errorCell
  else if p 2 ≥ m.nIdx 2 then errorCell
  else if lo > hi then errorCell
  else existingLoop64 m E p hi (hi - lo + 1).toNat

/-- `Dccrg::get_child` (dccrg.hpp:9749-9775). -/
def getChild64 (m : Mapping) (E : Nat → Bool) (c : Nat) : Nat :=
  if m.getLevel c = m.maxLvl then (if E c then c else errorCell)
  else
    let k := m.cellFromIndices (m.getIndices c) (m.getLevel c + 1)
    if E k then k else if E c then c else errorCell

/-! ## indices_from_neighborhood -/

/-- One dimension of `indices_from_neighborhood` (dccrg.hpp:4330-4401): grid length `n` and cell
length `len` in indices, starting index `i`. `none`: all indices are set to `error_index`. The `int`
offset is converted to `uint64_t` before it is multiplied with `len`. -/
def shiftIdx64 (n len i : Nat) (periodic : Bool) (off : Int) : Option Nat :=
  if off < 0 then
    if periodic then
      some (Nat.repeat (fun t => if t ≥ len then wsub t len else wsub n len) off.natAbs i)
    else if i < wmul off.natAbs len then none
    else some (wadd i (wmul (u64 off) len))
  else
    if periodic then
      some (Nat.repeat (fun t => if t < wsub n len then wadd t len else 0) off.natAbs i)
    else if wadd i (wmul (u64 off) len) ≥ n then none
    else some (wadd i (wmul (u64 off) len))

/-- `indices_from_neighborhood` for one neighborhood item (dccrg.hpp:4325-4404). -/
def shift64 (m : Mapping) (per : V3 Bool) (p : V3 Nat) (len : Nat) (o : V3 Int) : V3 Nat :=
  match shiftIdx64 (m.nIdx 0) len (p 0) (per 0) (o 0),
    shiftIdx64 (m.nIdx 1) len (p 1) (per 1) (o 1), shiftIdx64 (m.nIdx 2) len (p 2) (per 2) (o 2) with
  | some a, some b, some c => v3 a b c
  | _, _, _ => fun _ => errorIndex

/-! ## Six-directional neighbors -/

/-- Search indices of `update_neighbors_(cell)` (dccrg.hpp:9531-9575) in dimension `d`, positive or
negative direction. -/
def searchIdx64 (m : Mapping) (per : V3 Bool) (c : Nat) (d : Fin 3) (pos : Bool) : V3 Nat :=
  let p := m.getIndices c
  let len := m.cellLength c
  let maxIndex := wsub (m.nIdx d) 1
  if pos then
    if maxIndex < len ∨ p d > wsub maxIndex len then
      setD p d (if per d then 0 else errorIndex)
    else setD p d (wadd (p d) len)
  else
    if p d = 0 then setD p d (if per d then maxIndex else errorIndex)
    else setD p d (wsub (p d) 1)

/-- Entry of `neighbors_` set by `update_neighbors_(cell)` (dccrg.hpp:9577-9598). -/
def nbr6x64 (m : Mapping) (per : V3 Bool) (E : Nat → Bool) (c : Nat) (d : Fin 3) (pos : Bool) : Nat :=
  let lvl := m.getLevel c
  existing64 m E (searchIdx64 m per c d pos) (if lvl = 0 then 0 else lvl - 1)
    (if lvl = m.maxLvl then m.maxLvl else lvl + 1)

/-! ## find_neighbors_of -/

/-- `get_len_int` (dccrg.hpp:4453-4462). -/
def lenInt (m : Mapping) (c : Nat) : Mach Int :=
  if m.cellLength c > 2147483647 then .throws else .val (m.cellLength c)

/-- `get_parent_offset` (dccrg.hpp:4471-4491). -/
def parOff64 (m : Mapping) (c : Nat) : Mach (V3 Int) :=
  if m.getParent c = errorCell ∨ m.getParent c = c then .val fun _ => 0
  else
    let ci := m.getIndices c
    let pi := m.getIndices (m.getParent c)
    each3 fun d =>
      if pi d ≥ ci d then do
        let x ← i32 (wsub (pi d) (ci d))
        i32 (0 + x)
      else do
        let x ← i32 (wsub (ci d) (pi d))
        i32 (0 - x)

/-- `adjust_offset` (dccrg.hpp:4494-4609), direction `d` with sign `pos`. -/
def adjust64 (m : Mapping) (off : V3 Int) (fr to : Nat) (d : Fin 3) (pos : Bool) : Mach (V3 Int) := do
  let fl ← lenInt m fr
  let tl ← lenInt m to
  if fl = tl then each3 fun e => if e = d then i32 (if pos then off d + fl else off d - fl) else .val (off e)
  else if fl < tl then
    let par ← parOff64 m fr
    each3 fun e =>
      if e = d then do
        let x ← i32 (if pos then par d + tl else par d - tl)
        i32 (off d + x)
      else i32 (off e + par e)
  else
    let par ← parOff64 m to
    each3 fun e =>
      if e = d then do
        let x ← i32 (if pos then par d - fl else par d + fl)
        i32 (off d - x)
      else i32 (off e - par e)

/-- Direction of the next step of the search loop (dccrg.hpp:4630-4714), `none` when the current
cell overlaps the searched block. `s` is `off_start`, `e` is `off_end`, `last` is
`offset + curr_len - 1`. -/
def nextDir64 (s e off last : V3 Int) : Option (Fin 3 × Bool) :=
  if off 0 > e 0 then some (0, false)
  else if last 0 < s 0 then some (0, true)
  else if off 1 > e 1 then some (1, false)
  else if last 1 < s 1 then some (1, true)
  else if off 2 > e 2 then some (2, false)
  else if last 2 < s 2 then some (2, true)
  else none

/-- Search loop of `find_neighbors_of` (dccrg.hpp:4626-4714), at most `fuel` steps. `none`: walked out
of the grid. Simplification: `offset + curr_len - 1` is computed in every dimension, the code skips
the rest of the condition once a part of it holds. -/
def walk64 (m : Mapping) (per : V3 Bool) (E : Nat → Bool) (s e : V3 Int) :
    Nat → Nat → V3 Int → Mach (Option (Nat × V3 Int))
  | fuel, cur, off => do
    let len ← lenInt m cur
    let last ← each3 fun d => do
      let x ← i32 (off d + len)
      i32 (x - 1)
    match nextDir64 s e off last with
    | none => return some (cur, off)
    | some (d, pos) =>
      match fuel with
      | 0 => .hangs
      | fuel + 1 =>
        if getChild64 m E cur ≠ cur then .throws
        else
          let nb := nbr6x64 m per E cur d pos
          if nb = errorCell then return none
          else
            let off' ← adjust64 m off cur nb d pos
            walk64 m per E s e fuel nb off'

/-- Offsets of siblings from the offset of the first one (dccrg.hpp:4756-4767). -/
def place64 (base : V3 Int) (len : Int) : List Nat → List (V3 Nat) → Mach (List (Nat × V3 Int))
  | k :: ks, w :: ws => do
    let p ← each3 fun d => i32 (base d + (if w d = 0 then 0 else len))
    let r ← place64 base len ks ws
    return (k, p) :: r
  | _, _ => .val []

/-- One dimension of the offset of the first sibling (dccrg.hpp:4744-4753). -/
def back64 (b : Bool) (x len : Int) : Mach Int := if b then i32 (x - len) else .val x

/-- Neighbors from the cell found by the search loop (dccrg.hpp:4720-4767). -/
def collect64 (m : Mapping) (L : Int) (cur : Nat) (off : V3 Int) : Mach (List (Nat × V3 Int)) := do
  let len ← lenInt m cur
  if len ≥ L then return [(cur, off)]
  else
    let sib := m.siblings cur
    match sib.findIdx? (· == cur) with
    | none => .throws
    | some i =>
      let x ← back64 (i % 2 > 0) (off 0) len
      let y ← back64 (i % 4 > 1) (off 1) len
      let z ← back64 (i > 3) (off 2) len
      place64 (v3 x y z) len sib octants

/-- Loop over neighborhood items in `find_neighbors_of` (dccrg.hpp:4611-4768). -/
def findItems64 (m : Mapping) (per : V3 Bool) (E : Nat → Bool) (c : Nat) (L : Int) :
    List (V3 Int) → Mach (List (Nat × V3 Int))
  | [] => .val []
  | o :: H => do
    let s ← each3 fun d => i32 (o d * L)
    let e ← each3 fun d => do
      let x ← i32 (o d + 1)
      let y ← i32 (x * L)
      i32 (y - 1)
    let w ← walk64 m per E s e (walkFuel (m.grid per 0) o) c (fun _ => 0)
    match w with
    | none => findItems64 m per E c L H
    | some (cur, off) => do
      let l ← collect64 m L cur off
      let r ← findItems64 m per E c L H
      return l ++ r

/-- `find_neighbors_of(cell, neighborhood)` (dccrg.hpp:4430-4771). -/
def findNeighborsOf64 (m : Mapping) (per : V3 Bool) (E : Nat → Bool) (c : Nat) (H : List (V3 Int)) :
    Mach (List (Nat × V3 Int)) :=
  if c = errorCell ∨ E c = false then .throws
  else do
    let L ← lenInt m c
    if getChild64 m E c ≠ c then .throws
    else findItems64 m per E c L H

/-! ## find_neighbors_to -/

/-- Existing cells without children of level `l` at given neighborhood of a box
(e.g. dccrg.hpp:4859-4881). -/
def foundAt64 (m : Mapping) (per : V3 Bool) (E : Nat → Bool) (p : V3 Nat) (len : Nat) (l : Int)
    (H : List (V3 Int)) : List Nat :=
  (H.filterMap fun o =>
    if shift64 m per p len o 0 = errorIndex then none
    else some (m.cellFromIndices (shift64 m per p len o) l)).filter fun f => getChild64 m E f == f

/-- `find_neighbors_to(cell, neighborhood)` (dccrg.hpp:4799-4952), cells only (all offsets are 0).
All children have the length of the first one (4895). -/
def findNeighborsTo64 (m : Mapping) (per : V3 Bool) (E : Nat → Bool) (c : Nat) (H : List (V3 Int)) :
    Mach (List Nat) :=
  if c = errorCell ∨ c > m.lastCell ∨ getChild64 m E c ≠ c then .throws
  else
    let lvl := m.getLevel c
    let larger := if lvl > 0 then
      foundAt64 m per E (m.getIndices (m.getParent c)) (m.cellLength (m.getParent c)) (lvl - 1) H else []
    let smaller := if lvl < m.maxLvl then
      (m.allChildren c).flatMap fun k =>
        foundAt64 m per E (m.getIndices k) (m.cellLength ((m.allChildren c).headD 0)) (lvl + 1) H else []
    let same := foundAt64 m per E (m.getIndices c) (m.cellLength c) lvl H
    .val (dedup (larger ++ smaller ++ same))

/-! ## is_neighbor -/

/-- Distance between two cells in one dimension (dccrg.hpp:9699-9721). -/
def distance64 (n i1 l1 i2 l2 : Nat) (periodic : Bool) : Nat :=
  if i1 ≤ i2 then
    let r := if i2 ≤ wadd i1 l1 then 0 else wsub i2 (wadd i1 l1)
    if periodic then min r (wadd i1 (wsub n (wadd i2 l2))) else r
  else
    let r := if i1 ≤ wadd i2 l2 then 0 else wsub i1 (wadd i2 l2)
    if periodic then min r (wadd i2 (wsub n (wadd i1 l1))) else r

/-- `overlapping_indices` and `indices_overlap` (dccrg.hpp:11272-11368). -/
def overlapping64 (m : Mapping) (a b : Nat) : Nat :=
  let f (d : Fin 3) : Nat :=
    if wadd (m.getIndices a d) (m.cellLength a) > m.getIndices b d ∧
      m.getIndices a d < wadd (m.getIndices b d) (m.cellLength b) then 1 else 0
  f 0 + f 1 + f 2

/-- `is_neighbor(cell1, cell2)` (dccrg.hpp:9658-9739), `hood` is the neighborhood length. -/
def isNeighbor64 (m : Mapping) (per : V3 Bool) (hood a b : Nat) : Bool :=
  let dist (d : Fin 3) : Nat := distance64 (m.nIdx d) (m.getIndices a d) (m.cellLength a)
    (m.getIndices b d) (m.cellLength b) (per d)
  let x := max (max (max 0 (dist 0)) (dist 1)) (dist 2)
  if hood = 0 then decide (x < m.cellLength a) && decide (overlapping64 m a b ≥ 2)
  else decide (x < wmul hood (m.cellLength a))

end Dccrg
