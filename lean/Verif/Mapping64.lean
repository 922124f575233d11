import Verif.Word
/-!
# `Mapping` and `Grid_Length` with 64-bit arithmetic

Model of dccrg_mapping.hpp and dccrg_length.hpp, function by function. `uint64_t` values are
naturals below `W`, `int` values are `Int` (32-bit overflow of `int` is not modelled: the only
`int` values here are refinement levels, at most 342).
-/
namespace Dccrg

/-- `error_cell`, dccrg_mapping.hpp:38. -/
def errorCell : Nat := 0
/-- `error_index`, dccrg_mapping.hpp:41. -/
def errorIndex : Nat := W - 1

/-- Rounding of a natural number to `double` (IEEE binary64, round to nearest, ties to even).
Simplification: only non-negative integers, no overflow to infinity (all values in the modelled
code are below 2^1024). -/
def dbl (x : Nat) : Nat :=
  if x < 2 ^ 53 then x else
    let u := 2 ^ (Nat.log2 x - 52)          -- unit in the last place
    let q := x / u
    let r := x % u
    if 2 * r < u then q * u
    else if 2 * r = u then (if q % 2 = 0 then q * u else (q + 1) * u)
    else (q + 1) * u

/-- State of `Mapping`: `length_rw`, `max_refinement_level`, `last_cell`
(dccrg_mapping.hpp:58-70, 658-668). -/
structure Mapping where
  len : V3 Nat
  maxLvl : Int
  lastCell : Nat
deriving DecidableEq

namespace Mapping

/-- `length[0] * length[1] * length[2]` as computed in `uint64_t`
(dccrg_mapping.hpp:181-184, 228-231, 275-278, 319-320, 681-682). -/
def total (m : Mapping) : Nat := wmul (wmul (m.len 0) (m.len 1)) (m.len 2)

/-- Loop of `update_last_cell` (dccrg_mapping.hpp:684-686) and of the "ids of larger cells" sums
(180-186, 227-233): adds `total * (1 << (i * 3))` for `i < k` to `acc`. -/
def sumLevels (m : Mapping) (acc : Nat) : Nat → Nat
  | 0 => acc
  | k + 1 => wadd (sumLevels m acc k) (wmul m.total (wshl1 (k * 3)))

/-- `update_last_cell`, dccrg_mapping.hpp:679-687. -/
def updateLastCell (m : Mapping) : Mapping :=
  { m with lastCell := m.sumLevels 0 (m.maxLvl + 1).toNat }

/-- Default constructor, dccrg_mapping.hpp:76-80. -/
def init : Mapping := { len := fun _ => 1, maxLvl := 0, lastCell := 1 }

/-- `Grid_Length::set`, dccrg_length.hpp:95-134: the new length on success. The check compares
the sum of lengths, in `double`, with `double(2^64 - 1) = 2^64`. -/
def gridLengthSet (given : V3 Nat) : Option (V3 Nat) :=
  if given 0 = 0 ∨ given 1 = 0 ∨ given 2 = 0 then none
  else if dbl (dbl (dbl (given 0) + dbl (given 1)) + dbl (given 2)) > dbl (W - 1) then none
  else some given

/-- `Mapping::set_length`, dccrg_mapping.hpp:110-119: returned value and new state. -/
def setLength (m : Mapping) (given : V3 Nat) : Bool × Mapping :=
  match gridLengthSet given with
  | none => (false, m)
  | some l => (true, updateLastCell { m with len := l })

/-- Loop of `get_maximum_possible_refinement_level`, dccrg_mapping.hpp:323-327, in `double`.
`pow(8, level)` is a power of two and exact. Returns the final `refinement_level`.
When `total` is 0 the sum stays 0 until `pow` overflows to infinity at level 342 and `0 * inf`
is NaN, which ends the loop with level 343; the fuel 343 models exactly that. -/
def maxPossibleLoop (total : Nat) : Nat → Nat → Nat → Nat
  | 0, lvl, _ => lvl
  | fuel + 1, lvl, cur =>
    if cur ≤ dbl (W - 1) then
      maxPossibleLoop total fuel (lvl + 1) (dbl (cur + dbl (dbl total * 8 ^ lvl)))
    else lvl

/-- `get_maximum_possible_refinement_level`, dccrg_mapping.hpp:317-330. -/
def maxPossible (m : Mapping) : Int := (maxPossibleLoop m.total 343 0 0 : Int) - 2

/-- `set_maximum_refinement_level`, dccrg_mapping.hpp:137-146. -/
def setMaxLvl (m : Mapping) (given : Int) : Bool × Mapping :=
  if given ≤ m.maxPossible then (true, updateLastCell { m with maxLvl := given }) else (false, m)

/-- Grid length in smallest-cell indices as compared in dccrg_mapping.hpp:158-168. -/
def nIdx (m : Mapping) (d : Fin 3) : Nat := wmul (m.len d) (wshl1 m.maxLvl.toNat)

/-- `get_cell_from_indices`, dccrg_mapping.hpp:154-209. -/
def cellFromIndices (m : Mapping) (p : V3 Nat) (lvl : Int) : Nat :=
  if p 0 ≥ m.nIdx 0 then errorCell
  else if p 1 ≥ m.nIdx 1 then errorCell
  else if p 2 ≥ m.nIdx 2 then errorCell
  else if lvl < 0 then errorCell
  else if lvl > m.maxLvl then errorCell
  else
    let l := lvl.toNat
    let cell := m.sumLevels 1 l
    let s := wshl1 (m.maxLvl - lvl).toNat
    let n0 := wmul (m.len 0) (wshl1 l)
    let n1 := wmul (m.len 1) (wshl1 l)
    wadd cell (wadd (wadd (p 0 / s) (wmul (p 1 / s) n0)) (wmul (wmul (p 2 / s) n0) n1))

/-- Loop of `get_refinement_level`, dccrg_mapping.hpp:268-288; the first argument is the number
of levels left. -/
def levelLoop (m : Mapping) (cell : Nat) : Nat → Nat → Nat → Int
  | 0, _, _ => -1
  | f + 1, lvl, cur =>
    let cur' := wadd cur (wmul m.total (wshl1 (3 * lvl)))
    if cell ≤ cur' then lvl else levelLoop m cell f (lvl + 1) cur'

/-- `get_refinement_level`, dccrg_mapping.hpp:262-290. -/
def getLevel (m : Mapping) (cell : Nat) : Int :=
  if cell = errorCell ∨ cell > m.lastCell then -1
  else m.levelLoop cell (m.maxLvl + 1).toNat 0 0

/-- Subtraction loop of `get_indices`, dccrg_mapping.hpp:227-233. -/
def subLevels (m : Mapping) (cell : Nat) : Nat → Nat
  | 0 => cell
  | k + 1 => wsub (subLevels m cell k) (wmul m.total (wshl1 (k * 3)))

/-- `get_indices`, dccrg_mapping.hpp:218-254. -/
def getIndices (m : Mapping) (cell : Nat) : V3 Nat :=
  if cell = errorCell ∨ cell > m.lastCell then fun _ => errorIndex
  else
    let lvl := m.getLevel cell
    let l := lvl.toNat
    let r := wsub (m.subLevels cell l) 1
    let s := wshl1 (m.maxLvl - lvl).toNat
    v3 (wmul (r % wmul (m.len 0) (wshl1 l)) s)
       (wmul (r / wmul (m.len 0) (wshl1 l) % wmul (m.len 1) (wshl1 l)) s)
       (wmul (r / wmul (wmul (m.len 0) (m.len 1)) (wshl1 (2 * l))) s)

/-- `get_cell_length_in_indices`, dccrg_mapping.hpp:298-311. -/
def cellLength (m : Mapping) (cell : Nat) : Nat :=
  if cell = errorCell then errorIndex
  else if m.getLevel cell < 0 then errorIndex
  else wshl1 (m.maxLvl - m.getLevel cell).toNat

/-- `get_child`, dccrg_mapping.hpp:339-357. -/
def getChild (m : Mapping) (cell : Nat) : Nat :=
  if cell = errorCell ∨ cell > m.lastCell then errorCell
  else if m.getLevel cell ≥ m.maxLvl then cell
  else m.cellFromIndices (m.getIndices cell) (m.getLevel cell + 1)

/-- `get_parent`, dccrg_mapping.hpp:368-384. -/
def getParent (m : Mapping) (cell : Nat) : Nat :=
  let lvl := m.getLevel cell
  if lvl < 0 ∨ lvl > m.maxLvl then errorCell
  else if lvl = 0 then cell
  else m.cellFromIndices (m.getIndices cell) (lvl - 1)

/-- `get_all_children`, dccrg_mapping.hpp:392-442. The three nested loops visit the offsets
`0` and `index_offset` in each dimension. -/
def allChildren (m : Mapping) (cell : Nat) : List Nat :=
  if cell = errorCell then List.replicate 8 errorCell
  else if m.getLevel cell ≥ m.maxLvl then List.replicate 8 errorCell
  else
    let p := m.getIndices cell
    let lvl := m.getLevel cell + 1
    let off := wshl1 (m.maxLvl - lvl).toNat
    octants.map fun o => m.cellFromIndices (fun d => wadd (p d) (o d * off)) lvl

/-- `get_siblings`, dccrg_mapping.hpp:450-471. -/
def siblings (m : Mapping) (cell : Nat) : List Nat :=
  let lvl := m.getLevel cell
  if lvl < 0 ∨ lvl > m.maxLvl then List.replicate 8 errorCell
  else if lvl = 0 then cell :: List.replicate 7 errorCell
  else m.allChildren (m.getParent cell)

/-- `get_level_0_parent`, dccrg_mapping.hpp:480-494. -/
def level0Parent (m : Mapping) (cell : Nat) : Nat :=
  let lvl := m.getLevel cell
  if lvl < 0 ∨ lvl > m.maxLvl then errorCell
  else if lvl = 0 then cell
  else m.cellFromIndices (m.getIndices cell) 0

end Mapping
end Dccrg
