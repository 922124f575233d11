import Verif.Mapping64
/-!
# Geometries

Models of dccrg_no_geometry.hpp, dccrg_cartesian_geometry.hpp and
dccrg_stretched_cartesian_geometry.hpp. Simplification: `double` arithmetic is exact (`Rat`); a quiet NaN
is `none`; infinities are not modelled here. `length` of each geometry is that of its mapping and `per`
is its topology.
-/
namespace Dccrg

/-- A `double`: a number or NaN. -/
abbrev Num := Option Rat

/-- One dimension of `get_real_coordinate` (dccrg_cartesian_geometry.hpp:537-564,
dccrg_stretched_cartesian_geometry.hpp:518-545, dccrg_no_geometry.hpp:409-436 where the start is 0), for
a dimension from `a` to `b`. Comparisons with NaN are false and arithmetic gives NaN. -/
def realCoord (per : Bool) (a b : Rat) : Num → Num
  | none => none
  | some x =>
    if a ≤ x ∧ x ≤ b then some x
    else if per then
      if x < a then some (x + (b - a) * (((a - x) / (b - a)).ceil : Rat))
      else some (x - (b - a) * (((x - b) / (b - a)).ceil : Rat))
    else none

/-- `uint64_t(1) << k` converted to `double`. -/
def scale (k : Int) : Rat := (wshl1 k.toNat : Rat)

/-! ## Cartesian_Geometry -/

/-- `Cartesian_Geometry_Parameters` (dccrg_cartesian_geometry.hpp:50-58). -/
structure Cartesian where
  start : V3 Rat
  len : V3 Rat

namespace Cartesian

/-- Default parameters (dccrg_cartesian_geometry.hpp:60-69). -/
def init : Cartesian := { start := fun _ => 0, len := fun _ => 1 }

variable (m : Mapping) (per : V3 Bool) (G : Cartesian)

/-- `get_start` (dccrg_cartesian_geometry.hpp:226-234). -/
def getStart : V3 Rat := v3 (G.start 0) (G.start 1) (G.start 2)

/-- `get_end` (dccrg_cartesian_geometry.hpp:244-266). -/
def getEnd : V3 Rat :=
  v3 (G.getStart 0 + (m.len 0 : Rat) * G.len 0)
     (G.getStart 1 + (m.len 1 : Rat) * G.len 1)
     (G.getStart 2 + (m.len 2 : Rat) * G.len 2)

/-- `get_length` (dccrg_cartesian_geometry.hpp:284-309). -/
def getLength (cell : Nat) : V3 Num :=
  let lvl := m.getLevel cell
  if cell = errorCell ∨ lvl < 0 ∨ lvl > m.maxLvl then fun _ => none
  else
    let f := 1 / scale lvl
    v3 (some (G.len 0 * f)) (some (G.len 1 * f)) (some (G.len 2 * f))

/-- `get_center(cell)` (dccrg_cartesian_geometry.hpp:318-364). -/
def getCenter (cell : Nat) : V3 Num :=
  let lvl := m.getLevel cell
  if cell = errorCell ∨ lvl < 0 ∨ lvl > m.maxLvl then fun _ => none
  else
    let p := m.getIndices cell
    let L := G.getLength m cell
    v3 ((L 0).map fun x => G.getStart 0 + (p 0 : Rat) * G.len 0 / scale m.maxLvl + x / 2)
       ((L 1).map fun x => G.getStart 1 + (p 1 : Rat) * G.len 1 / scale m.maxLvl + x / 2)
       ((L 2).map fun x => G.getStart 2 + (p 2 : Rat) * G.len 2 / scale m.maxLvl + x / 2)

/-- `get_min` (dccrg_cartesian_geometry.hpp:378-389). -/
def getMin (cell : Nat) : V3 Num := fun d =>
  (G.getCenter m cell d).bind fun x => (G.getLength m cell d).map fun y => x - y / 2

/-- `get_max` (dccrg_cartesian_geometry.hpp:403-414). -/
def getMax (cell : Nat) : V3 Num := fun d =>
  (G.getCenter m cell d).bind fun x => (G.getLength m cell d).map fun y => x + y / 2

/-- `get_center(refinement_level, index)` (dccrg_cartesian_geometry.hpp:423-485). -/
def getCenterAt (lvl : Int) (p : V3 Nat) : V3 Num :=
  if lvl < 0 ∨ lvl > m.maxLvl then fun _ => none
  else if p 0 > m.nIdx 0 ∨ p 1 > m.nIdx 1 ∨ p 2 > m.nIdx 2 then fun _ => none
  else
    let f := 1 / scale m.maxLvl
    let f' := 1 / scale lvl / 2
    v3 (some (G.getStart 0 + (p 0 : Rat) * G.len 0 * f + G.len 0 * f'))
       (some (G.getStart 1 + (p 1 : Rat) * G.len 1 * f + G.len 1 * f'))
       (some (G.getStart 2 + (p 2 : Rat) * G.len 2 * f + G.len 2 * f'))

/-- `get_real_coordinate` (dccrg_cartesian_geometry.hpp:523-567). -/
def getRealCoordinate (x : V3 Num) : V3 Num := fun d =>
  realCoord (per d) (G.getStart d) (G.getEnd m d) (x d)

/-- `get_indices` (dccrg_cartesian_geometry.hpp:576-609). The converted number is not negative and
below 2^64 whenever grid lengths fit, see `Mapping.OK`. -/
def getIndices (x : V3 Num) : V3 Nat := fun d =>
  match G.getRealCoordinate m per x d with
  | none => errorIndex
  | some y =>
    if G.getStart d ≤ y ∧ y ≤ G.getEnd m d then
      ((y - G.getStart d) / (G.len d / scale m.maxLvl)).floor.toNat
    else errorIndex

/-- `get_cell` (dccrg_cartesian_geometry.hpp:494-509). -/
def getCell (lvl : Int) (x : V3 Num) : Nat :=
  if lvl < 0 ∨ lvl > m.maxLvl then errorCell
  else m.cellFromIndices (G.getIndices m per x) lvl

end Cartesian

/-! ## No_Geometry -/

namespace NoGeometry
variable (m : Mapping) (per : V3 Bool)

/-- `get_start` (dccrg_no_geometry.hpp:141-145). -/
def getStart : V3 Rat := fun _ => 0

/-- `get_end` (dccrg_no_geometry.hpp:155-165). -/
def getEnd : V3 Rat := v3 (m.len 0 : Rat) (m.len 1 : Rat) (m.len 2 : Rat)

/-- `get_length` (dccrg_no_geometry.hpp:183-208). -/
def getLength (cell : Nat) : V3 Num :=
  let lvl := m.getLevel cell
  if cell = errorCell ∨ lvl < 0 ∨ lvl > m.maxLvl then fun _ => none
  else fun _ => some (1 / scale lvl)

/-- `get_center(cell)` (dccrg_no_geometry.hpp:217-252). -/
def getCenter (cell : Nat) : V3 Num :=
  let lvl := m.getLevel cell
  if cell = errorCell ∨ lvl < 0 ∨ lvl > m.maxLvl then fun _ => none
  else
    let p := m.getIndices cell
    let L := getLength m cell
    v3 ((L 0).map fun x => (p 0 : Rat) / scale m.maxLvl + x / 2)
       ((L 1).map fun x => (p 1 : Rat) / scale m.maxLvl + x / 2)
       ((L 2).map fun x => (p 2 : Rat) / scale m.maxLvl + x / 2)

/-- `get_min` (dccrg_no_geometry.hpp:266-277). -/
def getMin (cell : Nat) : V3 Num := fun d =>
  (getCenter m cell d).bind fun x => (getLength m cell d).map fun y => x - y / 2

/-- `get_max` (dccrg_no_geometry.hpp:291-302). -/
def getMax (cell : Nat) : V3 Num := fun d =>
  (getCenter m cell d).bind fun x => (getLength m cell d).map fun y => x + y / 2

/-- `get_center(refinement_level, index)` (dccrg_no_geometry.hpp:311-362). -/
def getCenterAt (lvl : Int) (p : V3 Nat) : V3 Num :=
  if lvl < 0 ∨ lvl > m.maxLvl then fun _ => none
  else if p 0 > m.nIdx 0 ∨ p 1 > m.nIdx 1 ∨ p 2 > m.nIdx 2 then fun _ => none
  else
    let f := 1 / scale m.maxLvl
    let f' := 1 / scale lvl / 2
    v3 (some ((p 0 : Rat) * f + f')) (some ((p 1 : Rat) * f + f')) (some ((p 2 : Rat) * f + f'))

/-- `get_real_coordinate` (dccrg_no_geometry.hpp:397-440). -/
def getRealCoordinate (x : V3 Num) : V3 Num := fun d => realCoord (per d) 0 (getEnd m d) (x d)

/-- `get_indices` (dccrg_no_geometry.hpp:447-475). -/
def getIndices (x : V3 Num) : V3 Nat := fun d =>
  match getRealCoordinate m per x d with
  | none => errorIndex
  | some y => if 0 ≤ y ∧ y ≤ getEnd m d then (y * scale m.maxLvl).floor.toNat else errorIndex

/-- `get_cell` (dccrg_no_geometry.hpp:371-383). -/
def getCell (lvl : Int) (x : V3 Num) : Nat :=
  if lvl < 0 ∨ lvl > m.maxLvl then errorCell
  else m.cellFromIndices (getIndices m per x) lvl

end NoGeometry

/-! ## Stretched_Cartesian_Geometry -/

/-- `Stretched_Cartesian_Geometry_Parameters` (dccrg_stretched_cartesian_geometry.hpp:48-58). -/
structure Stretched where
  coords : V3 (List Rat)

/-- Index given to a coordinate: `error_index` outside of the grid, an index, or undefined behavior
because of reading outside of the vector of coordinates. -/
inductive Loc where
  | outside
  | at (p : Nat)
  | undefined
deriving DecidableEq

/-- First loop of `get_indices` (dccrg_stretched_cartesian_geometry.hpp:580-583): first position whose
coordinate is not smaller; `none` if the loop reads outside of the vector. -/
def skipSmaller (x : Rat) : List Rat → Nat → Option Nat
  | [], _ => none
  | a :: l, i => if a < x then skipSmaller x l (i + 1) else some i

/-- Second loop of `get_indices` (dccrg_stretched_cartesian_geometry.hpp:592-598), at most `fuel` steps
(`none` if more are needed). -/
def skipOffsets (a h x : Rat) : Nat → Nat → Option Nat
  | 0, k => if a + (k : Rat) * h < x then none else some k
  | fuel + 1, k => if a + (k : Rat) * h < x then skipOffsets a h x fuel (k + 1) else some k

namespace Stretched
variable (m : Mapping) (per : V3 Bool) (G : Stretched)

/-- `coordinates[dimension][i]`; positions outside of the vector are undefined behavior in C++ and 0 here,
theorems only use positions inside. -/
def coord (d : Fin 3) (i : Nat) : Rat := (G.coords d).getD i 0

/-- `get_start` (dccrg_stretched_cartesian_geometry.hpp:261-269). -/
def getStart : V3 Rat := v3 (G.coord 0 0) (G.coord 1 0) (G.coord 2 0)

/-- `get_end` (dccrg_stretched_cartesian_geometry.hpp:279-289). -/
def getEnd : V3 Rat := v3 (G.coord 0 (m.len 0)) (G.coord 1 (m.len 1)) (G.coord 2 (m.len 2))

/-- `get_level_0_cell_coord_start_index` (dccrg_stretched_cartesian_geometry.hpp:617-643). -/
def startIndex (cell : Nat) : V3 Nat :=
  let lvl := m.getLevel cell
  if cell = errorCell ∨ lvl < 0 ∨ lvl > m.maxLvl then fun _ => errorIndex
  else
    let p := m.getIndices cell
    let s := wshl1 m.maxLvl.toNat
    v3 (p 0 / s) (p 1 / s) (p 2 / s)

/-- `get_length` (dccrg_stretched_cartesian_geometry.hpp:298-337). -/
def getLength (cell : Nat) : V3 Num :=
  let lvl := m.getLevel cell
  if cell = errorCell ∨ lvl < 0 ∨ lvl > m.maxLvl then fun _ => none
  else
    let q := startIndex m cell
    let s := scale lvl
    v3 (some ((G.coord 0 (q 0 + 1) - G.coord 0 (q 0)) / s))
       (some ((G.coord 1 (q 1 + 1) - G.coord 1 (q 1)) / s))
       (some ((G.coord 2 (q 2 + 1) - G.coord 2 (q 2)) / s))

/-- `get_center(cell)` (dccrg_stretched_cartesian_geometry.hpp:346-403). -/
def getCenter (cell : Nat) : V3 Num :=
  let lvl := m.getLevel cell
  if cell = errorCell ∨ lvl < 0 ∨ lvl > m.maxLvl then fun _ => none
  else
    let p := m.getIndices cell
    let q := startIndex m cell
    let s := wshl1 m.maxLvl.toNat
    let h : V3 Rat := v3 ((G.coord 0 (q 0 + 1) - G.coord 0 (q 0)) / scale m.maxLvl)
      ((G.coord 1 (q 1 + 1) - G.coord 1 (q 1)) / scale m.maxLvl)
      ((G.coord 2 (q 2 + 1) - G.coord 2 (q 2)) / scale m.maxLvl)
    let L := G.getLength m cell
    v3 ((L 0).map fun x => G.coord 0 (q 0) + h 0 * (wsub (p 0) (wmul (q 0) s) : Rat) + x / 2)
       ((L 1).map fun x => G.coord 1 (q 1) + h 1 * (wsub (p 1) (wmul (q 1) s) : Rat) + x / 2)
       ((L 2).map fun x => G.coord 2 (q 2) + h 2 * (wsub (p 2) (wmul (q 2) s) : Rat) + x / 2)

/-- `get_min` (dccrg_stretched_cartesian_geometry.hpp:417-428). -/
def getMin (cell : Nat) : V3 Num := fun d =>
  (G.getCenter m cell d).bind fun x => (G.getLength m cell d).map fun y => x - y / 2

/-- `get_max` (dccrg_stretched_cartesian_geometry.hpp:442-453). -/
def getMax (cell : Nat) : V3 Num := fun d =>
  (G.getCenter m cell d).bind fun x => (G.getLength m cell d).map fun y => x + y / 2

/-- `get_center(indices, refinement_level)` (dccrg_stretched_cartesian_geometry.hpp:462-467). -/
def getCenterAt (lvl : Int) (p : V3 Nat) : V3 Num := G.getCenter m (m.cellFromIndices p lvl)

/-- `get_real_coordinate` (dccrg_stretched_cartesian_geometry.hpp:504-548). -/
def getRealCoordinate (x : V3 Num) : V3 Num := fun d =>
  realCoord (per d) (G.getStart d) (G.getEnd m d) (x d)

/-- One dimension of `get_indices` (dccrg_stretched_cartesian_geometry.hpp:571-603). Decrementing 0
wraps around and the next read of the vector is outside of it (line 587), which is undefined. -/
def locate (d : Fin 3) : Num → Loc
  | none => .outside
  | some x =>
    if G.getStart d ≤ x ∧ x ≤ G.getEnd m d then
      match skipSmaller x (G.coords d) 0 with
      | none => .undefined
      | some 0 => .undefined
      | some (i + 1) =>
        let s := wshl1 m.maxLvl.toNat
        let h := (G.coord d (i + 1) - G.coord d i) / scale m.maxLvl
        match skipOffsets (G.coord d i) h x s 0 with
        | none => .undefined
        | some k => .at (wadd (wmul i s) (wsub k 1))
    else .outside

/-- `get_indices` (dccrg_stretched_cartesian_geometry.hpp:557-607); the given coordinate is not passed
through `get_real_coordinate`. -/
def getIndices (x : V3 Num) : V3 Loc := fun d => G.locate m d (x d)

/-- `get_cell` (dccrg_stretched_cartesian_geometry.hpp:475-490); `none` if undefined. -/
def getCell (lvl : Int) (x : V3 Num) : Option Nat :=
  if lvl < 0 ∨ lvl > m.maxLvl then some errorCell
  else
    let p := G.getIndices m x
    if p 0 = .undefined ∨ p 1 = .undefined ∨ p 2 = .undefined then none
    else some (m.cellFromIndices (fun d => match p d with | .at k => k | _ => errorIndex) lvl)

end Stretched
end Dccrg
