import Verif.Double
/-!
# Geometries computed with `double`

The functions of `Verif.Geom` as the code computes them, in the order of operations of the code and rounding after each
of them. Calls of `get_indices` and `get_cell` are undefined (`none`) if a number that does not fit is converted to
`uint64_t`.
-/
namespace Dccrg

/-- `double(uint64_t(1) << k)` -/
def scaleD (k : Int) : Val := .ofNat (wshl1 k.toNat)

/-- One dimension of `get_real_coordinate` (dccrg_cartesian_geometry.hpp:537-564,
dccrg_stretched_cartesian_geometry.hpp:518-545), for a dimension from `a` to `b`. -/
def realCoordD (per : Bool) (a b x : Val) : Val :=
  if a.le x ∧ x.le b then x
  else if per then
    let len := b.sub a
    if x.lt a then
      let distance := a.sub x
      x.add (len.mul (distance.div len).ceil)
    else
      let distance := x.sub b
      x.sub (len.mul (distance.div len).ceil)
  else .nan

/-- `Cartesian_Geometry_Parameters` (dccrg_cartesian_geometry.hpp:43-58). -/
structure CartesianD where
  start : V3 Val
  len : V3 Val

namespace CartesianD

/-- Default parameters (dccrg_cartesian_geometry.hpp:60-69). -/
def init : CartesianD := { start := fun _ => .fin 0, len := fun _ => .fin 1 }

variable (m : Mapping) (per : V3 Bool) (G : CartesianD)

/-- `get_start` (dccrg_cartesian_geometry.hpp:226-234). -/
def getStart : V3 Val := v3 (G.start 0) (G.start 1) (G.start 2)

/-- `get_end` (dccrg_cartesian_geometry.hpp:244-266). -/
def getEnd : V3 Val :=
  v3 ((G.getStart 0).add ((Val.ofNat (m.len 0)).mul (G.len 0)))
     ((G.getStart 1).add ((Val.ofNat (m.len 1)).mul (G.len 1)))
     ((G.getStart 2).add ((Val.ofNat (m.len 2)).mul (G.len 2)))

/-- `get_length` (dccrg_cartesian_geometry.hpp:284-309). -/
def getLength (cell : Nat) : V3 Val :=
  let lvl := m.getLevel cell
  if cell = errorCell ∨ lvl < 0 ∨ lvl > m.maxLvl then fun _ => .nan
  else
    let f := (Val.fin 1).div (scaleD lvl)
    v3 ((G.len 0).mul f) ((G.len 1).mul f) ((G.len 2).mul f)

/-- `get_center(cell)` (dccrg_cartesian_geometry.hpp:318-364). -/
def getCenter (cell : Nat) : V3 Val :=
  let lvl := m.getLevel cell
  if cell = errorCell ∨ lvl < 0 ∨ lvl > m.maxLvl then fun _ => .nan
  else
    let p := m.getIndices cell
    let L := G.getLength m cell
    v3 (((G.getStart 0).add (((Val.ofNat (p 0)).mul (G.len 0)).div (scaleD m.maxLvl))).add ((L 0).div (.fin 2)))
       (((G.getStart 1).add (((Val.ofNat (p 1)).mul (G.len 1)).div (scaleD m.maxLvl))).add ((L 1).div (.fin 2)))
       (((G.getStart 2).add (((Val.ofNat (p 2)).mul (G.len 2)).div (scaleD m.maxLvl))).add ((L 2).div (.fin 2)))

/-- `get_min` (dccrg_cartesian_geometry.hpp:378-389). -/
def getMin (cell : Nat) : V3 Val := fun d =>
  (G.getCenter m cell d).sub ((G.getLength m cell d).div (.fin 2))

/-- `get_max` (dccrg_cartesian_geometry.hpp:403-414). -/
def getMax (cell : Nat) : V3 Val := fun d =>
  (G.getCenter m cell d).add ((G.getLength m cell d).div (.fin 2))

/-- `get_center(refinement_level, index)` (dccrg_cartesian_geometry.hpp:423-485). -/
def getCenterAt (lvl : Int) (p : V3 Nat) : V3 Val :=
  if lvl < 0 ∨ lvl > m.maxLvl then fun _ => .nan
  else if p 0 > m.nIdx 0 ∨ p 1 > m.nIdx 1 ∨ p 2 > m.nIdx 2 then fun _ => .nan
  else
    let f := (Val.fin 1).div (scaleD m.maxLvl)
    let f' := ((Val.fin 1).div (scaleD lvl)).div (.fin 2)
    v3 (((G.getStart 0).add (((Val.ofNat (p 0)).mul (G.len 0)).mul f)).add ((G.len 0).mul f'))
       (((G.getStart 1).add (((Val.ofNat (p 1)).mul (G.len 1)).mul f)).add ((G.len 1).mul f'))
       (((G.getStart 2).add (((Val.ofNat (p 2)).mul (G.len 2)).mul f)).add ((G.len 2).mul f'))

/-- `get_real_coordinate` (dccrg_cartesian_geometry.hpp:523-567). -/
def getRealCoordinate (x : V3 Val) : V3 Val := fun d =>
  realCoordD (per d) (G.getStart d) (G.getEnd m d) (x d)

/-- One dimension of `get_indices` (dccrg_cartesian_geometry.hpp:576-609). -/
def locate (d : Fin 3) (y : Val) : Option Nat :=
  if (G.getStart d).le y ∧ y.le (G.getEnd m d) then
    ((y.sub (G.getStart d)).div ((G.len d).div (scaleD m.maxLvl))).floor.toU64
  else some errorIndex

/-- `get_indices` (dccrg_cartesian_geometry.hpp:576-609). -/
def getIndices (x : V3 Val) : Option (V3 Nat) :=
  (G.locate m 0 (G.getRealCoordinate m per x 0)).bind fun a =>
  (G.locate m 1 (G.getRealCoordinate m per x 1)).bind fun b =>
  (G.locate m 2 (G.getRealCoordinate m per x 2)).map fun c => v3 a b c

/-- `get_cell` (dccrg_cartesian_geometry.hpp:494-509). -/
def getCell (lvl : Int) (x : V3 Val) : Option Nat :=
  if lvl < 0 ∨ lvl > m.maxLvl then some errorCell
  else (G.getIndices m per x).map fun p => m.cellFromIndices p lvl

end CartesianD

namespace NoGeometryD
variable (m : Mapping) (per : V3 Bool)

/-- `get_start` (dccrg_no_geometry.hpp:141-145). -/
def getStart : V3 Val := fun _ => .fin 0

/-- `get_end` (dccrg_no_geometry.hpp:155-164). -/
def getEnd : V3 Val := v3 (.ofNat (m.len 0)) (.ofNat (m.len 1)) (.ofNat (m.len 2))

/-- `get_length` (dccrg_no_geometry.hpp:183-208). -/
def getLength (cell : Nat) : V3 Val :=
  let lvl := m.getLevel cell
  if cell = errorCell ∨ lvl < 0 ∨ lvl > m.maxLvl then fun _ => .nan
  else fun _ => (Val.fin 1).div (scaleD lvl)

/-- `get_center(cell)` (dccrg_no_geometry.hpp:217-252). -/
def getCenter (cell : Nat) : V3 Val :=
  let lvl := m.getLevel cell
  if cell = errorCell ∨ lvl < 0 ∨ lvl > m.maxLvl then fun _ => .nan
  else
    let p := m.getIndices cell
    let L := getLength m cell
    v3 (((Val.ofNat (p 0)).div (scaleD m.maxLvl)).add ((L 0).div (.fin 2)))
       (((Val.ofNat (p 1)).div (scaleD m.maxLvl)).add ((L 1).div (.fin 2)))
       (((Val.ofNat (p 2)).div (scaleD m.maxLvl)).add ((L 2).div (.fin 2)))

/-- `get_min` (dccrg_no_geometry.hpp:266-278). -/
def getMin (cell : Nat) : V3 Val := fun d => (getCenter m cell d).sub ((getLength m cell d).div (.fin 2))

/-- `get_max` (dccrg_no_geometry.hpp:292-304). -/
def getMax (cell : Nat) : V3 Val := fun d => (getCenter m cell d).add ((getLength m cell d).div (.fin 2))

/-- `get_center(refinement_level, index)` (dccrg_no_geometry.hpp:313-362). -/
def getCenterAt (lvl : Int) (p : V3 Nat) : V3 Val :=
  if lvl < 0 ∨ lvl > m.maxLvl then fun _ => .nan
  else if p 0 > m.nIdx 0 ∨ p 1 > m.nIdx 1 ∨ p 2 > m.nIdx 2 then fun _ => .nan
  else
    let f := (Val.fin 1).div (scaleD m.maxLvl)
    let f' := ((Val.fin 1).div (scaleD lvl)).div (.fin 2)
    v3 (((Val.ofNat (p 0)).mul f).add f') (((Val.ofNat (p 1)).mul f).add f') (((Val.ofNat (p 2)).mul f).add f')

/-- One dimension of `get_real_coordinate` (dccrg_no_geometry.hpp:408-435). -/
def realCoord0 (per : Bool) (b x : Val) : Val :=
  if (Val.fin 0).le x ∧ x.le b then x
  else if per then
    if x.lt (.fin 0) then x.add (b.mul (x.neg.div b).ceil)
    else x.sub (b.mul ((x.sub b).div b).ceil)
  else .nan

/-- `get_real_coordinate` (dccrg_no_geometry.hpp:397-438). -/
def getRealCoordinate (x : V3 Val) : V3 Val := fun d => realCoord0 (per d) (getEnd m d) (x d)

/-- One dimension of `get_indices` (dccrg_no_geometry.hpp:459-472). -/
def locate (d : Fin 3) (y : Val) : Option Nat :=
  if (Val.fin 0).le y ∧ y.le (getEnd m d) then (y.mul (scaleD m.maxLvl)).floor.toU64 else some errorIndex

/-- `get_indices` (dccrg_no_geometry.hpp:447-475). -/
def getIndices (x : V3 Val) : Option (V3 Nat) :=
  (locate m 0 (getRealCoordinate m per x 0)).bind fun a =>
  (locate m 1 (getRealCoordinate m per x 1)).bind fun b =>
  (locate m 2 (getRealCoordinate m per x 2)).map fun c => v3 a b c

/-- `get_cell` (dccrg_no_geometry.hpp:371-383). -/
def getCell (lvl : Int) (x : V3 Val) : Option Nat :=
  if lvl < 0 ∨ lvl > m.maxLvl then some errorCell
  else (getIndices m per x).map fun p => m.cellFromIndices p lvl

end NoGeometryD

end Dccrg
