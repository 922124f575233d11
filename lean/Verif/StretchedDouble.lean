import Verif.GeomDouble
/-!
# `Stretched_Cartesian_Geometry` computed with `double`

The functions of `Stretched` in `Verif.Geom` as the code computes them, rounding after each operation. Coordinates can be
any values, infinities and NaN included.
-/
namespace Dccrg

/-- Result of a function that can read outside of the vector of coordinates, or never return. -/
inductive Res (α : Type) where
  | ok (a : α)
  | undefined
  | hangs
deriving DecidableEq

/-- Next statement after a call. -/
def Res.bind {α β : Type} (r : Res α) (f : α → Res β) : Res β :=
  match r with
  | .ok a => f a
  | .undefined => .undefined
  | .hangs => .hangs

/-- `Stretched_Cartesian_Geometry_Parameters` (dccrg_stretched_cartesian_geometry.hpp:48-58). -/
structure StretchedD where
  coords : V3 (List Val)

/-- First loop of `get_indices` (dccrg_stretched_cartesian_geometry.hpp:580-583): first position whose
coordinate is not smaller; `none` if the loop reads outside of the vector. -/
def skipSmallerD (x : Val) : List Val → Nat → Option Nat
  | [], _ => none
  | a :: l, i => if a.lt x then skipSmallerD x l (i + 1) else some i

/-- Second loop of `get_indices` (dccrg_stretched_cartesian_geometry.hpp:592-598) for the values of `index_offset` from `k`
on, `fuel` of them; `none` if it does not stop at any of them. -/
def skipOffsetsD (a h x : Val) : Nat → Nat → Option Nat
  | 0, _ => none
  | fuel + 1, k => if (a.add ((Val.ofNat k).mul h)).lt x then skipOffsetsD a h x fuel (k + 1) else some k

namespace StretchedD
variable (m : Mapping) (per : V3 Bool) (G : StretchedD)

/-- `coordinates[dimension][i]`; positions outside of the vector are undefined behavior in C++ and NaN here,
theorems only use positions inside. -/
def coord (d : Fin 3) (i : Nat) : Val := (G.coords d).getD i .nan

/-- `get_start` (dccrg_stretched_cartesian_geometry.hpp:261-269). -/
def getStart : V3 Val := v3 (G.coord 0 0) (G.coord 1 0) (G.coord 2 0)

/-- `get_end` (dccrg_stretched_cartesian_geometry.hpp:279-289). -/
def getEnd : V3 Val := v3 (G.coord 0 (m.len 0)) (G.coord 1 (m.len 1)) (G.coord 2 (m.len 2))

/-- `get_length` (dccrg_stretched_cartesian_geometry.hpp:298-337). -/
def getLength (cell : Nat) : V3 Val :=
  let lvl := m.getLevel cell
  if cell = errorCell ∨ lvl < 0 ∨ lvl > m.maxLvl then fun _ => .nan
  else
    let q := Stretched.startIndex m cell
    let s := scaleD lvl
    v3 (((G.coord 0 (q 0 + 1)).sub (G.coord 0 (q 0))).div s)
       (((G.coord 1 (q 1 + 1)).sub (G.coord 1 (q 1))).div s)
       (((G.coord 2 (q 2 + 1)).sub (G.coord 2 (q 2))).div s)

/-- `get_center(cell)` (dccrg_stretched_cartesian_geometry.hpp:346-403). -/
def getCenter (cell : Nat) : V3 Val :=
  let lvl := m.getLevel cell
  if cell = errorCell ∨ lvl < 0 ∨ lvl > m.maxLvl then fun _ => .nan
  else
    let p := m.getIndices cell
    let q := Stretched.startIndex m cell
    let s := wshl1 m.maxLvl.toNat
    let h : V3 Val := v3 (((G.coord 0 (q 0 + 1)).sub (G.coord 0 (q 0))).div (scaleD m.maxLvl))
      (((G.coord 1 (q 1 + 1)).sub (G.coord 1 (q 1))).div (scaleD m.maxLvl))
      (((G.coord 2 (q 2 + 1)).sub (G.coord 2 (q 2))).div (scaleD m.maxLvl))
    let L := G.getLength m cell
    v3 (((G.coord 0 (q 0)).add ((h 0).mul (.ofNat (wsub (p 0) (wmul (q 0) s))))).add ((L 0).div (.fin 2)))
       (((G.coord 1 (q 1)).add ((h 1).mul (.ofNat (wsub (p 1) (wmul (q 1) s))))).add ((L 1).div (.fin 2)))
       (((G.coord 2 (q 2)).add ((h 2).mul (.ofNat (wsub (p 2) (wmul (q 2) s))))).add ((L 2).div (.fin 2)))

/-- `get_min` (dccrg_stretched_cartesian_geometry.hpp:417-428). -/
def getMin (cell : Nat) : V3 Val := fun d =>
  (G.getCenter m cell d).sub ((G.getLength m cell d).div (.fin 2))

/-- `get_max` (dccrg_stretched_cartesian_geometry.hpp:442-453). -/
def getMax (cell : Nat) : V3 Val := fun d =>
  (G.getCenter m cell d).add ((G.getLength m cell d).div (.fin 2))

/-- `get_center(indices, refinement_level)` (dccrg_stretched_cartesian_geometry.hpp:462-467). -/
def getCenterAt (lvl : Int) (p : V3 Nat) : V3 Val := G.getCenter m (m.cellFromIndices p lvl)

/-- `get_real_coordinate` (dccrg_stretched_cartesian_geometry.hpp:504-548). -/
def getRealCoordinate (x : V3 Val) : V3 Val := fun d =>
  realCoordD (per d) (G.getStart d) (G.getEnd m d) (x d)

/-- One dimension of `get_indices` (dccrg_stretched_cartesian_geometry.hpp:571-603). Decrementing `coord_start_index` of 0
wraps around and the next read of the vector is outside of it (line 587), which is undefined. Decrementing `index_offset`
of 0 wraps around and is defined. If no value of `index_offset` stops the second loop then it wraps around and the loop
never stops. -/
def locate (d : Fin 3) (x : Val) : Res Nat :=
  if (G.getStart d).le x ∧ x.le (G.getEnd m d) then
    match skipSmallerD x (G.coords d) 0 with
    | none => .undefined
    | some 0 => .undefined
    | some (i + 1) =>
      let s := wshl1 m.maxLvl.toNat
      let h := ((G.coord d (i + 1)).sub (G.coord d i)).div (scaleD m.maxLvl)
      match skipOffsetsD (G.coord d i) h x W 0 with
      | none => .hangs
      | some k => .ok (wadd (wmul i s) (wsub k 1))
  else .ok errorIndex

/-- `get_indices` (dccrg_stretched_cartesian_geometry.hpp:557-607); the given coordinate is not passed
through `get_real_coordinate`. -/
def getIndices (x : V3 Val) : Res (V3 Nat) :=
  (G.locate m 0 (x 0)).bind fun a =>
  (G.locate m 1 (x 1)).bind fun b =>
  (G.locate m 2 (x 2)).bind fun c => .ok (v3 a b c)

/-- `get_cell` (dccrg_stretched_cartesian_geometry.hpp:475-490). -/
def getCell (lvl : Int) (x : V3 Val) : Res Nat :=
  if lvl < 0 ∨ lvl > m.maxLvl then .ok errorCell
  else (G.getIndices m x).bind fun p => .ok (m.cellFromIndices p lvl)

end StretchedD

/-- Values of parameters of the geometry. -/
def StretchPar.toD (p : StretchPar) : StretchedD := { coords := fun d => (p.coords d).map Bits.val }

/-- Coordinates given to `set` by `set(const Cartesian_Geometry&)` (dccrg_stretched_cartesian_geometry.hpp:233-249), of a
grid of the same length. -/
def StretchedD.ofCartesian (m : Mapping) (G : CartesianD) : StretchedD :=
  { coords := fun d => (List.range (m.len d + 1)).map fun i => (G.getStart d).add ((Val.ofNat i).mul (G.len d)) }

end Dccrg
