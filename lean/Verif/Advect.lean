import Verif.Query
import Verif.Hist
/-!
# The solver of the advection test

Cells which share a face are found from offsets of neighbors in `cell.neighbors_of`. Numbers of the solver are rational
numbers instead of `double`, i.e. its calculations are exact.
-/
namespace Dccrg
variable {n : Nat} {W : Type}

/-- What has been found from offsets of a neighbor: number of dimensions in which it overlaps with the cell and
direction. -/
structure Overlapping where
  number : Nat
  direction : Int

/-- One of the three conditionals (tests/advection/solve.hpp:76-82, 84-90 and 92-98): `cl` and `nl` are lengths of
the cell and its neighbor, `off` is the offset in dimension `d`. -/
def overlapIn (cl nl : Int) (off : V3 Int) (d : Fin 3) (x : Overlapping) : Overlapping :=
  if off d < cl ∧ off d > -nl then { x with number := x.number + 1 }
  else if off d = cl then { x with direction := (d.val : Int) + 1 }
  else if off d = -nl then { x with direction := -((d.val : Int) + 1) }
  else x

/-- Direction of a neighbor which shares a face with the cell (tests/advection/solve.hpp:70-120), `none` is `continue`.
The program aborts if
the cells overlap. Lengths are converted to `int`, they are at most 2^21 so that is not modelled. -/
def fluxDir (cl nl : Int) (off : V3 Int) : Out (Option Int) :=
  let x := overlapIn cl nl off 2 (overlapIn cl nl off 1 (overlapIn cl nl off 0 ⟨0, 0⟩))
  if x.number < 2 then .ok none
  else if x.number > 2 then .throws
  else if x.direction = 0 then .ok none
  else .ok (some x.direction)

/-- Data of a cell (tests/advection/cell.hpp:27-140) without the difference used for adapting the grid. -/
structure AdvCell where
  density : Rat
  flux : Rat
  len : V3 Rat
  v : V3 Rat

/-- `cell_volume` and `neighbor_volume` (tests/advection/solve.hpp:61-64, 133). -/
def AdvCell.volume (a : AdvCell) : Rat := a.len 0 * a.len 1 * a.len 2

/-- Dimension of a direction, as chosen by the switches. -/
def dimOf (k : Int) : Fin 3 := if k = 1 ∨ k = -1 then 0 else if k = 2 ∨ k = -2 then 1 else 2

/-- `min_area` (tests/advection/solve.hpp:135-158). -/
def minArea (a b : AdvCell) (k : Int) : Rat :=
  match dimOf k with
  | 0 => min (a.len 1 * a.len 2) (b.len 1 * b.len 2)
  | 1 => min (a.len 0 * a.len 2) (b.len 0 * b.len 2)
  | 2 => min (a.len 0 * a.len 1) (b.len 0 * b.len 1)

/-- `vx`, `vy` or `vz` at the face (tests/advection/solve.hpp:168-175). -/
def faceSpeed (a b : AdvCell) (d : Fin 3) : Rat := (a.len d * b.v d + b.len d * a.v d) / (a.len d + b.len d)

/-- `flux` (tests/advection/solve.hpp:160-225) of a cell with data `a` and its neighbor with data `b` in direction `k`. -/
def faceFlux (dt : Rat) (a b : AdvCell) (k : Int) : Rat :=
  let v := faceSpeed a b (dimOf k)
  let area := minArea a b k
  if k > 0 then
    if v ≥ 0 then a.density * dt * v * area else b.density * dt * v * area
  else
    if v ≥ 0 then b.density * dt * v * area else a.density * dt * v * area

/-- `cell.data->flux() += x`. Behavior is undefined if there is no data. -/
def addFlux (p : Proc n AdvCell W) (c : Nat) (x : Rat) : Out (Proc n AdvCell W) :=
  match access p c with
  | none => .undef
  | some a => .ok (write p c { a with flux := a.flux + x })

/-- Body of the loop over neighbors of cell `c` (tests/advection/solve.hpp:71-235) on process `i`. Density and volume of
the cell are read before the loop, which does not change them. Density and volume of a neighbor are read before `flux` is
saved. The list that is used only for debugging is not modelled. -/
def fluxNeighbor (g : Cfg) (dt : Rat) (i : Fin n) (c : Nat) (y : Nat × V3 Int) (p : Proc n AdvCell W) :
    Out (Proc n AdvCell W) :=
  (fluxDir (g.side c) (g.side y.1) y.2).bind fun r =>
  match r with
  | none => .ok p
  | some k =>
    if p.owner y.1 = some i ∧ k < 0 then .ok p
    else match access p c, access p y.1 with
      | some a, some b =>
        let flux := faceFlux dt a b k
        if k > 0 then (addFlux p c (-(flux / a.volume))).bind fun q => addFlux q y.1 (flux / b.volume)
        else (addFlux p c (flux / a.volume)).bind fun q => addFlux q y.1 (-(flux / b.volume))
      | _, _ => .undef

/-- `calculate_fluxes` (tests/advection/solve.hpp:44-266) with iterators of neighborhood `id`. -/
def calculateFluxes (g : Cfg) (dt : Rat) (inner : Bool) (i : Fin n) (p : Proc n AdvCell W) (id : Int) :
    Out (Proc n AdvCell W) :=
  (updatePointers g i p id).bind fun k =>
    Out.fold (fun x q => Out.fold (fluxNeighbor g dt i x.id) (range k.nbrs x.of) q)
      (range k.cells (if inner then k.inner else k.outer)) p

/-- Body of the loop in `apply_fluxes` (tests/advection/solve.hpp:275-278). -/
def applyFlux (c : Nat) (p : Proc n AdvCell W) : Out (Proc n AdvCell W) :=
  match access p c with
  | none => .undef
  | some a => .ok (write p c { a with density := a.density + a.flux, flux := 0 })

/-- `apply_fluxes` (tests/advection/solve.hpp:272-279). -/
def applyFluxes (g : Cfg) (i : Fin n) (p : Proc n AdvCell W) (id : Int) : Out (Proc n AdvCell W) :=
  (updatePointers g i p id).bind fun k => Out.fold (fun x => applyFlux x.id) (range k.cells k.loc) p

/-- One turn on all processes (tests/advection/2d.cpp:327-343, 390). Copies of remote neighbors are not used when fluxes
of inner cells are calculated, here they are updated after that; messages have all data instead of
density, other members of cells do not change except `flux`, which is not used from copies. -/
def advectTurn (g : Cfg) (maxTag : Nat) (id : Int) (dt : Rat) (s : Sys n AdvCell W) : Out (Sys n AdvCell W) :=
  (Out.collect fun i => calculateFluxes g dt true i (s i) id).bind fun s1 =>
  (updateRemote g maxTag id s1).bind fun r =>
  (Out.collect fun i => calculateFluxes g dt false i (r i).2 id).bind fun s3 =>
  Out.collect fun i => applyFluxes g i (s3 i) id

end Dccrg
