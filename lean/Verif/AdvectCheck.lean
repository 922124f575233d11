import Verif.AdvectAdapt
/-!
# Deciding where to adapt the grid in the advection test, and the program

Differences of cells (`max_diff`) are used only inside of `check_for_adaptation`; here they are not stored in data of cells but
returned by the loop that calculates them.
-/
namespace Dccrg
variable {n : Nat} {W : Type}

/-- `is_face_neighbor` (tests/advection/adapter.hpp:77-92), from lengths of the cell and its neighbor and from the offset. -/
def isFaceNeighbor (cl nl : Int) (off : V3 Int) : Bool :=
  decide (((off 0 = cl ∨ off 0 = -nl) ∧ off 1 = 0 ∧ off 2 = 0) ∨ ((off 1 = cl ∨ off 1 = -nl) ∧ off 0 = 0 ∧ off 2 = 0) ∨
    ((off 2 = cl ∨ off 2 = -nl) ∧ off 0 = 0 ∧ off 1 = 0))

/-- `diff` (tests/advection/adapter.hpp:97-99). A divisor of zero gives zero instead of infinity or not a number. -/
def relativeDiff (threshold a b : Rat) : Rat :=
  (if a - b < 0 then -(a - b) else a - b) / (min a b + threshold)

/-- `max_diff` of cell `c` is at least `x` (tests/advection/adapter.hpp:101, 105). -/
def raiseDiff (m : Nat → Rat) (c : Nat) (x : Rat) : Nat → Rat := fun b => if b = c then max x (m c) else m b

/-- Body of the loop over neighbors (tests/advection/adapter.hpp:75-107) of cell `c` on process `i`. -/
def diffNeighbor (g : Cfg) (threshold : Rat) (i : Fin n) (p : Proc n AdvCell W) (c : Nat) (y : Nat × V3 Int) (m : Nat → Rat) :
    Out (Nat → Rat) :=
  if isFaceNeighbor (g.side c) (g.side y.1) y.2 then
    match access p c, access p y.1 with
    | some a, some b =>
      let x := relativeDiff threshold a.density b.density
      let m' := raiseDiff m c x
      .ok (if p.owner y.1 = some i then raiseDiff m' y.1 x else m')
    | _, _ => .undef
  else .ok m

/-- Maximum relative differences of local cells (tests/advection/adapter.hpp:66-109), which are zero at first. -/
def maxDiffs (g : Cfg) (threshold : Rat) (i : Fin n) (p : Proc n AdvCell W) (id : Int) : Out (Nat → Rat) :=
  (updatePointers g i p id).bind fun k =>
    Out.fold (fun x m => Out.fold (diffNeighbor g threshold i p x.id) (range k.nbrs x.of) m) (range k.cells k.loc) fun _ => 0

/-- Parameters of `check_for_adaptation`. -/
structure CheckParams where
  increase : Rat
  threshold : Rat
  sensitivity : Rat

/-- Cells to refine, not to unrefine and to unrefine. -/
structure CheckSets where
  refine : List Nat
  keep : List Nat
  unrefine : List Nat

/-- The difference above which a cell of given refinement level is refined (tests/advection/adapter.hpp:118). -/
def CheckParams.refineDiff (a : CheckParams) (lvl : Nat) : Rat := ((lvl : Rat) + 1) * a.increase

/-- The difference below which a cell is unrefined (tests/advection/adapter.hpp:119). -/
def CheckParams.unrefineDiff (a : CheckParams) (lvl : Nat) : Rat := a.sensitivity * a.refineDiff lvl

/-- Body of the last loop (tests/advection/adapter.hpp:112-180) for local cell `c` with difference `x`. A local cell has siblings, the
program does not abort. Sets are lists in which a cell can be more than once. -/
def checkCell (g : Cfg) (a : CheckParams) (c : Nat) (x : Rat) (z : CheckSets) : CheckSets :=
  let sib := g.siblings c
  if x > a.refineDiff (g.lvl c) then
    { refine := c :: z.refine
      keep := z.keep.filter fun b => !sib.contains b
      unrefine := z.unrefine.filter fun b => !sib.contains b }
  else if x ≥ a.unrefineDiff (g.lvl c) then
    if sib.all (fun b => !z.refine.contains b && !z.keep.contains b) ∧ 0 < g.lvl c then
      { z with keep := c :: z.keep, unrefine := z.unrefine.filter fun b => !sib.contains b }
    else z
  else
    if sib.all (fun b => !z.refine.contains b && !z.keep.contains b) ∧ 0 < g.lvl c then { z with unrefine := c :: z.unrefine }
    else z

/-- `check_for_adaptation` (tests/advection/adapter.hpp:47-181) on process `i`. Given sets are empty in the program when it is called and
maximum refinement level is 0. -/
def checkForAdaptation (g : Cfg) (a : CheckParams) (i : Fin n) (p : Proc n AdvCell W) (id : Int) : Out CheckSets :=
  if g.maxLvl = 0 then .ok ⟨[], [], []⟩
  else
    (maxDiffs g a.threshold i p id).bind fun m =>
    (updatePointers g i p id).bind fun k =>
      .ok ((range k.cells k.loc).foldl (fun z x => checkCell g a x.id (m x.id) z) ⟨[], [], []⟩)

/-- A step is used if it is a normal number (tests/advection/solve.hpp:302-310): velocity and length are not zero. -/
def stepIn (a : AdvCell) (d : Fin 3) (x : Rat) : Rat :=
  if a.v d = 0 ∨ a.len d = 0 then x else min (a.len d / (if a.v d < 0 then -a.v d else a.v d)) x

/-- The loop of `max_time_step` (tests/advection/solve.hpp:294-311). `big` is the largest `double`. -/
def minStep (g : Cfg) (big : Rat) (i : Fin n) (p : Proc n AdvCell W) (id : Int) : Out Rat :=
  (updatePointers g i p id).bind fun k =>
    Out.fold (fun x m =>
      match access p x.id with
      | none => .undef
      | some a => .ok (stepIn a 2 (stepIn a 1 (stepIn a 0 m)))) (range k.cells k.loc) big

/-- `max_time_step` (tests/advection/solve.hpp:287-331): the smallest of all processes. -/
def maxTimeStep (g : Cfg) (big : Rat) (id : Int) (s : Sys n AdvCell W) : Out Rat :=
  (Out.collect fun i => minStep g big i (s i) id).bind fun m =>
    .ok ((List.finRange n).foldl (fun x i => min (m i) x) big)

/-- What the program is given: initial densities, lengths and velocities of cells, parameters of adaptation and `cfl`. -/
structure AdvParams where
  density : Nat → Rat
  len : Nat → V3 Rat
  vel : Nat → V3 Rat
  check : CheckParams
  cfl : Rat
  big : Rat

/-- `check_for_adaptation` and `adapt_grid` on all processes, where the former has been called in state `s0`. -/
def adaptChecked (g : Cfg) (dflt : AdvCell) (maxTag : Nat) (a : AdvParams) (s0 s : Sys n AdvCell W) : Out (Sys n AdvCell W) :=
  (Out.collect fun i => checkForAdaptation g a.check i (s0 i) defaultId).bind fun z =>
    adaptGrid g dflt maxTag a.len a.vel defaultId (fun i => (z i).refine) (fun i => (z i).keep) (fun i => (z i).unrefine) s

/-- Body of the loop that refines the grid before simulation (tests/advection/2d.cpp:267-289). -/
def prerefine (g : Cfg) (dflt : AdvCell) (maxTag : Nat) (a : AdvParams) (s : Sys n AdvCell W) : Out (Sys n AdvCell W) :=
  (adaptChecked g dflt maxTag a s s).bind fun s1 => startAdvection g dflt maxTag a.density a.len a.vel s1

/-- State of the program in its main loop: the grid and length of the next step. -/
structure AdvState (n : Nat) (W : Type) where
  grid : Sys n AdvCell W
  dt : Rat

/-- The program before its main loop (tests/advection/2d.cpp:259-293), `k` is the number of refinement levels. -/
def advectStart (g : Cfg) (dflt : AdvCell) (maxTag : Nat) (a : AdvParams) (k : Nat) (s : Sys n AdvCell W) : Out (AdvState n W) :=
  (startAdvection g dflt maxTag a.density a.len a.vel s).bind fun s1 =>
  (Out.fold (fun _ s => prerefine g dflt maxTag a s) (List.range k) s1).bind fun s2 =>
  (maxTimeStep g a.big defaultId s2).bind fun dt => .ok ⟨s2, dt⟩

/-- Fluxes of a turn (tests/advection/2d.cpp:327-343), see `advectTurn`. -/
def advectFluxes (g : Cfg) (maxTag : Nat) (dt : Rat) (s : Sys n AdvCell W) : Out (Sys n AdvCell W) :=
  (Out.collect fun i => calculateFluxes g dt true i (s i) defaultId).bind fun s1 =>
  (updateRemote g maxTag defaultId s1).bind fun r =>
  Out.collect fun i => calculateFluxes g dt false i (r i).2 defaultId

/-- Body of the main loop (tests/advection/2d.cpp:321-421) without load balancing: `adapt` tells whether the grid is adapted on this step.
Saving does not change the grid and is not modelled here. -/
def advectStep (g : Cfg) (dflt : AdvCell) (maxTag : Nat) (a : AdvParams) (adapt : Bool) (x : AdvState n W) : Out (AdvState n W) :=
  (advectFluxes g maxTag (a.cfl * x.dt) x.grid).bind fun s3 =>
  (Out.collect fun i => applyFluxes g i (s3 i) defaultId).bind fun s4 =>
  if adapt then
    (adaptChecked g dflt maxTag a s3 s4).bind fun s5 =>
    (maxTimeStep g a.big defaultId s5).bind fun dt => .ok ⟨s5, dt⟩
  else .ok ⟨s4, x.dt⟩

end Dccrg
