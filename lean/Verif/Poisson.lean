import Verif.Phases
import Verif.Query
import Verif.Exec
import Verif.Advect
/-!
# The solver of the Poisson test

Model of `Poisson_Solve::solve` (tests/poisson/poisson_solve.hpp:47-520, 670-1055), which solves a system of equations
that has one unknown in every cell, using face neighbors, updates of parts of data of remote neighbors and sums over
processes. Numbers are rational instead of `double`. Printing is not modelled.
-/
namespace Dccrg
open Cfg
variable {n : Nat} {W : Type}

/-- `Poisson_Cell` (tests/poisson/poisson_solve.hpp:47-87): `f k` is the factor in direction `k` (`f_x_pos` for 1,
`f_x_neg` for -1, ...), `typ` is 0 for cells to solve, 1 for boundary cells and 2 for cells to skip (130-136). -/
structure PoissonCell where
  rhs : Rat
  sol : Rat
  best : Rat
  p0 : Rat
  p1 : Rat
  r0 : Rat
  r1 : Rat
  ap : Rat
  scale : Rat
  f : Int → Rat
  typ : Nat

/-- `transfer_switch` (tests/poisson/poisson_solve.hpp:92-101). -/
inductive PSwitch where
  | solving | geometry | init | type

/-- Data `y` after receiving what `get_mpi_datatype` describes of `x` (tests/poisson/poisson_solve.hpp:104-143). -/
def PoissonCell.receive (sw : PSwitch) (x y : PoissonCell) : PoissonCell :=
  match sw with
  | .solving => { y with p0 := x.p0, p1 := x.p1 }
  | .geometry => { y with scale := x.scale, f := x.f }
  | .init => { y with sol := x.sol }
  | .type => { y with typ := x.typ }

/-- `update_copies_of_remote_neighbors` (dccrg.hpp:978-1014) with the switch of all processes equal to `sw`. -/
def updatePoisson (g : Cfg) (maxTag : Nat) (sw : PSwitch) (s : Sys n PoissonCell W) : Out (Sys n PoissonCell W) :=
  (updateParts g maxTag defaultId (fun _ _ _ => PoissonCell.receive sw) s).bind fun r => .ok fun i => (r i).2

/-- Body of the loops that classify cells (tests/poisson/poisson_solve.hpp:838-880). -/
def setType (i : Fin n) (t : Nat) (c : Nat) (p : Proc n PoissonCell W) : Out (Proc n PoissonCell W) :=
  if isLocal i p c then
    match access p c with
    | none => .throws
    | some a => .ok (write p c { a with typ := t })
  else .ok p

/-- Classification of cells (tests/poisson/poisson_solve.hpp:832-880). -/
def classify (g : Cfg) (i : Fin n) (cells skip : List Nat) (p : Proc n PoissonCell W) : Out (Proc n PoissonCell W) :=
  (Out.fold (setType i 1) (getCells g i p [] false defaultId false) p).bind fun p =>
  (Out.fold (setType i 2) skip p).bind fun p => Out.fold (setType i 0) cells p

/-- A neighbor in `cell_info`: cell instead of a pointer to its data, direction and relative refinement level. -/
abbrev NbrInfo := Nat × Int × Int

/-- Relative refinement level (tests/poisson/poisson_solve.hpp:940-947). -/
def relLevel (g : Cfg) (c b : Nat) : Int := if g.lvl c < g.lvl b then 1 else if g.lvl b < g.lvl c then -1 else 0

/-- The loop over face neighbors (tests/poisson/poisson_solve.hpp:908-951): neighbors that are not skipped, `typ` is the type of
the cell. -/
def faceInfo (g : Cfg) (p : Proc n PoissonCell W) (c typ : Nat) : List (Nat × Int) → Out (List NbrInfo)
  | [] => .ok []
  | (b, k) :: l =>
    match access p b with
    | none => .throws
    | some a => (faceInfo g p c typ l).bind fun m =>
      .ok (if a.typ = 2 ∨ (typ = 1 ∧ a.typ = 1) then m else (b, k, relLevel g c b) :: m)

/-- 1 or -1. -/
def signOf (k : Int) : Rat := if 0 < k then 1 else -1

/-- Offsets of neighbors in given direction (tests/poisson/poisson_solve.hpp:711-762), `len c` are the lengths of a cell from
`get_length` of the geometry. -/
def nbrOffset (len : Nat → V3 Rat) (c : Nat) (l : List NbrInfo) : Int → Rat :=
  l.foldl (fun o y k => if k = y.2.1 then signOf k * (len c (dimOf k) / 2 + len y.1 (dimOf k) / 2) else o k)
    (fun k => signOf k * 2 * (len c (dimOf k) / 2))

/-- Factors of a cell (tests/poisson/poisson_solve.hpp:764-805). -/
def nbrFactor (len : Nat → V3 Rat) (c : Nat) (l : List NbrInfo) (k : Int) : Rat :=
  if l.any fun y => decide (y.2.1 = k) then
    signOf k * 2 / (nbrOffset len c l k * (nbrOffset len c l (k.natAbs : Int) - nbrOffset len c l (-(k.natAbs : Int))))
  else 0

/-- `set_scaling_factor` (tests/poisson/poisson_solve.hpp:696-818). -/
def setFactors (len : Nat → V3 Rat) (c : Nat) (l : List NbrInfo) (a : PoissonCell) : PoissonCell :=
  { a with
    f := nbrFactor len c l
    scale := -nbrFactor len c l 1 - nbrFactor len c l (-1) - nbrFactor len c l 2 - nbrFactor len c l (-2) -
      nbrFactor len c l 3 - nbrFactor len c l (-3) }

/-- Body of the loop over cells in `cache_system_info` (tests/poisson/poisson_solve.hpp:888-969), the second part of the state is
`cell_info`. -/
def cacheCell (g : Cfg) (len : Nat → V3 Rat) (c : Nat) (x : Proc n PoissonCell W × List (Nat × List NbrInfo)) :
    Out (Proc n PoissonCell W × List (Nat × List NbrInfo)) :=
  match access x.1 c with
  | none => .throws
  | some a =>
    if a.typ = 2 then .ok x
    else
      (faceNeighbors g (exist x.1.owner) c).bind fun l =>
      (faceInfo g x.1 c a.typ l).bind fun m =>
      if m.isEmpty then .ok (write x.1 c { a with typ := 2 }, x.2)
      else .ok (write x.1 c (setFactors len c m a), x.2 ++ [(c, m)])

/-- The loop over cells. -/
def cacheCells (g : Cfg) (len : Nat → V3 Rat) (i : Fin n) (p : Proc n PoissonCell W) :
    Out (Proc n PoissonCell W × List (Nat × List NbrInfo)) :=
  Out.fold (cacheCell g len) (getCells g i p [] false defaultId false) (p, [])

/-- `cache_system_info` (tests/poisson/poisson_solve.hpp:827-973): data and `cell_info` of every process. `cells i` and `skip i` are
arguments given on process `i`. -/
def cacheSystem (g : Cfg) (maxTag : Nat) (len : Nat → V3 Rat) (cells skip : Fin n → List Nat) (s : Sys n PoissonCell W) :
    Out (Sys n PoissonCell W × (Fin n → List (Nat × List NbrInfo))) :=
  (Out.collect fun i => classify g i (cells i) (skip i) (s i)).bind fun s1 =>
  (updatePoisson g maxTag .type s1).bind fun s2 =>
  (Out.collect fun i => cacheCells g len i (s2 i)).bind fun r =>
  (updatePoisson g maxTag .geometry fun i => (r i).1).bind fun s3 => .ok (s3, fun i => (r i).2)

/-- Data of neighbors through pointers stored in `cell_info`. -/
def nbrData (p : Proc n PoissonCell W) : List NbrInfo → Out (List (PoissonCell × Int × Int))
  | [] => .ok []
  | y :: l =>
    match access p y.1 with
    | none => .undef
    | some a => (nbrData p l).bind fun m => .ok ((a, y.2) :: m)

/-- Body of loops over `cell_info` that change cells to solve: `F` gives new data of the cell from its data and data of
its neighbors. All of these loops have the same form (tests/poisson/poisson_solve.hpp:287-341, 366-371, 384-389, 407-412, 415-468,
493-499, 512-517, 990-1046); neighbors are looked up also in those loops that do not use them. -/
def solveCell (F : PoissonCell → List (PoissonCell × Int × Int) → PoissonCell) (x : Nat × List NbrInfo) (p : Proc n PoissonCell W) :
    Out (Proc n PoissonCell W) :=
  match access p x.1 with
  | none => .undef
  | some a => if a.typ ≠ 0 then .ok p else (nbrData p x.2).bind fun l => .ok (write p x.1 (F a l))

/-- A loop over `cell_info` on all processes. -/
def solveCells (F : PoissonCell → List (PoissonCell × Int × Int) → PoissonCell) (info : Fin n → List (Nat × List NbrInfo))
    (s : Sys n PoissonCell W) : Out (Sys n PoissonCell W) :=
  Out.collect fun i => Out.fold (solveCell F) (info i) (s i)

/-- The part of a sum that is on one process, over cells to solve or over all cells in `cell_info`. -/
def localSum (all : Bool) (h : PoissonCell → Rat) (p : Proc n PoissonCell W) : List (Nat × List NbrInfo) → Out Rat
  | [] => .ok 0
  | x :: l =>
    match access p x.1 with
    | none => .undef
    | some a => (localSum all h p l).bind fun r => .ok (if all ∨ a.typ = 0 then h a + r else r)

/-- Sums over processes with `MPI_Allreduce` (tests/poisson/poisson_solve.hpp:343-351, 476-485, 677-687, 1049-1057). -/
def globalSum (all : Bool) (h : PoissonCell → Rat) (info : Fin n → List (Nat × List NbrInfo)) (s : Sys n PoissonCell W) : Out Rat :=
  (Out.collect fun i => localSum all h (s i) (info i)).bind fun r => .ok ((List.finRange n).map r).sum

/-- Multiplier of data of a neighbor (tests/poisson/poisson_solve.hpp:301-337). -/
def nbrWeight (f : Int → Rat) (k rel : Int) : Rat := if 0 < rel then f k / 4 else f k

/-- A . u (tests/poisson/poisson_solve.hpp:295-340). -/
def timesA (u : PoissonCell → Rat) (a : PoissonCell) (l : List (PoissonCell × Int × Int)) : Rat :=
  l.foldl (fun r y => r + nbrWeight a.f y.2.1 y.2.2 * u y.1) (a.scale * u a)

/-- transpose(A) . u (tests/poisson/poisson_solve.hpp:423-465). -/
def timesAT (u : PoissonCell → Rat) (a : PoissonCell) (l : List (PoissonCell × Int × Int)) : Rat :=
  l.foldl (fun r y => r + nbrWeight y.1.f (-y.2.1) y.2.2 * u y.1) (a.scale * u a)

/-- Start of one cell (tests/poisson/poisson_solve.hpp:990-1046). -/
def startSolve (a : PoissonCell) (l : List (PoissonCell × Int × Int)) : PoissonCell :=
  let r := l.foldl (fun r y => r - nbrWeight a.f y.2.1 y.2.2 * y.1.sol) (a.rhs - a.scale * a.sol)
  { a with r0 := r, p0 := r, p1 := r, r1 := r }

/-- Parameters of the solver (tests/poisson/poisson_solve.hpp:172-212): `pow` and `root` are powers of `p_of_norm` and its inverse
in `get_residual` (677-687). -/
structure PParams where
  maxIter : Nat
  minIter : Nat
  stopRes : Rat
  stopInc : Rat
  pow : Rat → Rat
  root : Rat → Rat

/-- State of the solver: data, `cell_info`, `dot_r_g`, `residual_min` (`none` is the largest number) and `iteration`. -/
structure PState (n : Nat) (W : Type) where
  sys : Sys n PoissonCell W
  info : Fin n → List (Nat × List NbrInfo)
  dotR : Rat
  resMin : Option Rat
  iter : Nat

/-- `residual_min > residual`. -/
def lessThan (r : Rat) : Option Rat → Bool
  | none => true
  | some m => decide (r < m)

/-- `initialize_solver` (tests/poisson/poisson_solve.hpp:979-1060). -/
def startPoisson (g : Cfg) (maxTag : Nat) (x : Sys n PoissonCell W × (Fin n → List (Nat × List NbrInfo))) : Out (PState n W) :=
  (updatePoisson g maxTag .init x.1).bind fun s1 =>
  (solveCells startSolve x.2 s1).bind fun s2 =>
  (globalSum false (fun a => a.r0 * a.r1) x.2 s2).bind fun d => .ok ⟨s2, x.2, d, none, 0⟩

/-- Body of the loop of `solve` (tests/poisson/poisson_solve.hpp:277-501), and whether the loop goes on. -/
def poissonIter (g : Cfg) (maxTag : Nat) (a : PParams) (x : PState n W) : Out (PState n W × Bool) :=
  (updatePoisson g maxTag .solving x.sys).bind fun s1 =>
  (solveCells (fun c l => { c with ap := timesA (·.p0) c l }) x.info s1).bind fun s2 =>
  (globalSum false (fun c => c.p1 * c.ap) x.info s2).bind fun dotP =>
  if dotP = 0 then .ok (⟨s2, x.info, x.dotR, x.resMin, x.iter + 1⟩, false)
  else
    (solveCells (fun c _ => { c with sol := c.sol + x.dotR / dotP * c.p0 }) x.info s2).bind fun s3 =>
    (globalSum true (fun c => a.pow c.r0.abs) x.info s3).bind fun r =>
    let res := a.root r
    (if lessThan res x.resMin then solveCells (fun c _ => { c with best := c.sol }) x.info s3 else .ok s3).bind fun s4 =>
    let m := if lessThan res x.resMin then res else x.resMin.getD res
    if (res ≤ a.stopRes ∧ a.minIter ≤ x.iter + 1) ∨ (a.stopInc * m ≤ res ∧ a.minIter ≤ x.iter + 1) then
      .ok (⟨s4, x.info, x.dotR, some m, x.iter + 1⟩, false)
    else
      (solveCells (fun c _ => { c with r0 := c.r0 - x.dotR / dotP * c.ap }) x.info s4).bind fun s5 =>
      (solveCells (fun c l => { c with r1 := c.r1 - x.dotR / dotP * timesAT (·.p1) c l }) x.info s5).bind fun s6 =>
      if x.dotR = 0 then .ok (⟨s6, x.info, x.dotR, some m, x.iter + 1⟩, false)
      else
        (globalSum false (fun c => c.r0 * c.r1) x.info s6).bind fun d =>
        (solveCells (fun c _ => { c with p0 := c.r0 + d / x.dotR * c.p0, p1 := c.r1 + d / x.dotR * c.p1 }) x.info s6).bind fun s7 =>
        .ok (⟨s7, x.info, d, some m, x.iter + 1⟩, decide (x.iter + 1 < a.maxIter))

/-- The loop of `solve`, which goes on at most `k` times after the first time. -/
def poissonLoop (g : Cfg) (maxTag : Nat) (a : PParams) : Nat → PState n W → Out (PState n W)
  | 0, x => (poissonIter g maxTag a x).bind fun y => .ok y.1
  | k + 1, x => (poissonIter g maxTag a x).bind fun y => if y.2 then poissonLoop g maxTag a k y.1 else .ok y.1

/-- `solve` (tests/poisson/poisson_solve.hpp:251-521) when `cache_is_up_to_date` is not given. The loop ends at the latest when
`iteration` is `max_iterations`. -/
def poissonSolve (g : Cfg) (maxTag : Nat) (len : Nat → V3 Rat) (a : PParams) (cells skip : Fin n → List Nat) (s : Sys n PoissonCell W) :
    Out (Sys n PoissonCell W) :=
  (cacheSystem g maxTag len cells skip s).bind fun x =>
  (startPoisson g maxTag x).bind fun x =>
  (poissonLoop g maxTag a a.maxIter x).bind fun y => solveCells (fun c _ => { c with sol := c.best }) y.info y.sys

end Dccrg
