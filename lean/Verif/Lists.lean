import Verif.Props.Locate
import Verif.Query
import Verif.Hist
/-!
# Lists and counts of cells, requests at coordinates, searches in boxes
-/
namespace Dccrg
open Cfg
variable {n : Nat} {D W : Type} {g : Cfg}

/-- `get_all_cells` (dccrg.hpp:3612-3645). Order of cells in the hash map `cell_process` is not modelled: without
sorting cells are in order of id. -/
def getAllCells (g : Cfg) (p : Proc n D W) (sorted : Bool) : List Nat :=
  sortIf sorted ((ids g).filter fun c => exist p.owner c && getChild g (exist p.owner) c == c)

/-- `get_removed_cells` (dccrg.hpp:3574-3597). Order of cells in the hash map `unrefined_cell_data` is not
modelled. -/
def getRemovedCells (g : Cfg) (p : Proc n D W) (sorted : Bool) : List Nat :=
  sortIf sorted ((ids g).filter fun c => (p.unrefinedData c).isSome)

/-- `get_number_of_update_send_cells` (dccrg.hpp:5483-5532). -/
def sendCount (g : Cfg) (i : Fin n) (p : Proc n D W) (id : Int) : Nat :=
  match hoodFor g p id with
  | none => 2 ^ 64 - 1
  | some H => ((List.finRange n).map fun q => (sendList g H i p.owner p.has q).length).sum

/-- `get_number_of_update_receive_cells` (dccrg.hpp:5547-5591). -/
def recvCount (g : Cfg) (i : Fin n) (p : Proc n D W) (id : Int) : Nat :=
  match hoodFor g p id with
  | none => 2 ^ 64 - 1
  | some H => ((List.finRange n).map fun q => (recvList g H i p.owner p.has q).length).sum

/-- `refine_completely_at` (dccrg.hpp:3457-3474); `x` is the result of `get_indices` of the geometry. -/
def refineAt (g : Cfg) (E has : Nat → Bool) (r : Req) (x : V3 Nat) : Out (Bool × Req) :=
  if existingAt g E x = errorCell then .ok (false, r) else refineCompletely g E has r (existingAt g E x)

/-- `unrefine_completely_at` (dccrg.hpp:3483-3500). -/
def unrefineAt (g : Cfg) (E has : Nat → Bool) (r : Req) (x : V3 Nat) : Out (Bool × Req) :=
  if existingAt g E x = errorCell then .ok (false, r) else unrefineCompletely g E has r (existingAt g E x)

/-- `dont_unrefine_at` (dccrg.hpp:3509-3526). -/
def dontUnrefineAt (g : Cfg) (E : Nat → Bool) (r : Req) (x : V3 Nat) : Out (Bool × Req) :=
  if existingAt g E x = errorCell then .ok (false, r) else dontUnrefine g E r (existingAt g E x)

/-- Values of one loop variable of `find_cells` (dccrg.hpp:5023-5025): `lo, lo + inc, ...` up to `hi`. Indices do not
overflow `uint64_t` here; in the code the loop does not end if `hi + inc` does. -/
def axisPts (lo hi inc : Nat) : List Nat := (List.range ((hi + inc - lo) / inc)).map fun k => lo + k * inc

/-- Points visited by `find_cells` (dccrg.hpp:5022-5025), x fastest. -/
def boxPts (lo hi : V3 Nat) (inc : Nat) : List (V3 Nat) :=
  (axisPts (lo 2) (hi 2) inc).flatMap fun z => (axisPts (lo 1) (hi 1) inc).flatMap fun y =>
    (axisPts (lo 0) (hi 0) inc).map fun x => v3 x y z

/-- `uniques` and `result` of `find_cells` (dccrg.hpp:5067-5079): first occurrences, without cells that
`get_child` replaces. -/
def firstsOf (g : Cfg) (E : Nat → Bool) : List Nat → List Nat → List Nat
  | _, [] => []
  | seen, c :: l =>
    if c ≠ getChild g E c then firstsOf g E seen l
    else if c ∈ seen then firstsOf g E seen l
    else c :: firstsOf g E (c :: seen) l

/-- `find_cells` (dccrg.hpp:4963-5083) without `DEBUG`, for levels up to the maximum refinement level. -/
def findCells (g : Cfg) (E : Nat → Bool) (lo hi : V3 Nat) (lmin : Int) (lmax : Nat) : List Nat :=
  firstsOf g E [] ((boxPts lo hi (2 ^ (g.maxLvl - lmax))).map fun p => existingI g E p lmin lmax)

/-- Loop of `get_neighbors_of_at_offset` (dccrg.hpp:3194-3213); there is one item of neighborhood. -/
def atOffset (g : Cfg) (c : Nat) (o : V3 Int) (l : List (Nat × V3 Int)) : List (Nat × V3 Int) :=
  match shift g (g.idx c) (g.side c) o with
  | none => []
  | some p => l.filter fun x => decide (g.idx x.1 0 = p 0 ∧ g.idx x.1 1 = p 1 ∧ g.idx x.1 2 = p 2)

/-- `get_neighbors_of_at_offset` (dccrg.hpp:3157-3215). No neighbor is at indices `error_index` that
`indices_from_neighborhood` gives for regions outside of the grid. -/
def getNeighborsAt (g : Cfg) (i : Fin n) (p : Proc n D W) (c : Nat) (o : V3 Int) : List (Nat × V3 Int) :=
  if p.owner c ≠ some i ∨ (o 0 = 0 ∧ o 1 = 0 ∧ o 2 = 0) then []
  else match getNeighborsOf g p c defaultId with
    | none => []
    | some l => atOffset g c o l

end Dccrg
