import Verif.Hist
/-!
# Queries

Functions of the API which return lists of cells and neighbors. Lists of neighbors, cells on process
boundaries and cells to send and receive are recalculated by the code whenever the grid, its partition or
neighborhoods have changed, here they are calculated from the state when asked. Order of cells in
unordered containers is unspecified in the code, here it is ascending.
-/
namespace Dccrg
open Cfg
variable {n : Nat} {D W : Type}

/-- Whether the process has data of a cell, `cell_data.count(cell) > 0`. -/
def Proc.has (p : Proc n D W) (c : Nat) : Bool := (p.data c).isSome

/-- `is_local` (dccrg.hpp:3347-3365) on process `i`. -/
def isLocal (i : Fin n) (p : Proc n D W) (c : Nat) : Bool := p.owner c == some i

/-- `get_process` (dccrg.hpp:5941-5960), `none` is -1. -/
def getProcess (p : Proc n D W) (c : Nat) : Option (Fin n) := p.owner c

/-- `get_neighbors_of` (dccrg.hpp:831-883), `none` is a null pointer. -/
def getNeighborsOf (g : Cfg) (p : Proc n D W) (c : Nat) (id : Int) : Option (List (Nat × V3 Int)) :=
  if exist p.owner c then
    match hoodFor g p id with
    | none => none
    | some H => match findNeighborsOf g (exist p.owner) c H with
      | .ok l => some l
      | _ => none
  else none

/-- `get_neighbors_to` (dccrg.hpp:895-943), `none` is a null pointer. -/
def getNeighborsTo (g : Cfg) (p : Proc n D W) (c : Nat) (id : Int) : Option (List (Nat × V3 Int)) :=
  if exist p.owner c then
    match hoodFor g p id with
    | none => none
    | some H => match findNeighborsTo g (exist p.owner) c (negHood H) with
      | .ok l => some (l.map fun b => (b, fun _ => 0))
      | _ => none
  else none

/-- `std::sort` if asked for. -/
def sortIf (sorted : Bool) (l : List Nat) : List Nat := if sorted then isort l else l

/-- `get_local_cells_on_process_boundary` (dccrg.hpp:6213-6246). -/
def getLocalBoundary (g : Cfg) (i : Fin n) (p : Proc n D W) (id : Int) (sorted : Bool) : List Nat :=
  match hoodFor g p id with
  | none => []
  | some H => sortIf sorted (localBoundaryH g H i p.owner p.has)

/-- `get_local_cells_not_on_process_boundary` (dccrg.hpp:6264-6303). -/
def getInner (g : Cfg) (i : Fin n) (p : Proc n D W) (id : Int) (sorted : Bool) : List Nat :=
  match hoodFor g p id with
  | none => []
  | some H => sortIf sorted ((ids g).filter fun c => p.has c && !(localBoundaryH g H i p.owner p.has).contains c)

/-- `get_remote_cells_on_process_boundary` (dccrg.hpp:6324-6357). The stored set has each cell once. -/
def getRemoteBoundary (g : Cfg) (i : Fin n) (p : Proc n D W) (id : Int) (sorted : Bool) : List Nat :=
  match hoodFor g p id with
  | none => []
  | some H => sortIf sorted (dedup (remoteBoundaryH g H i p.owner p.has))

/-! ## Selection of cells by types of their neighbors -/

/-- Bits of neighbor types (dccrg.hpp:113-134): `has_local_neighbor_of`, `has_local_neighbor_to`,
`has_remote_neighbor_of`, `has_remote_neighbor_to`. Values of type int are bit vectors here. -/
def localOf : BitVec 32 := 1#32
def localTo : BitVec 32 := 2#32
def remoteOf : BitVec 32 := 4#32
def remoteTo : BitVec 32 := 8#32

/-- Loops over neighbors in `is_neighbor_type_match` (dccrg.hpp:3076-3086, 3101-3111). -/
def addTypes (i : Fin n) (p : Proc n D W) (loc rem : BitVec 32) (t : BitVec 32) (l : List Nat) : BitVec 32 :=
  l.foldl (fun t b => if b = 0 then t else if isLocal i p b then t ||| loc else t ||| rem) t

/-- `is_neighbor_type_match` (dccrg.hpp:3023-3130). -/
def typeMatch (g : Cfg) (i : Fin n) (p : Proc n D W) (c : Nat) (criteria : List (BitVec 32)) (exact : Bool)
    (id : Int) : Bool :=
  if c = 0 then false
  else if exist p.owner c = false then false
  else if p.owner c ≠ some i then false
  else match getNeighborsOf g p c id, getNeighborsTo g p c id with
    | some of, some to =>
      let t := addTypes i p localTo remoteTo (addTypes i p localOf remoteOf 0#32 (of.map (·.1))) (to.map (·.1))
      if exact then criteria.any fun k => t == k
      else BitVec.slt 0#32 (t &&& criteria.foldl (· ||| ·) 0#32)
    | _, _ => false

/-- `get_cells` (dccrg.hpp:661-753) with nonempty or empty criteria. -/
def getCells (g : Cfg) (i : Fin n) (p : Proc n D W) (criteria : List (BitVec 32)) (exact : Bool) (id : Int)
    (sorted : Bool) : List Nat :=
  match hoodFor g p id with
  | none => []
  | some _ => sortIf sorted
      ((ids g).filter fun c => p.has c && (criteria.isEmpty || typeMatch g i p c criteria exact id))

/-! ## Iterators -/

/-- An item in the vector of cells: id of the cell and positions in the vector of neighbors where ranges of its
neighbors begin and end. -/
structure CellItem where
  id : Nat
  of : Nat × Nat
  to : Nat × Nat
  all : Nat × Nat

/-- What `update_cell_pointers` has stored: vectors of cells and neighbors and ranges of cells. -/
structure Cache where
  cells : List CellItem
  nbrs : List (Nat × V3 Int)
  inner : Nat × Nat
  outer : Nat × Nat
  loc : Nat × Nat
  remote : Nat × Nat
  all : Nat × Nat

/-- Before `update_cell_pointers` has been called. -/
def Cache.none : Cache := ⟨[], [], (0, 0), (0, 0), (0, 0), (0, 0), (0, 0)⟩

/-- Items of a vector in given range. -/
def range {α : Type} (l : List α) (r : Nat × Nat) : List α := (l.take r.2).drop r.1

/-- `std::set` of pairs: each once, order is not modelled. -/
def dedupP (l : List (Nat × V3 Int)) : List (Nat × V3 Int) :=
  match l with
  | [] => []
  | a :: l => if l.any (fun b => b.1 == a.1 && decide (∀ d, b.2 d = a.2 d)) then dedupP l else a :: dedupP l

/-- `only_neighbors_of`, `neighbors_both` and `only_neighbors_to` (dccrg.hpp:11545-11596). -/
def neighborSets (of to : List (Nat × V3 Int)) :
    List (Nat × V3 Int) × List (Nat × V3 Int) × List (Nat × V3 Int) :=
  let idsOf := dedupP (of.filter fun b => b.1 != 0)
  let idsTo := dedupP (to.filter fun b => b.1 != 0)
  let inTo (b : Nat × V3 Int) := idsTo.any fun t => t.1 == b.1 && decide (∀ d, t.2 d = 0)
  let inOf (t : Nat × V3 Int) := decide (∀ d, t.2 d = 0) && idsOf.any fun b => b.1 == t.1
  (idsOf.filter fun b => !inTo b, idsOf.filter inTo, idsTo.filter fun t => !inOf t)

/-- Loop over cells (dccrg.hpp:11494-11713): vectors of cells and neighbors when `start` neighbors have been
stored for previous cells. -/
def cellItems (sets : Nat → List (Nat × V3 Int) × List (Nat × V3 Int) × List (Nat × V3 Int)) :
    List Nat → Nat → List CellItem × List (Nat × V3 Int)
  | [], _ => ([], [])
  | c :: cs, start =>
    let x := sets c
    let a := x.1.length
    let b := x.2.1.length
    let t := x.2.2.length
    let r := cellItems sets cs (start + a + b + t)
    (⟨c, (start, start + a + b), (start + a, start + a + b + t), (start, start + a + b + t)⟩ :: r.1,
      x.1 ++ x.2.1 ++ x.2.2 ++ r.2)

/-- `update_cell_pointers` (dccrg.hpp:11418-11732) of a neighborhood. Remote cells are those of the default
neighborhood (dccrg.hpp:11473-11479). Additional items of users are not modelled, pointer to
data of a cell is the result of `operator[]`. -/
def updatePointers (g : Cfg) (i : Fin n) (p : Proc n D W) (id : Int) : Out Cache :=
  match hoodFor g p id with
  | none => .throws
  | some H =>
    let inner := (ids g).filter fun c => p.has c && !(localBoundaryH g H i p.owner p.has).contains c
    let outer := (ids g).filter fun c => p.has c && (localBoundaryH g H i p.owner p.has).contains c
    let remote := dedup (remoteBoundary g i p.owner p.has)
    let cells := inner ++ outer ++ remote
    if ∃ c ∈ remote, (p.remote c).isNone then .throws
    else if ∃ c ∈ cells, c = 0 ∨ (getNeighborsOf g p c id).isNone ∨ (getNeighborsTo g p c id).isNone then .throws
    else
      let x := cellItems (fun c => neighborSets ((getNeighborsOf g p c id).getD []) ((getNeighborsTo g p c id).getD []))
        cells 0
      let a := inner.length
      let b := outer.length
      let r := remote.length
      .ok ⟨x.1, x.2, (0, a), (a, a + b), (0, a + b), (a + b, a + b + r), (0, a + b + r)⟩

/-! ## Face neighbors -/

/-- Number of a direction in `get_face_neighbors_of` (dccrg.hpp:2916). -/
def dirOf (d : Fin 3) (pos : Bool) : Int := if pos then (d.val : Int) + 1 else -((d.val : Int) + 1)

/-- The other two dimensions in ascending order. -/
def other1 (d : Fin 3) : Fin 3 := if d = 0 then 1 else 0
def other2 (d : Fin 3) : Fin 3 := if d = 2 then 1 else 2

/-- Face neighbors in one direction (dccrg.hpp:2919-3004). -/
def faceDir (g : Cfg) (E : Nat → Bool) (c : Nat) (d : Fin 3) (pos : Bool) : List Nat :=
  let b := nbr6 g E c d pos
  if b = 0 then []
  else b ::
    if g.lvl c ≥ g.lvl b then []
    else
      let x := nbr6 g E b (other1 d) true
      let y := nbr6 g E b (other2 d) true
      (if x ≠ 0 then [x] else []) ++
      if y ≠ 0 then
        y :: (let z := nbr6 g E y (other1 d) true
              if z ≠ 0 then [z] else [])
      else []

/-- `get_face_neighbors_of` (dccrg.hpp:2883-3010). The code aborts for cells not in `neighbors_`, i.e. that do
not exist. -/
def faceNeighbors (g : Cfg) (E : Nat → Bool) (c : Nat) : Out (List (Nat × Int)) :=
  if c = 0 ∨ E c = false ∨ getChild g E c ≠ c then .throws
  else .ok ([(0, false), (0, true), (1, false), (1, true), (2, false), (2, true)].flatMap fun x =>
    (faceDir g E c x.1 x.2).map fun b => (b, dirOf x.1 x.2))

end Dccrg
