import Verif.Save
import Verif.MappingRefine
import Verif.LoadBare
import Verif.Query
/-!
# Loading a grid

Model of `load_grid_data` and the functions it uses (dccrg.hpp:1817-2481). MPI functions are assumed to succeed; reading past
the end of a file leaves the rest of a buffer as it was. Zoltan is not modelled.
-/
namespace Dccrg
open Cfg
variable {n : Nat} {D W : Type}

/-- User's class of cell data: what its `get_mpi_datatype` describes when the grid is saved and when it is loaded, and the
cell after given bytes have been stored to the memory that it describes when the grid is loaded. -/
structure CellClass (D : Type) where
  saved : D → Piece
  loaded : D → Piece
  fill : D → List Nat → D

/-- Reading of the byte order and of members of the grid (dccrg.hpp:1946-2052): members and offset after them, `none` if
false is returned. `M0` are members before. -/
def readMeta (e : Order) (f : File) (off : Nat) (M0 : Meta) : Option (Meta × Nat) :=
  if dec e (f.get off 8) ≠ endiannessCheck then none
  else
    let r := M0.mapping.read e f (off + 8)
    if r.1 = false then none
    else
      let o1 := off + 8 + r.2.dataSize
      let hood := dec e (f.get o1 4)
      let o2 := o1 + 4
      let per := topologyRead f o2
      let o3 := o2 + topologySize
      let q := GeomPar.read e f o3 r.2 M0.geom
      if q.1 = false then none
      else some ({ mapping := r.2, hood := hood, per := per, geom := q.2 }, o3 + q.2.dataSize)

/-- Grid of given members. -/
def Meta.grid (M : Meta) : Cfg := M.mapping.grid M.per M.hood

/-- Consecutive elements of `all_cells_and_data_displacements` (dccrg.hpp:2089-2128). -/
def pairsOf : List Nat → List (Nat × Nat)
  | a :: b :: l => (a, b) :: pairsOf l
  | _ => []

/-- `cell_data.size()`. -/
def localCount (g : Cfg) (p : Proc n D W) : Nat := ((ids g).filter p.has).length

/-- `start_loading_grid_data` (dccrg.hpp:1870-2163) of all processes after the header at `off` has been read: members of the
grid, processes and `cells_and_data_displacements` of each, `none` if false is returned. Aborts are modelled as throws, a
number of cells that does not fit into `int` as undefined behavior. Cells are created as by `initialize`, but copies of remote neighbors are not allocated (dccrg.hpp:2058-2069). -/
def startLoading (e : Order) (f : File) (off : Nat) (M0 : Meta) (dflt : D) (maxTag : Nat)
    (ord : Fin n → List Nat → List Nat) : Out (Option (Meta × Sys n D W × (Fin n → List (Nat × Nat)))) :=
  match readMeta e f off M0 with
  | none => .ok none
  | some (M, o) =>
    (createGrid M.grid n dflt maxTag).bind fun s =>
    let total := dec e (f.get o 8)
    if 2 * total > intMax then .undef
    else
      let all := pairsOf (dec64 e (2 * total) (f.get (o + 8) (2 * total * 8)))
      if all.any (fun x => x.1 == 0) then .throws
      else
        let mine := fun i => all.filter fun x => overlapsLocal M.grid i (s i).owner x.1
        (loadCells M.grid dflt maxTag ord (noCopies s) fun i => (mine i).map Prod.fst).bind fun s' =>
        if ∃ i, localCount M.grid (s' i) ≠ (mine i).length then .throws
        else .ok (some (M, s', mine))

/-- `continue_loading_grid_data` (dccrg.hpp:2188-2437) of one process: data of cells are read at their displacements, which
are increased by the size of the datatype (dccrg.hpp:2289-2306). All cells are in the list once, see the check in
dccrg.hpp:2202. -/
def continueLoading (K : CellClass D) (f : File) (p : Proc n D W) (l : List (Nat × Nat)) :
    Out (Proc n D W × List (Nat × Nat)) :=
  if ∃ x ∈ l, (p.data x.1).isNone then .throws
  else .ok
    ({ p with data := fun c => (p.data c).map fun d =>
        match l.lookup c with
        | some o => K.fill d (f.read o (K.loaded d).bytes)
        | none => d },
      l.map fun x => (x.1, match p.data x.1 with
        | some d => x.2 + (K.loaded d).size
        | none => x.2))

/-- Given number of calls to `continue_loading_grid_data` by all processes. -/
def continueAll (K : CellClass D) (f : File) : Nat → Sys n D W → (Fin n → List (Nat × Nat)) → Out (Sys n D W)
  | 0, s, _ => .ok s
  | k + 1, s, l =>
    (Out.collect fun i => continueLoading K f (s i) (l i)).bind fun r =>
    continueAll K f k (fun i => (r i).1) fun i => (r i).2

/-- Loading of a grid (dccrg.hpp:1870-2481): header, members of the grid and processes after `start_loading_grid_data`, given
number of calls to `continue_loading_grid_data`, and `finish_loading_grid_data`. `none` if false is returned. With one call
this is `load_grid_data` (dccrg.hpp:1817-1848). -/
def load (e : Order) (f : File) (off : Nat) (header : Piece) (M0 : Meta) (dflt : D) (maxTag : Nat)
    (ord : Fin n → List Nat → List Nat) (K : CellClass D) (calls : Nat) :
    Out (Option (List Nat × Meta × Sys n D W)) :=
  if header.size * header.count > intMax then .undef
  else
    (startLoading e f (off + header.size * header.count) M0 dflt maxTag ord).bind fun r =>
    match r with
    | none => .ok none
    | some (M, s, l) =>
      (continueAll K f calls s l).bind fun s' => .ok (some (f.read off header.bytes, M, s'))

end Dccrg
