import Verif.Datatype
import Verif.LoadGrid
/-!
# Views of files

`Verif/Save.lean` and `Verif/LoadGrid.lean` write and read data of each cell separately. The code makes one datatype of MPI for all
cells of a process in the file and another one for all cells in memory, sets the first one as view of the file and writes or reads
with the second one (dccrg.hpp:1386-1710, 2210-2400). Here memory of a process is a function from addresses to bytes.
-/
namespace Dccrg
variable {n : Nat}

/-- What `get_mpi_datatype` returns and whether its datatype is named (`Is_Named_Datatype`). -/
structure CellInfo where
  named : Bool
  info : Info
deriving DecidableEq

/-- `MPI_Type_size`. -/
def MpiType.size (t : MpiType) : Nat := t.disp.length

/-- `MPI_Type_contiguous` of `MPI_BYTE`. -/
def contiguousType (k : Nat) : MpiType := ⟨(List.range k).map fun j : Nat => (j : Int), k⟩

/-- `file_datatypes` (dccrg.hpp:1454-1487, 2243-2279). -/
def CellInfo.fileType (x : CellInfo) : MpiType := if x.named then x.info.type else contiguousType x.info.type.size

/-- What `Verif/Save.lean` has about a cell when memory is `m`. -/
def CellInfo.piece (m : Nat → Nat) (x : CellInfo) : Piece := ⟨x.named, x.info.count, x.info.type.size, x.info.bytes.map m⟩

/-- Positions in the file that are in the view: typemap of `file_datatype` for cells with given `file_displacements`
(dccrg.hpp:1640-1671, 2308-2326). -/
def fileView (l : List (CellInfo × Nat)) : List Int :=
  (createStruct (l.map fun x => ((x.2 : Int), x.1.info.count, x.1.fileType))).disp

/-- What the standard of MPI requires of datatypes of views: displacements aren't negative and do not decrease, and if the file has
been opened for writing no byte is there twice. -/
def ViewAllowed (writing : Bool) (v : List Int) : Prop := (∀ x ∈ v, 0 ≤ x) ∧ v.Pairwise fun x y => if writing then x < y else x ≤ y

instance (b : Bool) (v : List Int) : Decidable (ViewAllowed b v) := by unfold ViewAllowed; cases b <;> exact inferInstance

/-- `MPI_File_set_view` and `MPI_File_write_at_all` of given bytes. Simplification: the view isn't repeated after its end, which has an
effect only if it is shorter than what is written. -/
def writeThrough (f : File) (v : List Int) (bytes : List Nat) : Out File :=
  if ViewAllowed true v then .ok (putBytes f (v.map Int.toNat) (bytes.map some)) else .undef

/-- `MPI_File_set_view` and `MPI_File_read_at_all` to given addresses. Bytes that are not in the file do not change. -/
def readThrough (f : File) (v : List Int) (m : Nat → Nat) (as : List Nat) : Out (Nat → Nat) :=
  if ViewAllowed false v then .ok (putBytes m as (List.zipWith (fun a p => (f p.toNat).getD (m a)) as v)) else .undef

section
variable (M : Meta) (a : SaveArgs n) (mine : Fin n → List Nat) (tell : Fin n → Nat → Option CellInfo) (mem : Fin n → Nat → Nat)

/-- Cells described by users' classes, for `Verif/Save.lean`. -/
def toldPiece (i : Fin n) (c : Nat) : Option Piece := (tell i c).map (CellInfo.piece (mem i))

/-- `counts` and `mem_datatypes` (dccrg.hpp:1386-1408). -/
def infosOf (i : Fin n) : List CellInfo := (cellsOf a mine i).filterMap (tell i)

/-- `file_datatype` of a process (dccrg.hpp:1640-1671). -/
def saveView (i : Fin n) : List Int :=
  fileView (List.zip (infosOf a mine tell i) (positions M a mine (toldPiece tell mem) i))

/-- Writing of data of cells of a process (dccrg.hpp:1410-1447, 1640-1710). Nothing is written if there are no cells. -/
def saveThrough (f : File) (i : Fin n) : Out File :=
  writeThrough f (saveView M a mine tell mem i) ((allCells ((infosOf a mine tell i).map CellInfo.info)).bytes.map (mem i))

end

/-- `continue_loading_grid_data` (dccrg.hpp:2188-2447) in a process with memory `m` and given `cells_and_data_displacements`: memory
and `cells_and_data_displacements` afterwards. `tell` is `get_cell_mpi_datatype`. -/
def continueView (f : File) (tell : (Nat → Nat) → Nat → CellInfo) (m : Nat → Nat) (l : List (Nat × Nat)) :
    Out ((Nat → Nat) × List (Nat × Nat)) :=
  (readThrough f (fileView (l.map fun x => (tell m x.1, x.2))) m (allCells (l.map fun x => (tell m x.1).info)).bytes).bind fun m' =>
    .ok (m', l.map fun x => (x.1, x.2 + (tell m x.1).info.type.size))

/-- Given number of calls of `continue_loading_grid_data`. -/
def viewCalls (f : File) (tell : (Nat → Nat) → Nat → CellInfo) : Nat → (Nat → Nat) → List (Nat × Nat) → Out ((Nat → Nat) × List (Nat × Nat))
  | 0, m, l => .ok (m, l)
  | k + 1, m, l => (continueView f tell m l).bind fun r => viewCalls f tell k r.1 r.2

end Dccrg
