import Verif.LoadGrid
import Verif.Vtk
/-!
# A program that reads saved files

Model of examples/dc2vtk.cpp, which reads files that were saved by examples/game_of_life_with_output.cpp without creating a
grid and writes their contents for visualization. It knows the format of files from the comment in dc2vtk.cpp:93-103. MPI
functions and writing are assumed to succeed.
-/
namespace Dccrg
variable {T : Type}

/-- Loop over command line arguments (dc2vtk.cpp:42-47): whether process `rank` of `size` converts argument `arg`. -/
def dcConverts (size rank arg : Nat) : Bool := 1 ≤ arg && (arg - 1) % size == rank

/-- Objects that dc2vtk.cpp:140, 157, 175, 191 makes before reading. -/
def dcStart (p : CartPar) : Meta := { mapping := Mapping.init, hood := 0, per := fun _ => false, geom := .cartesian p }

/-- Reading of ids of cells, without offsets of their data, and then of data of cells (dc2vtk.cpp:225-258) from offset
`o`. -/
def dcCells (e : Order) (f : File) (o count : Nat) : List (Nat × Nat) :=
  (List.range count).map fun k => (dec e (f.get (o + 16 * k) 8), dec e (f.get (o + 16 * count + 4 * k) 4))

/-- Reading of a file (dc2vtk.cpp:51-259): time step, what was read about the grid, cells and their data. `none` if the file is
skipped. `p` are parameters of the geometry before reading. -/
def dcRead (e : Order) (f : File) (p : CartPar) : Option (Nat × Meta × List (Nat × Nat)) :=
  let time := dec e (f.get 0 8)
  match readMeta e f 8 (dcStart p) with
  | none => none
  | some (M, o) => some (time, M, dcCells e f (o + 8) (dec e (f.get o 8)))

/-- First lines (dc2vtk.cpp:273-278). -/
def dcHeader : List (List (VtkWord T)) :=
  [[.text "#", .text "vtk", .text "DataFile", .text "Version", .text "2.0"],
   [.text "Game", .text "of", .text "Life", .text "data"],
   [.text "ASCII"],
   [.text "DATASET", .text "UNSTRUCTURED_GRID"]]

/-- Lines written for cells and their data (dc2vtk.cpp:273-320), `lo` and `hi` are `get_min` and `get_max` of the geometry.
The loops with an `unsigned int` don't end if there are 2^32 or more cells. -/
def dcLines (fmt : Num → T) (lo hi : Nat → V3 Num) (cells : List (Nat × Nat)) : Out (List (List (VtkWord T))) :=
  if cells.length < 2 ^ 32 then
    .ok (dcHeader ++
      [[.text "POINTS", .int (cells.length * 8), .text "float"]] ++
      (cells.map fun c => vtkCorners fmt (lo c.1) (hi c.1)).flatten ++
      [[.text "CELLS", .int cells.length, .int (cells.length * 9)]] ++
      (List.range cells.length).map vtkCell ++
      [[.text "CELL_TYPES", .int cells.length]] ++
      ((List.range cells.length).map fun _ => [.int 11]) ++
      [[.text "CELL_DATA", .int cells.length], [.text "SCALARS", .text "is_alive", .text "int", .int 1],
        [.text "LOOKUP_TABLE", .text "default"]] ++
      cells.map fun c => [.int c.2])
  else .hangs

end Dccrg
