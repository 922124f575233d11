import Verif.Props.Geometry
import Verif.Query
/-!
# Files for visualization

Model of `write_vtk_file` (dccrg.hpp:3375-3448). A file is a list of lines, a line a list of words that are
separated by spaces (some lines end with a space in the code, which readers ignore). `T` are texts of floating point
numbers; how `std::ostream` prints them is a parameter.
-/
namespace Dccrg
variable {n : Nat} {D W T : Type}

/-- Words of a file. -/
inductive VtkWord (T : Type) where
  | text (s : String)
  | int (k : Nat)
  | real (x : T)

/-- First lines (dccrg.hpp:3401-3405). -/
def vtkHeader : List (List (VtkWord T)) :=
  [[.text "#", .text "vtk", .text "DataFile", .text "Version", .text "2.0"],
   [.text "Cartesian", .text "cell", .text "refinable", .text "grid"],
   [.text "ASCII"],
   [.text "DATASET", .text "UNSTRUCTURED_GRID"]]

/-- Line with the coordinates of a point. -/
def vtkPoint (fmt : Num → T) (x y z : Num) : List (VtkWord T) := [.real (fmt x), .real (fmt y), .real (fmt z)]

/-- Corners of a cell (dccrg.hpp:3410-3422) between `lo` and `hi`. -/
def vtkCorners (fmt : Num → T) (lo hi : V3 Num) : List (List (VtkWord T)) :=
  [vtkPoint fmt (lo 0) (lo 1) (lo 2),
   vtkPoint fmt (hi 0) (lo 1) (lo 2),
   vtkPoint fmt (lo 0) (hi 1) (lo 2),
   vtkPoint fmt (hi 0) (hi 1) (lo 2),
   vtkPoint fmt (lo 0) (lo 1) (hi 2),
   vtkPoint fmt (hi 0) (lo 1) (hi 2),
   vtkPoint fmt (lo 0) (hi 1) (hi 2),
   vtkPoint fmt (hi 0) (hi 1) (hi 2)]

/-- Points of cell number `j` (dccrg.hpp:3428-3432). `j` is an `unsigned int`, hence `j * 8 + i` is modulo 2^32. -/
def vtkCell (j : Nat) : List (VtkWord T) := .int 8 :: (List.range 8).map fun i => .int ((j * 8 + i) % 2 ^ 32)

/-- Lines written for cells in this order (dccrg.hpp:3401-3440). The loops with an `unsigned int` don't end if there
are 2^32 or more cells. -/
def vtkLines (fmt : Num → T) (lo hi : Nat → V3 Num) (cells : List Nat) : Out (List (List (VtkWord T))) :=
  if cells.length < 2 ^ 32 then
    .ok (vtkHeader ++
      [[.text "POINTS", .int (cells.length * 8), .text "float"]] ++
      (cells.map fun c => vtkCorners fmt (lo c) (hi c)).flatten ++
      [[.text "CELLS", .int cells.length, .int (cells.length * 9)]] ++
      (List.range cells.length).map vtkCell ++
      [[.text "CELL_TYPES", .int cells.length]] ++
      (List.range cells.length).map fun _ => [.int 11])
  else .hangs

/-- `write_vtk_file` (dccrg.hpp:3375-3448) of a process when the file can be opened and written: `get_cells()` is
called with default arguments, then sorted. `lo` and `hi` are `get_min` and `get_max` of the geometry. -/
def writeVtkFile (g : Cfg) (fmt : Num → T) (lo hi : Nat → V3 Num) (i : Fin n) (p : Proc n D W) :
    Out (List (List (VtkWord T))) :=
  vtkLines fmt lo hi (sortIf true (getCells g i p [] false defaultId false))

end Dccrg
