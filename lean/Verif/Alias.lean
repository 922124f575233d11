import Verif.Grid
/-!
# References between instances of the grid

What an instance shares with the instance of which it is a copy. Instances are objects in memory identified by
addresses; an instance of class Dccrg is reduced to what is needed here: the length of the grid, data of local cells,
and references.
-/
namespace Dccrg

/-- An instance of the grid on one process (dccrg.hpp:225-7620). `len`: `mapping_rw.length_rw`
(dccrg_mapping.hpp:61); `data`: `cell_data` (local cells); `lengthAt`: instance to whose `length_rw` the reference
`mapping.length` refers (dccrg_mapping.hpp:67), also used by `length` (dccrg.hpp:265) and through it by geometry;
`cellsAt`: instance to whose `cell_data` pointers in `cells` refer, i.e. which is iterated over
(dccrg.hpp:7602, 7615); `askAt`: instance given to the partitioner as data of callback functions. -/
structure Inst (D : Type) where
  len : V3 Nat
  data : Nat → Option D
  lengthAt : Nat
  cellsAt : Nat
  askAt : Nat

/-- Existing instances by address. -/
abbrev Heap (D : Type) := Nat → Option (Inst D)

namespace Heap
variable {D : Type}

/-- Create, change or destroy the instance at an address. -/
def put (h : Heap D) (a : Nat) (x : Option (Inst D)) : Heap D := fun b => if b = a then x else h b

/-- Constructor and `initialize` (dccrg.hpp:325, 480-562): references refer to the instance itself. -/
def construct (h : Heap D) (a : Nat) (len : V3 Nat) (data : Nat → Option D) : Heap D :=
  h.put a (some ⟨len, data, a, a, a⟩)

/-- Copy constructor template (dccrg.hpp:309-446), used when a template argument differs from that of the instance
being copied. `mapping_rw(other.mapping)` is the implicit copy constructor of Mapping, which binds the reference
`length` to what the other's `length` refers to (dccrg_mapping.hpp:56-76 has no other). `Zoltan_Copy` (line 418)
keeps pointers to callback data, `Zoltan_Set_*_Fn` are only called from `initialize` (dccrg.hpp:7917-8049). -/
def copyOther (h : Heap D) (a b : Nat) (dflt : D) : Option (Heap D) :=
  (h b).map fun o => h.put a (some ⟨o.len, fun c => (o.data c).map fun _ => dflt, o.lengthAt, a, o.askAt⟩)

/-- Copying an instance of the same type: a template is never a copy constructor, hence the implicit copy
constructor is used, which copies each member, references included. -/
def copySame (h : Heap D) (a b : Nat) : Option (Heap D) := (h b).map fun o => h.put a (some o)

/-- Destructor. -/
def destroy (h : Heap D) (a : Nat) : Heap D := h.put a none

/-- `length.get()` (dccrg.hpp:265, dccrg_length.hpp:82), `none` if the reference is dangling. -/
def length (h : Heap D) (a : Nat) : Option (V3 Nat) := (h a).bind fun x => (h x.lengthAt).map (·.len)

/-- `operator[]` for local cells (dccrg.hpp:741-790). -/
def read (h : Heap D) (a c : Nat) : Option D := (h a).bind fun x => x.data c

/-- Assign through the pointer given by `operator[]`. -/
def write (h : Heap D) (a c : Nat) (v : D) : Option (Heap D) :=
  (h a).bind fun x => (x.data c).map fun _ =>
    h.put a (some { x with data := fun d => if d = c then some v else x.data d })

/-- Assign through the pointer to data of a cell found when iterating over local cells (dccrg.hpp:7602-7760). -/
def writeCells (h : Heap D) (a c : Nat) (v : D) : Option (Heap D) := (h a).bind fun x => h.write x.cellsAt c v

/-- Data of cells found when iterating over local cells, `none` if pointers are dangling. -/
def iterate (h : Heap D) (a : Nat) : Option (Nat → Option D) := (h a).bind fun x => (h x.cellsAt).map (·.data)

/-- Cells that callback functions give to the partitioner as local cells of the instance
(dccrg.hpp:11841-11920), `none` if the pointer is dangling. -/
def asked (h : Heap D) (a : Nat) : Option (Nat → Bool) :=
  (h a).bind fun x => (h x.askAt).map fun o c => (o.data c).isSome

/-- Replace local cells of an instance, as `stop_refining` and load balancing do; cell pointers are recreated
(dccrg.hpp:4186, 10731). Pointers of instances that iterate over this one aren't followed further. -/
def setCells (h : Heap D) (a : Nat) (data : Nat → Option D) : Option (Heap D) :=
  (h a).map fun x => h.put a (some { x with data := data, cellsAt := a })

end Heap

end Dccrg
