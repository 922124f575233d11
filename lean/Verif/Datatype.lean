import Verif.Transfer
/-!
# Bytes of cell data in messages

`Verif/Transfer.lean` transfers data of a cell as one value. Here data are bytes in the memory of processes and users'
classes say with MPI datatypes which of them are transferred: choice of the function that is asked
(dccrg_get_cell_datatype.hpp:40-340), messages made from its answers by `start_user_data_receives` and
`start_user_data_sends` (dccrg.hpp:10779-11191), and what MPI does with them.

MPI is modelled as in `Verif/Transfer.lean`, except that bytes are read from the memory of the sender when the message is
matched, not when it is posted, and that MPI stops the program if a message is longer than what is described by the
receiver. Simplification: types of bytes (int, double, ...) are not part of messages, processes have the same
representation of numbers.
-/
namespace Dccrg
variable {n : Nat} {B : Type}

/-! ## Datatypes -/

/-- MPI datatype: displacements of bytes that are transferred, in the order in which they are in messages, and extent. -/
structure MpiType where
  disp : List Int
  extent : Int
deriving DecidableEq

/-- What `get_mpi_datatype` returns: address, count and datatype. Simplification: count isn't negative, with which MPI
functions stop the program. -/
structure Info where
  addr : Int
  count : Nat
  type : MpiType
deriving DecidableEq

/-- Addresses of bytes that MPI functions transfer with given address, count and datatype, in the order of the message. -/
def Info.bytes (x : Info) : List Nat :=
  (List.range x.count).flatMap fun (k : Nat) => x.type.disp.map fun d => (x.addr + k * x.type.extent + d).toNat

/-- `MPI_Type_create_struct`, arguments are displacements, counts and datatypes. Simplification: extent isn't modelled, it has
an effect only if count isn't 1. -/
def createStruct (l : List (Int × Nat × MpiType)) : MpiType where
  disp := l.flatMap fun x => (List.range x.2.1).flatMap fun (k : Nat) => x.2.2.disp.map fun d => x.1 + (k * x.2.2.extent + d)
  extent := 0

/-- Address, count and datatype for data of all cells in one message (dccrg.hpp:10920-10966, 11120-11166). It isn't made for an
empty list as there are no empty lists in `cells_to_send` and `cells_to_receive` (dccrg.hpp:8626, 8648, 8705, 8727, 8858, 8902,
10587, 10593). -/
def allCells : List Info → Info
  | [] => ⟨0, 0, ⟨[], 0⟩⟩
  | x :: l => ⟨x.addr, 1, createStruct ((x :: l).map fun y => (y.addr - x.addr, y.count, y.type))⟩

/-! ## Functions of users' classes -/

/-- Arguments of `get_mpi_datatype`. -/
structure XferArgs where
  cell : Nat
  sender : Int
  receiver : Int
  receiving : Bool
  hood : Int
deriving DecidableEq

/-- Class of cell data: versions of `get_mpi_datatype` that it has, with and without arguments, `const` or not, and whether it
is one of basic types or arrays (dccrg_get_cell_datatype.hpp:213-283). `O` are objects of the class. -/
structure Members (O : Type) where
  argsConst : Option (O → XferArgs → Info)
  args : Option (O → XferArgs → Info)
  bareConst : Option (O → Info)
  bare : Option (O → Info)
  basic : Option (O → Info)

/-- Versions of `get_cell_mpi_datatype` in the order of the file. -/
inductive Version where
  | argsConst
  | args
  | bareConst
  | bare
  | basic
deriving DecidableEq

/-- Conditions of `std::enable_if`. -/
def Members.enabled {O : Type} (k : Members O) : Version → Bool
  | .argsConst => k.argsConst.isSome -- dccrg_get_cell_datatype.hpp:50-62
  | .args => k.args.isSome -- dccrg_get_cell_datatype.hpp:93-104
  | .bareConst => k.bareConst.isSome && !k.argsConst.isSome -- dccrg_get_cell_datatype.hpp:136-155
  | .bare => k.bare.isSome && !k.args.isSome -- dccrg_get_cell_datatype.hpp:181-198
  | .basic => !k.argsConst.isSome && !k.args.isSome && !k.bareConst.isSome && !k.bare.isSome -- 290-324

/-- Whether the cell is given by `const Cell_Data&` (dccrg_get_cell_datatype.hpp:69, 162) or by `Cell_Data&` (111, 205, 331). -/
def Version.constRef : Version → Bool
  | .argsConst => true
  | .args => false
  | .bareConst => true
  | .bare => false
  | .basic => false

/-- Overload resolution of C++ for `get_cell_mpi_datatype`. Cells aren't const in any call (dccrg.hpp:1400, 2237, 10830, 10911,
11039, 11111), hence `Cell_Data&` is better than `const Cell_Data&`. The program isn't compiled if there is no best version. -/
def Members.select {O : Type} (k : Members O) : Option Version :=
  let viable := [Version.argsConst, .args, .bareConst, .bare, .basic].filter k.enabled
  let better := viable.filter fun v => !v.constRef
  match if better = [] then viable else better with
  | [v] => some v
  | _ => none

/-- `get_cell_mpi_datatype` (dccrg_get_cell_datatype.hpp:40-340), `none` if the program isn't compiled. -/
def Members.get {O : Type} (k : Members O) (o : O) (a : XferArgs) : Option Info :=
  match k.select with
  | some .argsConst => k.argsConst.map fun f => f o a
  | some .args => k.args.map fun f => f o a
  | some .bareConst => k.bareConst.map fun f => f o
  | some .bare => k.bare.map fun f => f o
  | some .basic => k.basic.map fun f => f o
  | none => none

/-! ## Messages -/

/-- Processes and MPI: addresses of bytes in posted sends and receives that haven't been matched, and memory. -/
structure Wire (n : Nat) (B : Type) where
  sends : List (Chan n × List Nat)
  recvs : List (Chan n × List Nat)
  mem : Fin n → Nat → B

/-- Write received bytes to memory. -/
def putBytes (m : Nat → B) : List Nat → List B → Nat → B
  | a :: as, v :: vs => putBytes (fun x => if x = a then v else m x) as vs
  | _, _ => m

/-- Match a send and a receive of at least the same length. -/
inductive Wire.Step : Wire n B → Wire n B → Prop
  | mk {ch : Chan n} {as cs : List Nat} {s1 s2 r1 r2 : List (Chan n × List Nat)} {mem : Fin n → Nat → B} :
      (∀ x ∈ s1, x.1 ≠ ch) → (∀ x ∈ r1, x.1 ≠ ch) → as.length ≤ cs.length →
      Wire.Step ⟨s1 ++ (ch, as) :: s2, r1 ++ (ch, cs) :: r2, mem⟩
        ⟨s1 ++ s2, r1 ++ r2, fun q => if q = ch.dst then putBytes (mem q) cs (as.map (mem ch.src)) else mem q⟩

/-- A message that is too long can be matched, which stops the program. -/
def Wire.Fails (a : Wire n B) : Prop :=
  ∃ ch as cs s1 s2 r1 r2, a.sends = s1 ++ (ch, as) :: s2 ∧ a.recvs = r1 ++ (ch, cs) :: r2 ∧
    (∀ x ∈ s1, x.1 ≠ ch) ∧ (∀ x ∈ r1, x.1 ≠ ch) ∧ cs.length < as.length

/-- `k` steps in some order. -/
inductive Wire.Run : Nat → Wire n B → Wire n B → Prop
  | refl (a : Wire n B) : Wire.Run 0 a a
  | step {k : Nat} {a b c : Wire n B} : Wire.Step a b → Wire.Run k b c → Wire.Run (k + 1) a c

/-- Messages from `s` to `d` for cells with given addresses, counts and datatypes: `send_single_cells` is true
(dccrg.hpp:10807-10886, 11020-11095) or false (dccrg.hpp:10888-10966, 11097-11166). -/
def messages (single : Bool) (s d : Fin n) (l : List Info) : List (Chan n × List Nat) :=
  if single then l.mapIdx fun k x => (⟨s, d, k + 1⟩, x.bytes)
  else if l = [] then [] else [(⟨s, d, 0⟩, (allCells l).bytes)]

/-- `start_user_data_receives` and `start_user_data_sends` of all processes (dccrg.hpp:10779-11191). `snd p q` are the cells sent by
`p` to `q` and `rcv q p` the cells received by `q` from `p`, `tell p` is `get_cell_mpi_datatype` with objects of process `p`. -/
def startWire (single : Bool) (hood : Int) (snd rcv : Fin n → Fin n → List Nat) (tell : Fin n → XferArgs → Info)
    (mem : Fin n → Nat → B) : Wire n B where
  sends := (List.finRange n).flatMap fun p => (List.finRange n).flatMap fun q =>
    messages single p q ((snd p q).map fun c => tell p ⟨c, p, q, false, hood⟩)
  recvs := (List.finRange n).flatMap fun q => (List.finRange n).flatMap fun p =>
    messages single p q ((rcv q p).map fun c => tell q ⟨c, p, q, true, hood⟩)
  mem := mem

/-! ## Basic types -/

/-- Basic types (dccrg_get_cell_datatype.hpp:232-247): size of type in C++. Simplification: sizes are those
of 64-bit Linux, complex numbers (248-252) are left out. -/
inductive BasicType where
  | char | schar | uchar | short | ushort | int | uint | long | ulong | llong | ullong | float | double | ldouble | wchar | bool
deriving DecidableEq

/-- `sizeof`. -/
def BasicType.size : BasicType → Nat
  | .char | .schar | .uchar | .bool => 1
  | .short | .ushort => 2
  | .int | .uint | .float | .wchar => 4
  | .long | .ulong | .llong | .ullong | .double => 8
  | .ldouble => 16

/-- Named datatypes of MPI. -/
inductive NamedType where
  | CHAR | UNSIGNED_CHAR | SHORT | UNSIGNED_SHORT | INT | UNSIGNED | LONG | UNSIGNED_LONG | LONG_LONG | UNSIGNED_LONG_LONG
  | FLOAT | DOUBLE | LONG_DOUBLE | WCHAR | CXX_BOOL
deriving DecidableEq

/-- Size and extent of named datatypes of MPI. -/
def NamedType.size : NamedType → Nat
  | .CHAR | .UNSIGNED_CHAR | .CXX_BOOL => 1
  | .SHORT | .UNSIGNED_SHORT => 2
  | .INT | .UNSIGNED | .FLOAT | .WCHAR => 4
  | .LONG | .UNSIGNED_LONG | .LONG_LONG | .UNSIGNED_LONG_LONG | .DOUBLE => 8
  | .LONG_DOUBLE => 16

/-- Second arguments of macros (dccrg_get_cell_datatype.hpp:232-247, 261-275). -/
def BasicType.named : BasicType → NamedType
  | .char => .CHAR
  | .schar => .CHAR
  | .uchar => .UNSIGNED_CHAR
  | .short => .SHORT
  | .ushort => .UNSIGNED_SHORT
  | .int => .INT
  | .uint => .UNSIGNED
  | .long => .LONG
  | .ulong => .UNSIGNED_LONG
  | .llong => .LONG_LONG
  | .ullong => .UNSIGNED_LONG_LONG
  | .float => .FLOAT
  | .double => .DOUBLE
  | .ldouble => .LONG_DOUBLE
  | .wchar => .WCHAR
  | .bool => .CXX_BOOL

/-- Named datatype as a datatype. -/
def NamedType.type (t : NamedType) : MpiType := ⟨(List.range t.size).map fun (k : Nat) => (k : Int), t.size⟩

/-- `get_mpi_datatype_basic` (dccrg_get_cell_datatype.hpp:226-231) with the address of the object. -/
def basicInfo (t : BasicType) (addr : Nat) : Info := ⟨addr, 1, t.named.type⟩

/-- `get_mpi_datatype_basic` of arrays (dccrg_get_cell_datatype.hpp:255-260), not of `bool`. -/
def arrayInfo (t : BasicType) (len : Nat) (addr : Nat) : Info := ⟨addr, len, t.named.type⟩

end Dccrg
