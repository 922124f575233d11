import Verif.Phases
import Verif.Query
import Verif.Exec
/-!
# Data of variable size

Model of cell data with a variable number of items (tests/particles/cell.hpp:34-84) and of its transfer between
processes: first the number of items of each cell, then, after making room for them, the items themselves
(tests/particles/simple.cpp:284-294), or in the same way during load balancing
(tests/variable_data_size/variable_data_size.cpp:80-93).
-/
namespace Dccrg
open Cfg
variable {n : Nat} {W X : Type}

/-- `Cell` (tests/particles/cell.hpp:34-44): `number_of_particles` and `particles`. -/
structure VarCell (X : Type) where
  count : Nat
  items : List X

/-- Number of numbers described by `get_mpi_datatype` (tests/particles/cell.hpp:53-78), `moving` is
`transfer_particles`. -/
def VarCell.described (moving : Bool) (a : VarCell X) : Nat := if moving then 3 * a.items.length else 1

/-- Whether `x` can be received into `y`: both describe the same number of numbers, which is an `int`. Otherwise this
model says that behavior is undefined: when less are described by the receiver than by the sender the message is truncated,
when more are described it depends on whether one message is sent for all cells
(`C99_single_false`). -/
def VarCell.fits (moving : Bool) (x y : VarCell X) : Bool :=
  decide (x.described moving = y.described moving) && decide (x.described moving < 2 ^ 31)

/-- `y` after receiving `x`: memory that is described is changed (tests/particles/cell.hpp:53-78). -/
def VarCell.receive (moving : Bool) (x y : VarCell X) : VarCell X :=
  if moving then { y with items := x.items } else { y with count := x.count }

/-- `resize` (tests/particles/cell.hpp:81-84), `e` is the value of new items. -/
def VarCell.resize (e : X) (a : VarCell X) : VarCell X :=
  { a with items := a.items.take a.count ++ List.replicate (a.count - a.items.length) e }

/-- Whether a cell can be received: it has data on both processes and they fit. -/
def fitsOpt (moving : Bool) : Option (VarCell X) → Option (VarCell X) → Bool
  | some x, some y => x.fits moving y
  | _, _ => true

/-- `update_copies_of_remote_neighbors` (dccrg.hpp:978-1014) with `transfer_particles` equal to `moving` on all
processes. -/
def updateVar (g : Cfg) (maxTag : Nat) (moving : Bool) (s : Sys n (VarCell X) W) : Out (Sys n (VarCell X) W) :=
  if (List.finRange n).all fun q => (List.finRange n).all fun p =>
      (recvList g (hoodOf g) q (s q).owner (fun c => ((s q).data c).isSome) p).all fun c =>
        fitsOpt moving ((s p).data c) ((s q).remote c) then
    (updateParts g maxTag defaultId (fun _ _ _ => VarCell.receive moving) s).bind fun r => .ok fun i => (r i).2
  else .undef

/-- Make room for data of one cell (tests/particles/simple.cpp:288-290). -/
def resizeCell (e : X) (c : Nat) (p : Proc n (VarCell X) W) : Out (Proc n (VarCell X) W) :=
  match access p c with
  | none => .undef
  | some a => .ok (write p c (a.resize e))

/-- The loop over remote cells (tests/particles/simple.cpp:288-290). -/
def resizeCopies (g : Cfg) (e : X) (i : Fin n) (p : Proc n (VarCell X) W) : Out (Proc n (VarCell X) W) :=
  (updatePointers g i p defaultId).bind fun k => Out.fold (fun x => resizeCell e x.id) (range k.cells k.remote) p

/-- Transfer of all data of remote neighbors (tests/particles/simple.cpp:284-294). -/
def exchangeVar (g : Cfg) (maxTag : Nat) (e : X) (s : Sys n (VarCell X) W) : Out (Sys n (VarCell X) W) :=
  (updateVar g maxTag false s).bind fun s1 =>
  (Out.collect fun i => resizeCopies g e i (s1 i)).bind fun s2 => updateVar g maxTag true s2

/-- `continue_balance_load` (dccrg.hpp:3982-4020) with `transfer_particles` equal to `moving` on all processes. -/
def continueVar (maxTag : Nat) (moving : Bool) (b : Fin n → Balancing n (VarCell X) W) :
    Out (Fin n → Balancing n (VarCell X) W) :=
  if (List.finRange n).all fun q => (List.finRange n).all fun p => ((b q).recv p).all fun c =>
      fitsOpt moving ((b p).proc.data c) ((b q).proc.data c) then
    runPhase maxTag b (.move fun _ _ _ => VarCell.receive moving)
  else .undef

/-- Make room for data of cells that a process receives, which are found in `get_cells_to_receive`
(tests/variable_data_size/variable_data_size.cpp:82-91). -/
def resizeReceived (e : X) (b : Balancing n (VarCell X) W) : Out (Balancing n (VarCell X) W) :=
  (Out.fold (fun q p => Out.fold (resizeCell e) (b.recv q) p) (List.finRange n) b.proc).bind fun p =>
  .ok { b with proc := p }

/-- Load balancing with data of variable size: as in tests/variable_data_size/variable_data_size.cpp:80-93, where the
number of items is known in advance, with a transfer of the number of items added to it. -/
def balanceVar (g : Cfg) (dflt : VarCell X) (maxTag : Nat) (e : X) (z : Fin n → Moves n) (s : Sys n (VarCell X) W) :
    Out (Sys n (VarCell X) W) :=
  (startBalance g dflt maxTag z s).bind fun b =>
  (continueVar maxTag false b).bind fun b =>
  (Out.collect fun i => resizeReceived e (b i)).bind fun b =>
  (continueVar maxTag true b).bind fun b => finishBalance g dflt maxTag b

end Dccrg
