import Verif.Stored
import Verif.Between
/-!
# What processes store when load is balanced in phases

Model of what `initialize_balance_load`, `continue_balance_load` and `finish_balance_load` do with what is stored
(Verif/Stored.lean) when users call them separately.
-/
namespace Dccrg
open Cfg
variable {n : Nat} {D W : Type}

/-- What a process has stored after `initialize_balance_load` (dccrg.hpp:3881-3886, 8594-8741): everything about process
boundaries is cleared and lists of cells to send and receive are those of moving cells. Neighbors and iterators are left as
they were. `continue_balance_load` (dccrg.hpp:3982-4020) doesn't change them. -/
def openStore (b : Balancing n D W) (σ : Store n) : Store n :=
  { clearStore σ with
    send := b.send
    recv := b.recv }

/-- What `finish_balance_load` (dccrg.hpp:4055-4056, 4152-4200) stores. `p` is the process after that. -/
def closeStore (g : Cfg) (maxTag : Nat) (i : Fin n) (p : Proc n D W) (σ : Store n) : Out (Store n) :=
  rebuildStore g maxTag i p { σ with
    send := fun _ => []
    recv := fun _ => [] }

/-- `get_cells_to_send` (dccrg.hpp:7060-7066) and `get_cells_to_receive` (dccrg.hpp:7074-7080), which return what is stored. -/
def storedMoves (σ : Store n) : (Fin n → List Nat) × (Fin n → List Nat) := (σ.send, σ.recv)

/-- States with what is stored after histories in which load is also balanced in phases. -/
inductive Storing {n : Nat} {W : Type} (g : Cfg) :
    {D : Type} → D → Nat → Sys n D W → (Fin n → Store n) → Bool → Prop
  | init {D : Type} {dflt : D} {maxTag : Nat} {s : Sys n D W} {σ : Fin n → Store n} :
      createGrid g n dflt maxTag = .ok s → (Out.collect fun i => initStore g maxTag i (s i)) = .ok σ →
      Storing g dflt maxTag s σ true
  | step {D : Type} {dflt : D} {maxTag : Nat} {s s' : Sys n D W} {σ σ' : Fin n → Store n} {b : Bool} (op : Op n D W) :
      Storing g dflt maxTag s σ b → op.Ok s → stepStored g dflt maxTag s σ op = .ok (s', σ') →
      Storing g dflt maxTag s' σ' (op.makes b)
  | copy {D D0 : Type} {dflt : D} {dflt0 : D0} {maxTag : Nat} {s : Sys n D0 W} {σ σ' : Fin n → Store n} {b : Bool} :
      Storing g dflt0 maxTag s σ b →
      (Out.collect fun i => copyStore g (copyProc g dflt i (s i)) (σ i)) = .ok σ' →
      Storing g dflt maxTag (copyGrid g dflt s) σ' false
  | phases {D : Type} {dflt : D} {maxTag : Nat} {s t : Sys n D W} {σ σ' : Fin n → Store n} {b : Bool} {k : Calls}
      {b0 b1 : Fin n → Balancing n D W} (z : Fin n → Moves n) : Storing g dflt maxTag s σ b → (Op.balance z : Op n D W).Ok s →
      startBalance g dflt maxTag z s = .ok b0 → Meanwhile g dflt maxTag (fun _ => True) b0 k b1 →
      finishBalance g dflt maxTag b1 = .ok t →
      (Out.collect fun i => closeStore g maxTag i (t i) (openStore (b0 i) (σ i))) = .ok σ' →
      Storing g dflt maxTag t σ' true

end Dccrg
