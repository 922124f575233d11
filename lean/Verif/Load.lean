import Verif.Exec
/-!
# Load balancing

Models of `pin`, `unpin`, cell weights and `balance_load`. The partitioner (Zoltan) is external: `z`
are the lists of cells to receive and send that it returns on every process.
-/
namespace Dccrg
variable {n : Nat} {D W : Type}

/-! ## Pin requests and weights -/

/-- Condition common to pins and weights: cell exists on this process and has no children
(dccrg.hpp:6015-6025, 6071-6081, 6384-6394). -/
def ownLeaf (g : Cfg) (i : Fin n) (p : Proc n D W) (c : Nat) : Bool :=
  decide (p.owner c = some i) && (c == getChild g (exist p.owner) c)

/-- `pin(cell, process)` (dccrg.hpp:6001-6041). `q` is an `int`, valid ones are ranks. -/
def pin (g : Cfg) (i : Fin n) (p : Proc n D W) (c : Nat) (q : Int) : Bool × Proc n D W :=
  if ownLeaf g i p c = false then (false, p)
  else if h : 0 ≤ q ∧ q.toNat < n then
    if p.pins c = some ⟨q.toNat, h.2⟩ then (true, p)
    else (true, { p with
      newPins := fun x => if x = c then some (some ⟨q.toNat, h.2⟩) else p.newPins x })
  else (false, p)

/-- `unpin(cell)` (dccrg.hpp:6057-6092). -/
def unpin (g : Cfg) (i : Fin n) (p : Proc n D W) (c : Nat) : Bool × Proc n D W :=
  if ownLeaf g i p c = false then (false, p)
  else if (p.pins c).isSome then
    (true, { p with newPins := fun x => if x = c then some none else p.newPins x })
  else (true, { p with newPins := fun x => if x = c then none else p.newPins x })

/-- `unpin_local_cells()` (dccrg.hpp:6106-6158), cells in increasing order. -/
def unpinLocal (g : Cfg) (i : Fin n) (p : Proc n D W) : Bool × Proc n D W :=
  ((ids g).filter fun c => (p.data c).isSome).foldl
    (fun s c => let r := unpin g i s.2 c; (s.1 && r.1, r.2)) (true, p)

/-- `unpin_all_cells()` (dccrg.hpp:6172-6196) on one process. -/
def unpinAll (p : Proc n D W) : Proc n D W :=
  { p with pins := fun _ => none, newPins := fun _ => none }

/-- `set_cell_weight` (dccrg.hpp:6373-6401). -/
def setWeight (g : Cfg) (i : Fin n) (p : Proc n D W) (c : Nat) (x : W) : Bool × Proc n D W :=
  if ownLeaf g i p c = false then (false, p)
  else (true, { p with weights := fun y => if y = c then some x else p.weights y })

/-- `get_cell_weight` (dccrg.hpp:6409-6435), `none` is NaN. -/
def getWeight (g : Cfg) (one : W) (i : Fin n) (p : Proc n D W) (c : Nat) : Option W :=
  if ownLeaf g i p c = false then none else some ((p.weights c).getD one)

/-- `update_pin_requests()` (dccrg.hpp:8483-8526): new pin request of a cell, requests of processes are
handled in order of rank. -/
def updatePins (s : Sys n D W) (i : Fin n) (c : Nat) : Option (Fin n) :=
  (List.finRange n).foldl (fun acc p => ((s p).newPins c).getD acc) ((s i).pins c)

/-! ## New partition -/

/-- Result of the partitioner on one process: (cell, sender) and (cell, receiver)
(dccrg.hpp:8560-8579). -/
structure Moves (n : Nat) where
  recv : List (Nat × Fin n)
  send : List (Nat × Fin n)

/-- `cells_to_receive` of process `i` from process `q` (dccrg.hpp:8610-8677). -/
def moveRecv (g : Cfg) (i : Fin n) (w : Owner n) (pins : Nat → Option (Fin n)) (z : Moves n)
    (q : Fin n) : List Nat :=
  isort (((ids g).filter fun c => pins c == some i && w c == some q && q != i) ++
    z.recv.filterMap fun m => if m.2 = q ∧ m.2 ≠ i ∧ (pins m.1).isNone then some m.1 else none)

/-- `cells_to_send` of process `i` to process `q` (dccrg.hpp:8685-8774). -/
def moveSend (g : Cfg) (i : Fin n) (w : Owner n) (pins : Nat → Option (Fin n)) (z : Moves n)
    (q : Fin n) : List Nat :=
  isort (((ids g).filter fun c => pins c == some q && w c == some i && q != i) ++
    z.send.filterMap fun m => if m.2 = q ∧ m.2 ≠ i ∧ (pins m.1).isNone then some m.1 else none)

/-- State between start and end of load balancing: process with pending moves. -/
structure Balancing (n : Nat) (D W : Type) where
  proc : Proc n D W
  recv : Fin n → List Nat
  send : Fin n → List Nat

/-- `initialize_balance_load` (dccrg.hpp:3820-3965) of one process. `cell_process.at` throws for a pin
request of a cell that does not exist; z is empty if the partitioner is not used. Tags are checked in
`continueBalance`, the code checks them here. -/
def initBalance (g : Cfg) (dflt : D) (s : Sys n D W) (z : Fin n → Moves n) (i : Fin n) :
    Out (Balancing n D W) :=
  let p := s i
  let pins := updatePins s i
  if ∃ c ∈ ids g, (pins c).isSome ∧ p.owner c = none then .throws
  else
    let recv := moveRecv g i p.owner pins (z i)
    .ok { proc := { p with
            data := fun c => if ∃ q, c ∈ recv q then some ((p.data c).getD dflt) else p.data c
            remote := fun _ => none
            req := ⟨[], [], [], []⟩
            refinedData := fun _ => none
            unrefinedData := fun _ => none
            pins := pins
            newPins := fun _ => none
            weights := fun _ => none }
          recv := recv
          send := moveSend g i p.owner pins (z i) }

/-- `continue_balance_load` (dccrg.hpp:3982-4020). -/
def continueBalance (maxTag : Nat) (b : Fin n → Balancing n D W) : Out (Fin n → Balancing n D W) :=
  (transfer maxTag (fun p => (b p).send) (fun q => (b q).recv) (fun p => (b p).proc.data)
    (fun p => (b p).proc.data)).bind fun d =>
  .ok fun i => { b i with proc := { (b i).proc with data := d i } }

/-- `cell_process` updated with cells added on all processes (dccrg.hpp:4127-4133). -/
def movedOwner (b : Fin n → Balancing n D W) (w : Owner n) : Owner n := fun c =>
  (List.finRange n).foldl (fun acc p => if ∃ q, c ∈ (b p).recv q then some p else acc) (w c)

/-- `finish_balance_load` (dccrg.hpp:4030-4238). -/
def finishBalance (g : Cfg) (dflt : D) (maxTag : Nat) (b : Fin n → Balancing n D W) :
    Out (Sys n D W) :=
  Out.collect fun i =>
    if ∃ p q, ∃ c ∈ (b p).recv q, (b i).proc.owner c = none then .throws
    else rebuild g dflt maxTag i { (b i).proc with
      owner := movedOwner b (b i).proc.owner
      data := fun c => if ∃ q, c ∈ (b i).send q then none else (b i).proc.data c }

/-- `balance_load` (dccrg.hpp:1041-1062). -/
def balanceLoad (g : Cfg) (dflt : D) (maxTag : Nat) (z : Fin n → Moves n) (s : Sys n D W) :
    Out (Sys n D W) :=
  (Out.collect fun i => initBalance g dflt s z i).bind fun b =>
  (continueBalance maxTag b).bind fun b =>
  finishBalance g dflt maxTag b

end Dccrg
