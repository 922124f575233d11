import Verif.Sched
import Verif.Hist
import Verif.Props.Collective
/-!
# Programs of processes

What one process does in functions that communicate, as programs of Sched. A program uses only what its own process
stores and what it gets from communication.
-/
namespace Dccrg
variable {n : Nat} {D W α : Type}

/-- Values that processes give to each other. -/
inductive Msg (D : Type) where
  | num (k : Nat)
  | ids (l : List Nat)
  | data (l : List D)

def Msg.toNum : Msg D → Nat
  | .num k => k
  | _ => 0

def Msg.toIds : Msg D → List Nat
  | .ids l => l
  | _ => []

def Msg.toData : Msg D → List D
  | .data l => l
  | _ => []

/-- Result of something that doesn't communicate. -/
def Prog.ofOut : Out α → Prog n (Msg D) α
  | .ok a => .done a
  | _ => .fail

/-! ## Communication -/

/-- What is known of the part of a process that gives `k` values to `MPI_Allgatherv`. -/
def emptyPart (k : Nat) : Option (Msg D) := if k = 0 then some (.ids []) else none

/-- `All_Gather` (dccrg_mpi_support.hpp:108-234): values of all processes. It is assumed that there are not more of them
than fit into `int`. -/
def gatherP (l : List Nat) : Prog n (Msg D) (Fin n → List Nat) :=
  .coll 0 (fun _ => none) (.num l.length) fun c =>
  .coll 1 (fun q => emptyPart (c q).toNum) (.ids l) fun x =>
    let counts := (List.finRange n).map fun q => (c q).toNum
    let values := (List.finRange n).map fun q => (x q).toIds
    let temp := gatherv (List.replicate counts.sum (Dccrg.W - 1)) (displacements counts 0) values
    .done fun q => (fillResult temp counts 0).getD q []

/-- `All_Reduce` (dccrg_mpi_support.hpp:240-269), it is assumed that the sum fits into 64 bits. -/
def sumP (v : Nat) : Prog n (Msg D) Nat :=
  .coll 2 (fun _ => none) (.num v) fun x => .done ((List.finRange n).map fun q => (x q).toNum).sum

/-- Tags of messages for `k` cells (dccrg.hpp:10834, 10906, 11026, 11098). -/
def tagsOf (single : Bool) (k : Nat) : List Nat :=
  if single then (List.range k).map (· + 1) else if k = 0 then [] else [0]

/-- Messages with data of cells. -/
def msgsOf (single : Bool) (l : List D) : List (Nat × Msg D) :=
  (tagsOf single l.length).zip (if single then l.map fun x => .data [x] else [.data l])

/-- `start_user_data_transfers` and waiting for it (dccrg.hpp:10758-11264) with cells to send to and receive from every
process, data of cells and where received data is stored. -/
def transferP (maxTag : Nat) (single : Bool) (snd rcv : Fin n → List Nat) (data dest : Nat → Option D) :
    Prog n (Msg D) (Nat → Option D) :=
  if ∃ q, maxTag < (snd q).length ∨ maxTag < (rcv q).length then .fail
  else if ∃ q, ∃ c ∈ snd q, (data c).isNone then .fail
  else .exch (fun q => msgsOf single ((snd q).filterMap data)) (fun q => tagsOf single (rcv q).length) fun x =>
    .done fun c =>
      ((List.finRange n).findSome? fun q => ((rcv q).zip ((x q).flatMap Msg.toData)).lookup c).or (dest c)

/-! ## stop_refining -/

/-- Loop of `override_refines` (dccrg.hpp:10191-10235), fails after given number of rounds. -/
def dontP (g : Cfg) (E : Nat → Bool) : Nat → List Nat → List Nat → Prog n (Msg D) (List Nat)
  | 0, _, _ => .fail
  | k + 1, old, donts =>
    (gatherP (dontRound g E old donts)).bind fun all =>
    if gather all = [] then .done (old ++ donts) else dontP g E k (old ++ donts) (gather all)

/-- `override_refines` (dccrg.hpp:10185-10288). -/
def overrideRefinesP (g : Cfg) (E : Nat → Bool) (r : Req) : Prog n (Msg D) Req :=
  (dontP g E (g.maxLvl + 2) [] r.notRefine).bind fun old =>
  (gatherP old).bind fun all =>
  (gatherP (r.toRefine.filter fun c => !(old ++ gather all).contains c)).bind fun kept =>
  .done { r with notRefine := old ++ gather all, toRefine := gather kept }

/-- Loop of `induce_refines` (dccrg.hpp:9787-9892). -/
def induceP (g : Cfg) (i : Fin n) (w : Owner n) (has : Nat → Bool) :
    Nat → List Nat → List Nat → Prog n (Msg D) (List Nat)
  | 0, _, _ => .fail
  | k + 1, refs, new =>
    (sumP new.length).bind fun total =>
    if total = 0 then .done refs
    else (gatherP new).bind fun news =>
      if ∃ r ∈ news i, exist w r = false then .fail
      else induceP g i w has k (refs ++ induceRound g i w has refs news) (induceRound g i w has refs news)

/-- `induce_refines` (dccrg.hpp:9785-9903). -/
def induceRefinesP (g : Cfg) (i : Fin n) (w : Owner n) (has : Nat → Bool) (refs : List Nat) :
    Prog n (Msg D) (List Nat) :=
  (induceP g i w has (g.maxLvl + 2) refs refs).bind fun r =>
  (gatherP r).bind fun all => .done (r ++ gather all)

/-- `override_unrefines` (dccrg.hpp:9990-10110). -/
def overrideUnrefinesP (g : Cfg) (E : Nat → Bool) (refs notUnref unref : List Nat) : Prog n (Msg D) (List Nat) :=
  (gatherP notUnref).bind fun all =>
  (Prog.ofOut (Out.filter (canUnrefine g E refs (notUnref ++ gather all)) unref)).bind fun f =>
  (gatherP f).bind fun all => .done (gather all)

/-- `execute_refines` (dccrg.hpp:10298-10748). -/
def executeRefinesP (g : Cfg) (dflt : D) (maxTag : Nat) (single : Bool) (i : Fin n) (p : Proc n D W) :
    Prog n (Msg D) (Proc n D W × List Nat) :=
  (Prog.ofOut (prepare g dflt i p)).bind fun m =>
  (transferP maxTag single (fun q => isort (m.1.2.1 q)) (fun q => isort (m.1.2.2 q)) m.1.1.data
    m.1.1.unrefinedData).bind fun un =>
  Prog.ofOut ((finishRefines g dflt i { m.1.1 with unrefinedData := un }).bind fun p =>
    (rebuild g dflt maxTag i p).bind fun p => .ok (p, m.2))

/-- `stop_refining` (dccrg.hpp:3538-3562). -/
def stopRefiningP (g : Cfg) (dflt : D) (maxTag : Nat) (single sorted : Bool) (i : Fin n) (p : Proc n D W) :
    Prog n (Msg D) (Proc n D W × List Nat) :=
  (overrideRefinesP g (exist p.owner) p.req).bind fun r =>
  (induceRefinesP g i p.owner (fun c => (p.data c).isSome) r.toRefine).bind fun refs =>
  (overrideUnrefinesP g (exist p.owner) refs r.notUnrefine r.toUnrefine).bind fun unrefs =>
  (executeRefinesP g dflt maxTag single i { p with req :=
    { toRefine := refs, toUnrefine := unrefs, notRefine := r.notRefine, notUnrefine := [] } }).bind fun res =>
  .done (res.1, if sorted then isort res.2 else res.2)

/-! ## balance_load -/

/-- Cells in `new_pin_requests` (dccrg.hpp:8487-8497). -/
def pinCells (g : Cfg) (p : Proc n D W) : List Nat := (ids g).filter fun c => (p.newPins c).isSome

/-- Stored process of a new pin request, the number of processes for unpinning. -/
def pinNum : Option (Option (Fin n)) → Nat
  | some (some q) => q
  | _ => n

/-- Processes in `new_pin_requests`. -/
def pinProcs (g : Cfg) (p : Proc n D W) : List Nat := (pinCells g p).map fun c => pinNum (p.newPins c)

/-- New pin requests of one process (dccrg.hpp:8503-8511). -/
def pinsFrom (cells procs : List Nat) (pins : Nat → Option (Fin n)) : Nat → Option (Fin n) :=
  (cells.zip procs).foldl (fun pins x => fun c =>
    if c = x.1 then (if h : x.2 < n then some ⟨x.2, h⟩ else none) else pins c) pins

/-- `update_pin_requests` (dccrg.hpp:8483-8526). -/
def updatePinsP (g : Cfg) (p : Proc n D W) : Prog n (Msg D) (Nat → Option (Fin n)) :=
  (gatherP (pinCells g p)).bind fun cells =>
  (gatherP (pinProcs g p)).bind fun procs =>
  .done ((List.finRange n).foldl (fun pins q => pinsFrom (cells q) (procs q) pins) p.pins)

/-- `balance_load` (dccrg.hpp:1041-1062, 3820-4238). `z` are the lists that this process gets from the partitioner, which
must be called by all processes (`Zoltan_LB_Balance`, dccrg.hpp:8557-8570) but might not make them wait for each other. -/
def balanceLoadP (g : Cfg) (dflt : D) (maxTag : Nat) (single : Bool) (i : Fin n) (z : Moves n) (p : Proc n D W) :
    Prog n (Msg D) (Proc n D W) :=
  (updatePinsP g p).bind fun pins => .coll 3 (fun _ => some (.num 0)) (.num 0) fun _ =>
  if ∃ c ∈ ids g, (pins c).isSome ∧ p.owner c = none then .fail
  else
    let recv := moveRecv g i p.owner pins z
    let send := moveSend g i p.owner pins z
    let data := fun c => if ∃ q, c ∈ recv q then some ((p.data c).getD dflt) else p.data c
    (transferP maxTag single send recv data data).bind fun data =>
    (gatherP (gather recv)).bind fun added =>
    if ∃ q, ∃ c ∈ added q, p.owner c = none then .fail
    else Prog.ofOut (rebuild g dflt maxTag i { p with
      owner := fun c => (List.finRange n).foldl (fun acc q => if c ∈ added q then some q else acc) (p.owner c)
      data := fun c => if ∃ q, c ∈ send q then none else data c
      remote := fun _ => none
      req := ⟨[], [], [], []⟩
      refinedData := fun _ => none
      unrefinedData := fun _ => none
      pins := pins
      newPins := fun _ => none
      weights := fun _ => none })

/-! ## Updates of remote neighbors -/

/-- `update_copies_of_remote_neighbors` (dccrg.hpp:978-1014, 5101-5468). -/
def updateRemoteP (g : Cfg) (maxTag : Nat) (single : Bool) (i : Fin n) (id : Int) (p : Proc n D W) :
    Prog n (Msg D) (Proc n D W) :=
  match hoodFor g p id with
  | none => .fail
  | some H =>
    (transferP maxTag single (sendList g H i p.owner fun c => (p.data c).isSome)
      (recvList g H i p.owner fun c => (p.data c).isSome) p.data p.remote).bind fun rem =>
    .done { p with remote := rem }

/-! ## All functions -/

/-- Program of process `i` for one call. -/
def opP (g : Cfg) (dflt : D) (maxTag : Nat) (single : Bool) (i : Fin n) (p : Proc n D W) :
    Op n D W → Prog n (Msg D) (Proc n D W)
  | .refine j c => if j = i then Prog.ofOut
      ((refineCompletely g (exist p.owner) (fun c => (p.data c).isSome) p.req c).bind fun x =>
        .ok { p with req := x.2 }) else .done p
  | .unrefine j c => if j = i then Prog.ofOut
      ((unrefineCompletely g (exist p.owner) (fun c => (p.data c).isSome) p.req c).bind fun x =>
        .ok { p with req := x.2 }) else .done p
  | .dontRefine j c => if j = i then Prog.ofOut
      ((Dccrg.dontRefine g (exist p.owner) p.req c).bind fun x => .ok { p with req := x.2 }) else .done p
  | .dontUnrefine j c => if j = i then Prog.ofOut
      ((Dccrg.dontUnrefine g (exist p.owner) p.req c).bind fun x => .ok { p with req := x.2 }) else .done p
  | .pin j c q => .done (if j = i then (Dccrg.pin g i p c q).2 else p)
  | .unpin j c => .done (if j = i then (Dccrg.unpin g i p c).2 else p)
  | .unpinLocal j => .done (if j = i then (Dccrg.unpinLocal g i p).2 else p)
  | .setWeight j c x => .done (if j = i then (Dccrg.setWeight g i p c x).2 else p)
  | .write j c v => .done (if j = i then Dccrg.write p c v else p)
  | .clearRefined j => .done (if j = i then Dccrg.clearRefined p else p)
  | .unpinAll => .done (Dccrg.unpinAll p)
  | .update id => updateRemoteP g maxTag single i id p
  | .addHood id items =>
    Prog.ofOut ((Dccrg.addHood g dflt maxTag i p id items).bind fun x => .ok x.2)
  | .removeHood id => .done (Dccrg.removeHood p id)
  | .stop sorted => (stopRefiningP g dflt maxTag single sorted i p).bind fun x => .done x.1
  | .balance z => balanceLoadP g dflt maxTag single i (z i) p

/-- Program of a user on one process: calls functions and decides what to do next from the state of its process. -/
inductive User (n : Nat) (D W A : Type) where
  | fin (a : A)
  | call (op : Op n D W) (k : Proc n D W → User n D W A)

/-- Process on which a function is called, `none` if it must be called on all processes. -/
def Op.caller : Op n D W → Option (Fin n)
  | .refine i _ => some i
  | .unrefine i _ => some i
  | .dontRefine i _ => some i
  | .dontUnrefine i _ => some i
  | .pin i _ _ => some i
  | .unpin i _ => some i
  | .unpinLocal i => some i
  | .setWeight i _ _ => some i
  | .write i _ _ => some i
  | .clearRefined i => some i
  | _ => none

/-- Program of a process that runs the user's program, with value returned by user and state at the end. -/
def User.run {A : Type} (g : Cfg) (dflt : D) (maxTag : Nat) (single : Bool) (i : Fin n) :
    User n D W A → Proc n D W → Prog n (Msg D) (A × Proc n D W)
  | .fin a, p => .done (a, p)
  | .call op k, p => (opP g dflt maxTag single i p op).bind fun p => (k p).run g dflt maxTag single i p

end Dccrg
