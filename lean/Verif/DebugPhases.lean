import Verif.Debug
import Verif.StoredPhases
/-!
# Load balancing in phases in debug builds

Checks under `#ifdef DEBUG` in `initialize_balance_load`, `continue_balance_load` and `finish_balance_load` when users call
them separately.
-/
namespace Dccrg
open Cfg
variable {n : Nat} {D W : Type}

/-- `initialize_balance_load` (dccrg.hpp:3820-3965) with its checks: those of `initBalanceD` before and those of moving cells
(dccrg.hpp:3896-3960) after tags have been checked (dccrg.hpp:8665-8676, 8744-8755). -/
def startBalanceD (g : Cfg) (dflt : D) (maxTag : Nat) (z : Fin n → Moves n) (s : Sys n D W) (σ : Fin n → Store n) :
    Out (Fin n → Balancing n D W) :=
  (Out.collect fun i => initBalanceD g dflt s σ z i).bind fun b =>
  if tagsOver maxTag b then .throws
  else if ∃ i, dbgMoves b (s i).owner = false then .throws
  else .ok b

/-- `continue_balance_load` (dccrg.hpp:3982-4020) with checks in `start_user_data_transfers` (dccrg.hpp:10794-10802,
11010-11018). -/
def runPhaseD (maxTag : Nat) (b : Fin n → Balancing n D W) : Phase n D → Out (Fin n → Balancing n D W)
  | .move m =>
    if dbgSelf (fun p => (b p).send) (fun p => (b p).recv) = false then .throws else runPhase maxTag b (.move m)
  | .write i c v => runPhase maxTag b (.write i c v)

/-- What `finish_balance_load` (dccrg.hpp:4030-4238) does and stores. `σ` is stored before. -/
def finishStored (g : Cfg) (dflt : D) (maxTag : Nat) (b : Fin n → Balancing n D W) (σ : Fin n → Store n) :
    Out (Sys n D W × (Fin n → Store n)) :=
  (finishBalance g dflt maxTag b).bind fun t =>
  (Out.collect fun i => closeStore g maxTag i (t i) (σ i)).bind fun σ' => .ok (t, σ')

/-- Same with checks before (dccrg.hpp:4077-4150), while storing and after (dccrg.hpp:4202-4230). -/
def finishStoredD (g : Cfg) (dflt : D) (maxTag : Nat) (b : Fin n → Balancing n D W) (σ : Fin n → Store n) :
    Out (Sys n D W × (Fin n → Store n)) :=
  (finishBalanceD g dflt maxTag b).bind fun t =>
  (Out.collect fun i => rebuildStoreD g maxTag false i (t i) { σ i with
    send := fun _ => []
    recv := fun _ => [] }).bind fun σ' =>
  Out.check (dbgAll g t σ') (.ok (t, σ'))

end Dccrg
