import Verif.Objects
import Verif.StoredPhases
/-!
# Objects behind pointers when load is balanced in phases

Model of what `initialize_balance_load`, `continue_balance_load` and `finish_balance_load` do with objects (Verif/Objects.lean)
when users call them separately. Items of iterators are made only by `finish_balance_load`.
-/
namespace Dccrg
open Cfg
variable {n : Nat} {D W X Y : Type}

/-- Objects after `initialize_balance_load`: arriving cells are made (dccrg.hpp:3864-3878), copies of remote neighbors and data of
refined and unrefined cells are cleared (dccrg.hpp:3887-3891). -/
def openObjs (b : Balancing n D W) (h : Objs) : Objs :=
  (((h.addAll .own ((List.finRange n).flatMap b.recv)).clear .copy).clear .refined).clear .unrefined

/-- Objects after `continue_balance_load`: an object is made if there is none for a received cell (dccrg.hpp:10796-10798). -/
def moveObjs (b : Balancing n D W) (h : Objs) : Objs := h.addAll .own ((List.finRange n).flatMap b.recv)

/-- Objects after `finish_balance_load`, before copies of remote neighbors are allocated: removed cells are erased
(dccrg.hpp:4165-4168). -/
def closeObjs (b : Balancing n D W) (h : Objs) : Objs := h.del .own ((List.finRange n).flatMap b.send)

/-- Objects `h` after what has happened since `initialize_balance_load` returned on all processes, see `Meanwhile`. -/
inductive MeanwhileObjs (g : Cfg) (dflt : D) (maxTag : Nat) (σ : Fin n → Store n) (b : Fin n → Balancing n D W) (h0 : Fin n → Objs) :
    Calls → (Fin n → Balancing n D W) → (Fin n → Objs) → Prop
  | start : MeanwhileObjs g dflt maxTag σ b h0 Calls.none b fun i => openObjs (b i) (h0 i)
  | move {k : Calls} {b1 b2 : Fin n → Balancing n D W} {h : Fin n → Objs} (m : Fin n → Fin n → Nat → D → D → D) :
      MeanwhileObjs g dflt maxTag σ b h0 k b1 h → runPhase maxTag b1 (.move m) = .ok b2 →
      MeanwhileObjs g dflt maxTag σ b h0 k b2 fun i => moveObjs (b1 i) (h i)
  | call {k : Calls} {b1 : Fin n → Balancing n D W} {s2 : Sys n D W} {h h' : Fin n → Objs} (op : Op n D W) (i : Fin n) :
      MeanwhileObjs g dflt maxTag σ b h0 k b1 h → op.caller = some i → step g dflt maxTag (inside b1) op = .ok s2 →
      objsAfter g dflt (inside b1) σ h op = .ok h' →
      MeanwhileObjs g dflt maxTag σ b h0 (k.add g (inside b1) op) (putInside b1 s2) h'

/-- Histories with objects and items in which load is also balanced in phases. -/
inductive Viewing {n : Nat} {W X Y : Type} (e : Extras n X Y) (g : Cfg) :
    {D : Type} → D → Nat → Sys n D W → (Fin n → Store n) → (Fin n → Views n X Y) → Prop
  | init {D : Type} {dflt : D} {maxTag : Nat} {s : Sys n D W} {σ : Fin n → Store n} :
      createGrid g n dflt maxTag = .ok s → (Out.collect fun i => initStore g maxTag i (s i)) = .ok σ →
      Viewing e g dflt maxTag s σ fun i => viewsStart e g (s i) (σ i)
  | step {D : Type} {dflt : D} {maxTag : Nat} {s s' : Sys n D W} {σ σ' : Fin n → Store n} {v : Fin n → Views n X Y}
      {h : Fin n → Objs} (op : Op n D W) :
      Viewing e g dflt maxTag s σ v → op.Ok s → stepStored g dflt maxTag s σ op = .ok (s', σ') →
      objsAfter g dflt s σ (fun i => (v i).objs) op = .ok h →
      Viewing e g dflt maxTag s' σ' fun i => viewsAfter e g op (s i) (s' i) (σ' i) (h i) (v i)
  | copy {D D0 : Type} {dflt : D} {dflt0 : D0} {maxTag : Nat} {s : Sys n D0 W} {σ σ' : Fin n → Store n} {v : Fin n → Views n X Y} :
      Viewing e g dflt0 maxTag s σ v →
      (Out.collect fun i => copyStore g (copyProc g dflt i (s i)) (σ i)) = .ok σ' →
      Viewing e g dflt maxTag (copyGrid g dflt s) σ' fun i => viewsStart e g (copyProc g dflt i (s i)) (σ' i)
  | phases {D : Type} {dflt : D} {maxTag : Nat} {s t : Sys n D W} {σ σ' : Fin n → Store n} {v : Fin n → Views n X Y} {k : Calls}
      {b0 b1 : Fin n → Balancing n D W} {h : Fin n → Objs} (z : Fin n → Moves n) :
      Viewing e g dflt maxTag s σ v → (Op.balance z : Op n D W).Ok s → startBalance g dflt maxTag z s = .ok b0 →
      MeanwhileObjs g dflt maxTag (fun i => openStore (b0 i) (σ i)) b0 (fun i => (v i).objs) k b1 h →
      finishBalance g dflt maxTag b1 = .ok t →
      (Out.collect fun i => closeStore g maxTag i (t i) (openStore (b0 i) (σ i))) = .ok σ' →
      Viewing e g dflt maxTag t σ' fun i =>
        viewsAfter e g (.balance z : Op n D W) (s i) (t i) (σ' i) (closeObjs (b1 i) (h i)) (v i)

end Dccrg
