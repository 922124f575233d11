import Verif.Advect
import Verif.Lists
/-!
# Adapting the grid in the advection test

Requested cells are given, and so are velocities and lengths that are calculated from positions of cells.
-/
namespace Dccrg
variable {n : Nat} {W : Type}

/-- State of the parent is assigned to a new cell (tests/advection/adapter.hpp:232-251). -/
def fillNew (g : Cfg) (c : Nat) (p : Proc n AdvCell W) : Out (Proc n AdvCell W) :=
  match access p c with
  | none => .throws
  | some a =>
    match access p (g.parent c) with
    | none => .throws
    | some b => .ok (write p c { a with density := b.density, flux := 0 })

/-- State of a parent of removed cells is initialized (tests/advection/adapter.hpp:266-277). -/
def emptyParent (c : Nat) (p : Proc n AdvCell W) : Out (Proc n AdvCell W) :=
  match access p c with
  | none => .throws
  | some a => .ok (write p c { a with density := 0, flux := 0 })

/-- Density of a removed cell is added to its parent (tests/advection/adapter.hpp:280-300). -/
def fillParent (g : Cfg) (c : Nat) (p : Proc n AdvCell W) : Out (Proc n AdvCell W) :=
  match access p c with
  | none => .throws
  | some a =>
    match access p (g.parent c) with
    | none => .throws
    | some b => .ok (write p (g.parent c) { b with density := b.density + a.density / 8 })

/-- Velocities and lengths are updated (tests/advection/adapter.hpp:305-314). -/
def setShape (len vel : Nat → V3 Rat) (c : Nat) (p : Proc n AdvCell W) : Out (Proc n AdvCell W) :=
  match access p c with
  | none => .undef
  | some a => .ok (write p c { a with len := len c, v := vel c })

/-- What a process does after `stop_refining` has returned `new` (tests/advection/adapter.hpp:232-314). Parents are in
the order of `std::set` in the program, here in that of removed cells. -/
def adaptProc (g : Cfg) (len vel : Nat → V3 Rat) (id : Int) (i : Fin n) (p : Proc n AdvCell W) (new : List Nat) :
    Out (Proc n AdvCell W) :=
  (Out.fold (fillNew g) new p).bind fun p1 =>
  let removed := getRemovedCells g p1 false
  (Out.fold emptyParent (dedup (removed.map g.parent)) p1).bind fun p2 =>
  (Out.fold (fillParent g) removed p2).bind fun p3 =>
  (updatePointers g i (clearRefined p3) id).bind fun k =>
    Out.fold (fun x => setShape len vel x.id) (range k.cells k.loc) (clearRefined p3)

/-- Requests of a process (tests/advection/adapter.hpp:204-223). Failures are only counted. -/
def adaptAsks (refine keep unrefine : Fin n → List Nat) (i : Fin n) : List (Op n AdvCell W) :=
  (refine i).map (.refine i) ++ (keep i).map (.dontUnrefine i) ++ (unrefine i).map (.unrefine i)

/-- `adapt_grid` (tests/advection/adapter.hpp:187-319) on all processes, given cells each process wants to refine, not to
unrefine and to unrefine. Processes do not affect each other before `stop_refining`, here they make their requests one
after another. The returned numbers of cells are not modelled. -/
def adaptGrid (g : Cfg) (dflt : AdvCell) (maxTag : Nat) (len vel : Nat → V3 Rat) (id : Int)
    (refine keep unrefine : Fin n → List Nat) (s : Sys n AdvCell W) : Out (Sys n AdvCell W) :=
  if g.maxLvl = 0 then .ok s
  else
    (Out.fold (fun op s => step g dflt maxTag s op) ((List.finRange n).flatMap (adaptAsks refine keep unrefine)) s).bind fun s1 =>
    (stopRefining g dflt maxTag false s1).bind fun r =>
    (Out.collect fun i => adaptProc g len vel id i (r i).1 (r i).2).bind fun s2 =>
    step g dflt maxTag s2 (.update defaultId)

/-- State of a cell when the simulation starts (tests/advection/initialize.hpp:37-79) with given density. -/
def startCell (density : Nat → Rat) (len vel : Nat → V3 Rat) (c : Nat) (p : Proc n AdvCell W) : Out (Proc n AdvCell W) :=
  match access p c with
  | none => .undef
  | some _ => .ok (write p c ⟨density c, 0, len c, vel c⟩)

/-- `initialize` (tests/advection/initialize.hpp:36-82) on all processes. -/
def startAdvection (g : Cfg) (dflt : AdvCell) (maxTag : Nat) (density : Nat → Rat) (len vel : Nat → V3 Rat)
    (s : Sys n AdvCell W) : Out (Sys n AdvCell W) :=
  (Out.collect fun i => (updatePointers g i (s i) defaultId).bind fun k =>
    Out.fold (fun x => startCell density len vel x.id) (range k.cells k.loc) (s i)).bind fun s1 =>
  step g dflt maxTag s1 (.update defaultId)

end Dccrg
