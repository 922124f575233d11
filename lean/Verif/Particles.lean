import Verif.VarData
/-!
# The particle test

Model of how particles move between cells in tests/particles/simple.cpp. Positions of particles are of an arbitrary type.
-/
namespace Dccrg
open Cfg
variable {n : Nat} {W X : Type}

/-- What the particle test does to a position. -/
structure Movement (X : Type) where
  /-- `particle[0] += vx` (tests/particles/simple.cpp:64) -/
  add : X → X
  /-- `get_real_coordinate` of the geometry (tests/particles/simple.cpp:74) -/
  wrap : X → X
  /-- `get_existing_cell` (tests/particles/simple.cpp:76) when given cells exist -/
  find : (Nat → Bool) → X → Nat

/-- The loop over particles of cell `c` (tests/particles/simple.cpp:70-95): particles that stay in the list of the cell and those that are removed
from it. The particle after one that was removed takes its place in the list and is not looked at, because the index is increased also then. -/
def scanCell (find : X → Nat) (wrap : X → X) (c : Nat) : List X → List X × List X
  | [] => ([], [])
  | [x] => if find (wrap x) = c then ([wrap x], []) else ([], [wrap x])
  | x :: y :: l =>
    if find (wrap x) = c then (wrap x :: (scanCell find wrap c (y :: l)).1, (scanCell find wrap c (y :: l)).2)
    else (y :: (scanCell find wrap c l).1, wrap x :: (scanCell find wrap c l).2)

/-- Move particles of one cell (tests/particles/simple.cpp:62-66). -/
def addVelocity (m : Movement X) (c : Nat) (p : Proc n (VarCell X) W) : Out (Proc n (VarCell X) W) :=
  match access p c with
  | none => .undef
  | some a => .ok (write p c { a with items := a.items.map m.add })

/-- Add a particle to the list of a neighbor (tests/particles/simple.cpp:87-88). Behavior is undefined if the neighbor has no data. -/
def pushItem (x : X) (d : Nat) (p : Proc n (VarCell X) W) : Out (Proc n (VarCell X) W) :=
  match access p d with
  | none => .undef
  | some a => .ok (write p d ⟨a.items.length + 1, a.items ++ [x]⟩)

/-- Body of the loop over cells (tests/particles/simple.cpp:69-96). Particles are removed from the list of the cell before adding them to lists of
neighbors, none of which is that of the cell itself because particles are removed only if they are in another cell. -/
def moveParticles (m : Movement X) (k : Cache) (x : CellItem) (p : Proc n (VarCell X) W) : Out (Proc n (VarCell X) W) :=
  match access p x.id with
  | none => .undef
  | some a =>
    let find := m.find (exist p.owner)
    let r := scanCell find m.wrap x.id a.items
    Out.fold (fun y => Out.fold (pushItem y) (((range k.nbrs x.of).map (·.1)).filter (· == find y))) r.2
      (write p x.id ⟨if r.2.isEmpty then a.count else r.1.length, r.1⟩)

/-- `propagate_particles` (tests/particles/simple.cpp:52-97). -/
def propagateParticles (g : Cfg) (m : Movement X) (i : Fin n) (p : Proc n (VarCell X) W) : Out (Proc n (VarCell X) W) :=
  (updatePointers g i p defaultId).bind fun k =>
  (Out.fold (fun x => addVelocity m x.id) (range k.cells k.all) p).bind fun q =>
  Out.fold (moveParticles m k) (range k.cells k.all) q

/-- One step on all processes (tests/particles/simple.cpp:284-296). -/
def particleStep (g : Cfg) (maxTag : Nat) (e : X) (m : Movement X) (s : Sys n (VarCell X) W) : Out (Sys n (VarCell X) W) :=
  (exchangeVar g maxTag e s).bind fun t => Out.collect fun i => propagateParticles g m i (t i)

end Dccrg
