import Verif.Init
import Verif.MappingRefine
/-!
# Settings of a grid and `initialize`

Models of the functions that configure a grid before `initialize` (dccrg.hpp:8283-8416, 6840-6844), of
the checks in `initialize` (dccrg.hpp:485-562) and of what `start_loading_grid_data` does to the settings
(dccrg.hpp:1993-2061). Failures of MPI and Zoltan are not modelled.
-/
namespace Dccrg

/-- Members of the grid that the user sets (dccrg.hpp:233, 252, 7244-7251, 7286): `mapping_rw`,
`mapping_initialized`, `grid_initialized`, `topology_rw`, `neighborhood_length`, `load_balancing_method` and
`send_single_cells`. -/
structure Setup where
  mapping : Mapping
  lengthSet : Bool
  done : Bool
  periodic : V3 Bool
  hood : Nat
  method : String
  single : Bool

/-- Default constructed grid (dccrg.hpp:7244-7251, 7286; dccrg_topology.hpp:46-51;
dccrg_mapping.hpp:76-80). -/
def Setup.fresh : Setup where
  mapping := Mapping.init
  lengthSet := false
  done := false
  periodic := fun _ => false
  hood := 1
  method := "RCB"
  single := false

/-- Calls of the setup functions with their arguments: `set_initial_length`,
`set_maximum_refinement_level`, `set_periodic`, `set_neighborhood_length`, `set_load_balancing_method`,
`set_send_single_cells` and `initialize` (only the number of caching batches). -/
inductive SetupCall where
  | length (l : V3 Nat)
  | level (l : Int)
  | periodic (p : V3 Bool)
  | hood (h : Nat)
  | method (m : String)
  | single (b : Bool)
  | start (batches : Nat)

namespace Setup

/-- `set_initial_length`, dccrg.hpp:8292-8314: whether it returns (instead of throwing) and new state. -/
def setInitialLength (u : Setup) (l : V3 Nat) : Bool × Setup :=
  if u.lengthSet then (false, u)
  else
    let r := u.mapping.setLength l
    if r.1 then (true, { u with mapping := r.2, lengthSet := true }) else (false, { u with mapping := r.2 })

/-- `set_maximum_refinement_level`, dccrg.hpp:8326-8345. -/
def setMaximumRefinementLevel (u : Setup) (l : Int) : Bool × Setup :=
  if l < 0 then (true, { u with mapping := (u.mapping.setMaxLvl u.mapping.maxPossible).2 })
  else
    let r := u.mapping.setMaxLvl l
    (r.1, { u with mapping := r.2 })

/-- Checks of `initialize`, dccrg.hpp:491-505, and of `create_level_0_cells`, dccrg.hpp:8146-8151. The grid
is marked as initialized before they are made (498). -/
def start (u : Setup) (batches : Nat) : Bool × Setup :=
  if u.done then (false, u)
  else (u.lengthSet && batches != 0, { u with done := true })

/-- Call of a setup function: whether it returns (instead of throwing) and new state. -/
def call (u : Setup) : SetupCall → Bool × Setup
  | .length l => u.setInitialLength l
  | .level l => u.setMaximumRefinementLevel l
  | .periodic p => (true, { u with periodic := p })      -- dccrg.hpp:8360-8365
  | .hood h => (true, { u with hood := h })              -- dccrg.hpp:8383-8386
  | .method m => (true, { u with method := m })          -- dccrg.hpp:8402-8412
  | .single b => (true, { u with single := b })          -- dccrg.hpp:6840-6844
  | .start k => u.start k

/-- State after calls of setup functions; exceptions are caught by the user. -/
def run (u : Setup) (calls : List SetupCall) : Setup := calls.foldl (fun v c => (v.call c).2) u

/-- Grid that the settings describe. -/
def cfg (u : Setup) : Cfg := u.mapping.grid u.periodic u.hood

/-- `initialize` of all processes, dccrg.hpp:485-562: `settings` are those before the call. -/
def createGrid {D W : Type} (u : Setup) (n : Nat) (dflt : D) (maxTag : Nat) (batches : Nat) : Out (Sys n D W) :=
  if (u.start batches).1 then Dccrg.createGrid u.cfg n dflt maxTag else .throws

/-- What `start_loading_grid_data` does to the settings (dccrg.hpp:1993-2061) when the file has given
values: the mapping is read as in `Mapping::read` (dccrg_mapping.hpp:516-569), `mapping_initialized` is not
changed. Simplification: the file can be read. -/
def load (u : Setup) (len : V3 Nat) (lvl : Int) (per : V3 Bool) (hood : Nat) (method : String) : Bool × Setup :=
  let a := u.mapping.setLength len
  if a.1 = false then (false, { u with method := method, mapping := a.2 })
  else
    let b := a.2.setMaxLvl lvl
    if b.1 = false then (false, { u with method := method, mapping := b.2 })
    else (true, { u with method := method, mapping := b.2, hood := hood, periodic := per, done := true })

end Setup
end Dccrg
