import Verif.Query
/-!
# Partitioner

Functions through which the partitioner (Zoltan) asks about the grid (dccrg.hpp:11773-12411) and options that are given
to it (dccrg.hpp:5623-5937). Arrays given by the partitioner are functions that are undefined where nothing has been
written. `.throws` is `ZOLTAN_FATAL`. Numbers are not bounded by `int`. Order of cells is that of `cell_data`, which is
the same in all calls as nothing is added or removed between them.
-/
namespace Dccrg
open Cfg
variable {n : Nat} {D W : Type}

/-- An array. -/
abbrev Buf (α : Type) := Nat → Option α

/-- Assignment to an item of array. -/
def Buf.set {α : Type} (b : Buf α) (k : Nat) (v : α) : Buf α := fun x => if x = k then some v else b x

def Buf.empty {α : Type} : Buf α := fun _ => none

/-- `get_number_of_cells` (dccrg.hpp:11842-11861), `mine` is the order of `cell_data`. -/
def getNumberOfCells (mine : List Nat) : Nat := mine.length

/-- `fill_cell_list` (dccrg.hpp:11869-11918): ids and weights. -/
def fillCellList (p : Proc n D W) (one : W) (mine : List Nat) : Nat × Buf Nat × Buf W :=
  mine.foldl (fun x c => (x.1 + 1, x.2.1.set x.1 c, x.2.2.set x.1 ((p.weights c).getD one))) (0, .empty, .empty)

/-- `neighbors_of.at(cell)`, cells only. -/
def nbrsAt (g : Cfg) (p : Proc n D W) (c : Nat) : Out (List Nat) :=
  match getNeighborsOf g p c defaultId with
  | none => .throws
  | some l => .ok (l.map Prod.fst)

/-- Inner loop of `fill_number_of_neighbors_for_cells` (dccrg.hpp:11961-11971). -/
def countNbrs (c : Nat) (l : List Nat) : Nat := l.foldl (fun k b => if b ≠ 0 ∧ b ≠ c then k + 1 else k) 0

/-- `fill_number_of_neighbors_for_cells` (dccrg.hpp:11926-11974), second argument is `i` of next cell. -/
def fillNumbers (g : Cfg) (p : Proc n D W) : List Nat → Nat → Buf Nat → Out (Buf Nat)
  | [], _, b => .ok b
  | c :: cs, i, b =>
    if p.has c = false then .throws
    else (nbrsAt g p c).bind fun l => fillNumbers g p cs (i + 1) (b.set i (countNbrs c l))

/-- What `fill_neighbor_lists` writes to: `current_neighbor_number`, `number_of_neighbors`, `neighbors` and
`processes_of_neighbors`. Weights of edges are all 1. -/
structure NbrBufs (n : Nat) where
  cur : Nat
  nums : Buf Nat
  nbrs : Buf Nat
  procs : Buf (Fin n)

/-- Inner loop of `fill_neighbor_lists` (dccrg.hpp:12025-12050), `cell_process.at` throws. -/
def fillNbrs (p : Proc n D W) (c i : Nat) : List Nat → NbrBufs n → Out (NbrBufs n)
  | [], t => .ok t
  | b :: l, t =>
    if b = 0 ∨ b = c then fillNbrs p c i l t
    else match p.owner b with
      | none => .throws
      | some q => fillNbrs p c i l
          { cur := t.cur + 1, nums := t.nums.set i ((t.nums i).getD 0 + 1), nbrs := t.nbrs.set t.cur b
            procs := t.procs.set t.cur q }

/-- `fill_neighbor_lists` (dccrg.hpp:11982-12053). -/
def fillLists (g : Cfg) (p : Proc n D W) : List Nat → Nat → NbrBufs n → Out (NbrBufs n)
  | [], _, t => .ok t
  | c :: cs, i, t =>
    if p.has c = false then .throws
    else (nbrsAt g p c).bind fun l =>
      (fillNbrs p c i l { t with nums := t.nums.set i 0 }).bind fun t => fillLists g p cs (i + 1) t

/-- `fill_number_of_hyperedges` (dccrg.hpp:12061-12103): numbers of hyperedges and connections. -/
def fillHyperNumbers (g : Cfg) (p : Proc n D W) (mine : List Nat) : Out (Nat × Nat) :=
  (go mine 0).bind fun k => .ok (mine.length, k)
where
  go : List Nat → Nat → Out Nat
  | [], k => .ok k
  | c :: cs, k => (nbrsAt g p c).bind fun l =>
      go cs (l.foldl (fun k b => if b ≠ 0 ∧ b ≠ c then k + 1 else k) (k + 1))

/-- What `fill_hyperedge_lists` writes to: `connection_number`, `hyperedges`, `hyperedge_connection_offsets` and
`connections`. -/
structure HyperBufs where
  cur : Nat
  edges : Buf Nat
  offsets : Buf Nat
  conns : Buf Nat

/-- Inner loop of `fill_hyperedge_lists` (dccrg.hpp:12165-12176). -/
def fillConns (c : Nat) (l : List Nat) (t : HyperBufs) : HyperBufs :=
  l.foldl (fun t b => if b = 0 ∨ b = c then t else { t with cur := t.cur + 1, conns := t.conns.set t.cur b }) t

/-- Loop over cells of `fill_hyperedge_lists` (dccrg.hpp:12156-12179). -/
def fillHyper (g : Cfg) (p : Proc n D W) : List Nat → Nat → HyperBufs → Out HyperBufs
  | [], _, t => .ok t
  | c :: cs, i, t => (nbrsAt g p c).bind fun l =>
      fillHyper g p cs (i + 1) (fillConns c l
        { cur := t.cur + 1, edges := t.edges.set i c, offsets := t.offsets.set i t.cur, conns := t.conns.set t.cur c })

/-- `fill_hyperedge_lists` (dccrg.hpp:12111-12189) with format of compressed edges. -/
def fillHyperLists (g : Cfg) (p : Proc n D W) (mine : List Nat) (edges conns : Nat) : Out HyperBufs :=
  if edges ≠ mine.length then .throws
  else (fillHyper g p mine 0 ⟨0, .empty, .empty, .empty⟩).bind fun t =>
    if t.cur ≠ conns then .throws else .ok t

/-- `fill_edge_weights` (dccrg.hpp:12223-12283): hyperedges and their weights. -/
def fillEdgeWeights (g : Cfg) (p : Proc n D W) (mine : List Nat) (edges : Nat) : Out (Buf Nat × Buf Nat) :=
  if edges ≠ mine.length then .throws
  else go mine 0 (.empty, .empty)
where
  go : List Nat → Nat → Buf Nat × Buf Nat → Out (Buf Nat × Buf Nat)
  | [], _, t => .ok t
  | c :: cs, i, t => (nbrsAt g p c).bind fun l => go cs (i + 1) (t.1.set i c, t.2.set i (countNbrs c l))

/-! ## Hierarchical partitioning -/

/-- Loop of `get_part_number` (dccrg.hpp:12345-12348) over processes per part of levels until the asked one, other
arguments are `process` and `part`. -/
def partLoop : List Nat → Nat → Nat → Nat
  | [], _, part => part
  | k :: ks, process, _ => partLoop ks (process % k) (process / k)

/-- `get_part_number` (dccrg.hpp:12315-12354) of process with given rank, `.throws` is `ZOLTAN_FATAL`. `part` has no
value before the loop, which is done at least once. -/
def getPartNumber (perPart : List Nat) (rank : Nat) (level : Int) : Out Nat :=
  if level < 0 ∨ level ≥ perPart.length then .throws
  else .ok (partLoop (perPart.take (level.toNat + 1)) rank 0)

/-- Options of one level, `std::unordered_map` of names and values. -/
abbrev Options := List (String × String)

/-- `map[name] = value`. -/
def Options.set (o : Options) (name value : String) : Options := (name, value) :: o.filter fun x => x.1 != name

/-- `map.erase(name)`. -/
def Options.erase (o : Options) (name : String) : Options := o.filter fun x => x.1 != name

/-- `reserved_options` (dccrg.hpp:7889-7897). -/
def reservedOptions : List String :=
  ["EDGE_WEIGHT_DIM", "NUM_GID_ENTRIES", "NUM_LID_ENTRIES", "OBJ_WEIGHT_DIM", "RETURN_LISTS", "NUM_GLOBAL_PARTS",
    "NUM_LOCAL_PARTS", "AUTO_MIGRATE"]

/-- `processes_per_part` and `partitioning_options` (dccrg.hpp:7429-7432). -/
structure Levels where
  perPart : List Nat
  options : List Options

/-- Both have the same number of items. -/
def Levels.Ok (t : Levels) : Prop := t.options.length = t.perPart.length

/-- Whether a level does not exist (dccrg.hpp:5747-5750 and others). -/
def Levels.missing (t : Levels) (level : Int) : Bool := decide (level < 0 ∨ level ≥ t.perPart.length)

/-- `add_partitioning_level` (dccrg.hpp:5684-5720). -/
def Levels.add (t : Levels) (processes : Int) : Out Levels :=
  if processes < 1 then .throws
  else .ok { perPart := t.perPart ++ [processes.toNat]
             options := t.options ++ [(Options.set [] "LB_METHOD" "HYPERGRAPH").set "PHG_CUT_OBJECTIVE" "CONNECTIVITY"] }

/-- `remove_partitioning_level` (dccrg.hpp:5734-5765). -/
def Levels.remove (t : Levels) (level : Int) : Levels :=
  if t.missing level then t
  else { perPart := t.perPart.eraseIdx level.toNat, options := t.options.eraseIdx level.toNat }

/-- `add_partitioning_option` (dccrg.hpp:5783-5821). -/
def Levels.addOption (t : Levels) (level : Int) (name value : String) : Out Levels :=
  if t.missing level then .ok t
  else if name ∈ reservedOptions then .throws
  else .ok { t with options := t.options.modify level.toNat (·.set name value) }

/-- `remove_partitioning_option` (dccrg.hpp:5835-5865). -/
def Levels.removeOption (t : Levels) (level : Int) (name : String) : Levels :=
  if t.missing level then t
  else { t with options := t.options.modify level.toNat (·.erase name) }

/-- `get_partitioning_options` (dccrg.hpp:5875-5905), `.at` throws. -/
def Levels.names (t : Levels) (level : Int) : Out (List String) :=
  if t.missing level then .ok []
  else match t.options[level.toNat]? with
    | none => .throws
    | some o => .ok (o.map Prod.fst)

/-- `get_partitioning_option_value` (dccrg.hpp:5915-5937). -/
def Levels.value (t : Levels) (level : Int) (name : String) : Out String :=
  if t.missing level then .ok ""
  else match t.options[level.toNat]? with
    | none => .throws
    | some o => .ok ((o.lookup name).getD "")

end Dccrg
