import Verif.Query
/-!
# Stored lists of neighbors and cells

The code stores lists of neighbors, cells on process boundaries, cells to send and receive and vectors of
cells and neighbors behind iterators. Functions of the API read these. Here they are a part of the state, changed
by operations as in the code. Other modules calculate them from `cell_process` when asked; that the result is the
same is proved in Verif/StoredSpec.lean.

Containers are functions to `Option`, `none` is a missing key. Loops over unordered containers are over
ascending ids; sets are lists without repetitions whose order is unspecified in the code.
-/
namespace Dccrg
open Cfg
variable {n : Nat} {D W : Type}

/-- Neighbors with their offsets. -/
abbrev Nbrs := List (Nat × V3 Int)

/-- What a process has stored. -/
structure Store (n : Nat) where
  /-- `neighbors_` (dccrg.hpp:7305) -/
  six : Nat → Option (Fin 3 → Bool → Nat)
  /-- `neighbors_of`, `neighbors_to` -/
  of : Nat → Option Nbrs
  to : Nat → Option Nbrs
  /-- `user_neigh_of`, `user_neigh_to` (dccrg.hpp:7363) -/
  userOf : Int → Option (Nat → Option Nbrs)
  userTo : Int → Option (Nat → Option Nbrs)
  /-- `local_cells_on_process_boundary`, `remote_cells_on_process_boundary` (dccrg.hpp:7370-7374) -/
  loc : List Nat
  rem : List Nat
  /-- `user_local_cells_on_process_boundary`, `user_remote_cells_on_process_boundary` (dccrg.hpp:7382) -/
  userLoc : Int → Option (List Nat)
  userRem : Int → Option (List Nat)
  /-- `cells_to_send`, `cells_to_receive` (dccrg.hpp:7394) without tags, which are positions counted from 1. A
  missing process is an empty list. -/
  send : Fin n → List Nat
  recv : Fin n → List Nat
  /-- `user_neigh_cells_to_send`, `user_neigh_cells_to_receive` (dccrg.hpp:7405) -/
  userSend : Int → Option (Fin n → List Nat)
  userRecv : Int → Option (Fin n → List Nat)
  /-- `cells_rw`, `neighbors_rw`, `inner_cells_default`, ..., `all_cells_default` (dccrg.hpp:7513-7618) -/
  ptr : Cache
  /-- `cells_user`, `neighbors_user`, `inner_cells_user`, ..., `remote_cells_user` (dccrg.hpp:7515-7620), which are
  always set and erased together -/
  userPtr : Int → Option Cache
  /-- `all_cells_user` (dccrg.hpp:7620) -/
  userAll : Int → Option (Nat × Nat)

/-- Assignment to an entry of a container. -/
def setAt {α β : Type} [DecidableEq α] (m : α → Option β) (a : α) (b : β) : α → Option β :=
  fun x => if x = a then some b else m x

/-- Erasing an entry. -/
def eraseAt {α β : Type} [DecidableEq α] (m : α → Option β) (a : α) : α → Option β :=
  fun x => if x = a then none else m x

/-- `at` of a container. -/
def Out.at {α β : Type} (m : α → Option β) (a : α) : Out β :=
  match m a with
  | some b => .ok b
  | none => .throws

/-- Insertion into a set. -/
def ins (x : Nat) (l : List Nat) : List Nat := l.filter (· != x) ++ [x]

/-- Cells in `cell_process`. -/
def cellsIn (g : Cfg) (w : Owner n) : List Nat := (ids g).filter fun c => exist w c

/-- Cells in `cell_data`. -/
def heldBy (g : Cfg) (p : Proc n D W) : List Nat := (ids g).filter fun c => p.has c

/-! ## Neighbors -/

/-- `update_neighbors_(cell)` (dccrg.hpp:9518-9628): new entry, if any. -/
def sixEntry (g : Cfg) (E : Nat → Bool) (c : Nat) : Option (Fin 3 → Bool → Nat) :=
  if c = 0 ∨ E c = false ∨ c ≠ getChild g E c then none else some (nbr6 g E c)

/-- `update_neighbors_()` (dccrg.hpp:9507-9513). -/
def updateSix (g : Cfg) (w : Owner n) : Nat → Option (Fin 3 → Bool → Nat) :=
  (cellsIn g w).foldl (fun m c => match sixEntry g (exist w) c with
    | some x => setAt m c x
    | none => m) fun _ => none

/-- Search loop of `find_neighbors_of` (dccrg.hpp:4626-4714) which reads stored `neighbors_`, at most `fuel` steps. -/
def walkT (g : Cfg) (T : Nat → Option (Fin 3 → Bool → Nat)) (L : Int) (o : V3 Int) : Nat → Nat → V3 Int → Walk
  | fuel, cur, off =>
    match nextDir L o (g.side cur) off with
    | none => .found cur off
    | some (d, pos) =>
      match fuel with
      | 0 => .hang
      | fuel + 1 =>
        match T cur with
        | none => .threw
        | some nbs => if nbs d pos = 0 then .outside
          else walkT g T L o fuel (nbs d pos) (adjust g off cur (nbs d pos) d pos)

/-- Loop over neighborhood items in `find_neighbors_of` (dccrg.hpp:4611-4768). -/
def findItemsT (g : Cfg) (T : Nat → Option (Fin 3 → Bool → Nat)) (c : Nat) : List (V3 Int) → Out Nbrs
  | [] => .ok []
  | o :: H =>
    match walkT g T (g.side c) o (walkFuel g o) c (fun _ => 0) with
    | .hang => .hangs
    | .threw => .throws
    | .outside => findItemsT g T c H
    | .found cur off =>
      match collect g c cur off with
      | none => .throws
      | some l => (findItemsT g T c H).bind fun r => .ok (l ++ r)

/-- `find_neighbors_of(cell, neighborhood)` (dccrg.hpp:4430-4771). -/
def findNeighborsOfT (g : Cfg) (E : Nat → Bool) (T : Nat → Option (Fin 3 → Bool → Nat)) (c : Nat)
    (H : List (V3 Int)) : Out Nbrs :=
  if c = 0 ∨ E c = false then .throws
  else match T c with
    | none => .throws
    | some _ => findItemsT g T c H

/-- `find_neighbors_to` with offsets, which are all zero. -/
def findNeighborsTo0 (g : Cfg) (E : Nat → Bool) (c : Nat) (H : List (V3 Int)) : Out Nbrs :=
  (findNeighborsTo g E c H).bind fun l => .ok (l.map fun b => (b, fun _ => 0))

/-- `update_neighbors()` and `update_neighbors(cell)` (dccrg.hpp:9088-9123). -/
def updateLists (g : Cfg) (w : Owner n) (σ : Store n) : Out (Store n) :=
  Out.fold (fun c σ =>
    if exist w c = false then .ok σ
    else if c ≠ getChild g (exist w) c then .ok σ
    else if c ≠ getParent g (exist w) c then .ok σ
    else
      (findNeighborsOfT g (exist w) σ.six c (hoodOf g)).bind fun l =>
      (findNeighborsTo0 g (exist w) c (negHood (hoodOf g))).bind fun r =>
      .ok { σ with of := setAt σ.of c l, to := setAt σ.to c r })
    (cellsIn g w) { σ with of := fun _ => none, to := fun _ => none }

/-- Lists of neighbors in `initialize_neighbors` (dccrg.hpp:8429-8452). -/
def initLists (g : Cfg) (w : Owner n) (σ : Store n) : Out (Store n) :=
  Out.fold (fun c σ =>
      (findNeighborsOfT g (exist w) σ.six c (hoodOf g)).bind fun l =>
      (findNeighborsTo0 g (exist w) c (negHood (hoodOf g))).bind fun r =>
      .ok { σ with of := setAt σ.of c l, to := setAt σ.to c r })
    (cellsIn g w) σ

/-- `operator[]` of a container of containers: an empty one is made if needed. -/
def entry (m : Int → Option (Nat → Option Nbrs)) (id : Int) : Nat → Option Nbrs :=
  (m id).getD fun _ => none

/-- `update_user_neighbors(cell, id)` (dccrg.hpp:9167-9174). -/
def updateUserLists (g : Cfg) (w : Owner n) (x : Int × List (V3 Int)) (c : Nat) (σ : Store n) : Out (Store n) :=
  (findNeighborsOfT g (exist w) σ.six c x.2).bind fun l =>
  (findNeighborsTo0 g (exist w) c (negHood x.2)).bind fun r =>
  .ok { σ with
    userOf := setAt σ.userOf x.1 (setAt (entry σ.userOf x.1) c l)
    userTo := setAt σ.userTo x.1 (setAt (entry σ.userTo x.1) c r) }

/-- Clearing of lists of user neighborhoods (dccrg.hpp:4155-4158, 10700-10703). -/
def clearUserLists (x : Int × List (V3 Int)) (σ : Store n) : Out (Store n) :=
  (Out.at σ.userOf x.1).bind fun _ =>
  (Out.at σ.userTo x.1).bind fun _ =>
  .ok { σ with
    userOf := setAt σ.userOf x.1 fun _ => none
    userTo := setAt σ.userTo x.1 fun _ => none }

/-! ## Cells on process boundaries -/

/-- Loop over neighbors of `c` in `update_remote_neighbor_info(cell)` (dccrg.hpp:9237-9261 with check for
`error_cell`, 9264-9280 without) or `update_user_remote_neighbor_info` (dccrg.hpp:9367-9390, 9393-9417): sets of local and
remote cells. -/
def infoLoop (i : Fin n) (w : Owner n) (skip : Bool) (c : Nat) (l : Nbrs) (s : List Nat × List Nat) :
    Out (List Nat × List Nat) :=
  Out.fold (fun b s =>
    if skip = true ∧ b.1 = 0 then .ok s
    else (Out.at w b.1).bind fun j =>
      if j ≠ i then .ok (ins c s.1, ins b.1 s.2) else .ok s) l s

/-- `update_remote_neighbor_info(cell)` (dccrg.hpp:9186-9289). -/
def cellInfo (i : Fin n) (w : Owner n) (of to : Nat → Option Nbrs) (c : Nat) (s : List Nat × List Nat) :
    Out (List Nat × List Nat) :=
  match w c with
  | none => .ok s
  | some j =>
    if j ≠ i then .ok s
    else
      (Out.at of c).bind fun l => (infoLoop i w true c l s).bind fun s =>
      (Out.at to c).bind fun r => infoLoop i w false c r s

/-- `update_user_remote_neighbor_info(cell, id)` (dccrg.hpp:9300-9425). -/
def userCellInfo (g : Cfg) (i : Fin n) (w : Owner n) (of to : Nat → Option Nbrs) (c : Nat) (s : List Nat × List Nat) :
    Out (List Nat × List Nat) :=
  (Out.at w c).bind fun j =>
    if j ≠ i then .ok s
    else if c ≠ getChild g (exist w) c then .ok s
    else
      (Out.at of c).bind fun l => (infoLoop i w true c l s).bind fun s =>
      (Out.at to c).bind fun r => infoLoop i w false c r s

/-- `update_remote_neighbor_info()` (dccrg.hpp:9432-9465). -/
def updateInfo (g : Cfg) (i : Fin n) (p : Proc n D W) (σ : Store n) : Out (Store n) :=
  (Out.fold (fun c s =>
    if c ≠ getChild g (exist p.owner) c then .ok s else cellInfo i p.owner σ.of σ.to c s)
    (heldBy g p) ([], [])).bind fun s =>
  .ok { σ with loc := s.1, rem := s.2 }

/-- `update_user_remote_neighbor_info(id)` (dccrg.hpp:9472-9504). -/
def updateUserInfo (g : Cfg) (i : Fin n) (p : Proc n D W) (id : Int) (σ : Store n) : Out (Store n) :=
  (Out.fold (fun c s =>
    if c ≠ getChild g (exist p.owner) c then .ok s
    else
      (Out.at σ.userOf id).bind fun of => (Out.at σ.userTo id).bind fun to =>
      userCellInfo g i p.owner of to c s)
    (heldBy g p) ([], [])).bind fun s =>
  .ok { σ with userLoc := setAt σ.userLoc id s.1, userRem := setAt σ.userRem id s.2 }

/-! ## Cells to send and receive -/

/-- Insertion into one of the sets of a container of sets. -/
def insAt (j : Fin n) (x : Nat) (m : Fin n → List Nat) : Fin n → List Nat :=
  fun q => if q = j then ins x (m q) else m q

/-- Loop over neighbors of a cell (dccrg.hpp:8829-8841, 8844-8856 and 8976-8986, 8989-8999): `f` is the cell to be
inserted. -/
def listLoop (i : Fin n) (w : Owner n) (f : Nat → Nat) (l : Nbrs) (m : Fin n → List Nat) : Out (Fin n → List Nat) :=
  Out.fold (fun b m =>
    if b.1 = 0 then .ok m
    else (Out.at w b.1).bind fun j => if j ≠ i then .ok (insAt j (f b.1) m) else .ok m) l m

/-- Sets of cells to send and receive from neighbor lists of given cells on the process boundary
(dccrg.hpp:8799-8857, 8964-9000), then sorted and given tags (dccrg.hpp:8860-8940, 9003-9080). -/
def listsFrom (maxTag : Nat) (i : Fin n) (w : Owner n) (of to : Nat → Option Nbrs) (loc : List Nat) :
    Out ((Fin n → List Nat) × (Fin n → List Nat)) :=
  (Out.fold (fun c (m : (Fin n → List Nat) × (Fin n → List Nat)) =>
      (Out.at of c).bind fun l => (listLoop i w (fun b => b) l m.2).bind fun rcv =>
      (Out.at to c).bind fun r => (listLoop i w (fun _ => c) r m.1).bind fun snd => .ok (snd, rcv))
    loc ((fun _ => []), fun _ => [])).bind fun m =>
  if ∃ q, (m.1 q).length > maxTag ∨ (m.2 q).length > maxTag then .throws
  else .ok (fun q => isort (m.1 q), fun q => isort (m.2 q))

/-- `recalculate_neighbor_update_send_receive_lists(id)` (dccrg.hpp:8954-9082). -/
def updateUserSends (maxTag : Nat) (i : Fin n) (w : Owner n) (id : Int) (σ : Store n) : Out (Store n) :=
  (Out.at σ.userLoc id).bind fun loc =>
  (Out.at σ.userOf id).bind fun of => (Out.at σ.userTo id).bind fun to =>
  (listsFrom maxTag i w of to loc).bind fun m =>
  .ok { σ with userSend := setAt σ.userSend id m.1, userRecv := setAt σ.userRecv id m.2 }

/-- `recalculate_neighbor_update_send_receive_lists()` (dccrg.hpp:8784-8944). -/
def updateSends (maxTag : Nat) (i : Fin n) (p : Proc n D W) (σ : Store n) : Out (Store n) :=
  (listsFrom maxTag i p.owner σ.of σ.to σ.loc).bind fun m =>
  Out.fold (fun x σ => updateUserSends maxTag i p.owner x.1 σ) p.hoods { σ with send := m.1, recv := m.2 }

/-! ## Iterators -/

/-- `get_neighbors_of` (dccrg.hpp:831-883) reading stored lists. `none` is a null pointer. -/
def storedOf (p : Proc n D W) (σ : Store n) (c : Nat) (id : Int) : Out (Option Nbrs) :=
  if exist p.owner c then
    if id = defaultId then (Out.at σ.of c).bind fun l => .ok (some l)
    else if (p.hoods.lookup id).isSome then
      (Out.at σ.userOf id).bind fun m => (Out.at m c).bind fun l => .ok (some l)
    else .ok none
  else .ok none

/-- `get_neighbors_to` (dccrg.hpp:895-943) reading stored lists. -/
def storedTo (p : Proc n D W) (σ : Store n) (c : Nat) (id : Int) : Out (Option Nbrs) :=
  if exist p.owner c then
    if id = defaultId then (Out.at σ.to c).bind fun l => .ok (some l)
    else if (p.hoods.lookup id).isSome then
      (Out.at σ.userTo id).bind fun m => (Out.at m c).bind fun l => .ok (some l)
    else .ok none
  else .ok none

/-- Sets of neighbors of one cell in `update_cell_pointers` (dccrg.hpp:11505-11596). -/
def setsOf (p : Proc n D W) (σ : Store n) (id : Int) (c : Nat) : Out (Nbrs × Nbrs × Nbrs) :=
  if c = 0 then .throws
  else (storedOf p σ c id).bind fun l => (storedTo p σ c id).bind fun r =>
    match l, r with
    | some l, some r => .ok (neighborSets l r)
    | _, _ => .throws

/-- Loop over cells in `update_cell_pointers` (dccrg.hpp:11494-11666) and positions of neighbors (dccrg.hpp:11668-11713):
vectors of cells and neighbors when `start` neighbors have been stored for previous cells. -/
def itemsFrom (sets : Nat → Out (Nbrs × Nbrs × Nbrs)) : List Nat → Nat → Out (List CellItem × Nbrs)
  | [], _ => .ok ([], [])
  | c :: cs, start =>
    (sets c).bind fun x =>
    let a := x.1.length
    let b := x.2.1.length
    let t := x.2.2.length
    (itemsFrom sets cs (start + a + b + t)).bind fun r =>
    .ok (⟨c, (start, start + a + b), (start + a, start + a + b + t), (start, start + a + b + t)⟩ :: r.1,
      x.1 ++ x.2.1 ++ x.2.2 ++ r.2)

/-- `update_cell_pointers` (dccrg.hpp:11418-11732). `loc` is the set of local cells on the process boundary. Pointers
to data are not stored in the model. -/
def pointersFrom (g : Cfg) (p : Proc n D W) (σ : Store n) (id : Int) (loc : List Nat) : Out Cache :=
  let inner := (heldBy g p).filter fun c => !loc.contains c
  let outer := (heldBy g p).filter fun c => loc.contains c
  if ∃ c ∈ σ.rem, (p.remote c).isNone then .throws
  else
    (itemsFrom (setsOf p σ id) (inner ++ outer ++ σ.rem) 0).bind fun x =>
    let a := inner.length
    let b := outer.length
    let r := σ.rem.length
    .ok ⟨x.1, x.2, (0, a), (a, a + b), (0, a + b), (a + b, a + b + r), (0, a + b + r)⟩

/-- `update_cell_pointers` of the default neighborhood. -/
def updatePtr (g : Cfg) (p : Proc n D W) (σ : Store n) : Out (Store n) :=
  (pointersFrom g p σ defaultId σ.loc).bind fun k => .ok { σ with ptr := k }

/-- `update_cell_pointers_user` (dccrg.hpp:11738-11770). -/
def updateUserPtr (g : Cfg) (p : Proc n D W) (id : Int) (σ : Store n) : Out (Store n) :=
  if (p.hoods.lookup id).isNone then .throws
  else (Out.at σ.userLoc id).bind fun loc => (pointersFrom g p σ id loc).bind fun k =>
    .ok { σ with userPtr := setAt σ.userPtr id k, userAll := setAt σ.userAll id k.all }

/-! ## Operations -/

/-- Nothing is stored. -/
def Store.empty (n : Nat) : Store n where
  six _ := none
  of _ := none
  to _ := none
  userOf _ := none
  userTo _ := none
  loc := []
  rem := []
  userLoc _ := none
  userRem _ := none
  send _ := []
  recv _ := []
  userSend _ := none
  userRecv _ := none
  ptr := Cache.none
  userPtr _ := none
  userAll _ := none

/-- What `initialize` stores (dccrg.hpp:526-560). `p` is the process after that. -/
def initStore (g : Cfg) (maxTag : Nat) (i : Fin n) (p : Proc n D W) : Out (Store n) :=
  let σ : Store n := { Store.empty n with six := updateSix g p.owner }
  (initLists g p.owner σ).bind fun σ =>
  (updateInfo g i p σ).bind fun σ =>
  (updateSends maxTag i p σ).bind fun σ =>
  updatePtr g p σ

/-- Everything recalculated after the grid or its partition has changed (dccrg.hpp:10681-10682, 10697-10745, 4152-4200). `p` is
the process after that. -/
def rebuildStore (g : Cfg) (maxTag : Nat) (i : Fin n) (p : Proc n D W) (σ : Store n) : Out (Store n) :=
  let σ : Store n := { σ with six := updateSix g p.owner }
  (updateLists g p.owner σ).bind fun σ =>
  (Out.fold (fun x σ => clearUserLists x σ) p.hoods σ).bind fun σ =>
  (Out.fold (fun c σ => Out.fold (fun x σ => updateUserLists g p.owner x c σ) p.hoods σ)
    (cellsIn g p.owner) σ).bind fun σ =>
  (updateInfo g i p σ).bind fun σ =>
  (Out.fold (fun x σ => updateUserInfo g i p x.1 σ) p.hoods σ).bind fun σ =>
  (updateSends maxTag i p σ).bind fun σ =>
  (updatePtr g p σ).bind fun σ =>
  Out.fold (fun x σ => updateUserPtr g p x.1 σ) p.hoods σ

/-- Cleared by `initialize_balance_load` (dccrg.hpp:3881-3886). `cells_to_send` and `cells_to_receive` are
lists of moving cells until `finish_balance_load`, where they are cleared (dccrg.hpp:4055-4056). -/
def clearStore (σ : Store n) : Store n :=
  { σ with
    loc := []
    rem := []
    userLoc := fun _ => none
    userRem := fun _ => none
    send := fun _ => []
    recv := fun _ => []
    userSend := fun _ => none
    userRecv := fun _ => none }

/-- What `add_neighborhood` stores (dccrg.hpp:6674-6685) if it does not return false. `p` is the process after that. -/
def addStore (g : Cfg) (maxTag : Nat) (i : Fin n) (p : Proc n D W) (id : Int) (items : List (V3 Int)) (σ : Store n) :
    Out (Store n) :=
  (Out.fold (fun c σ => updateUserLists g p.owner (id, items) c σ) (cellsIn g p.owner) σ).bind fun σ =>
  (updateUserInfo g i p id σ).bind fun σ =>
  (updateUserSends maxTag i p.owner id σ).bind fun σ =>
  updateUserPtr g p id σ

/-- What `remove_neighborhood` erases (dccrg.hpp:6751-6764). -/
def removeStore (id : Int) (σ : Store n) : Store n :=
  if id = defaultId then σ
  else { σ with
    userOf := eraseAt σ.userOf id
    userTo := eraseAt σ.userTo id
    userSend := eraseAt σ.userSend id
    userRecv := eraseAt σ.userRecv id
    userLoc := eraseAt σ.userLoc id
    userRem := eraseAt σ.userRem id
    userPtr := eraseAt σ.userPtr id }

/-- What the copy constructor stores (dccrg.hpp:362-446): iterators of user neighborhoods are not copied. `p` is the
process of the copy. -/
def copyStore (g : Cfg) (p : Proc n D W) (σ : Store n) : Out (Store n) :=
  updatePtr g p { σ with
    ptr := Cache.none
    userPtr := fun _ => none
    userAll := fun _ => none }

/-- What process `i`, which is `p` before and `p'` after an operation, stores. -/
def storeAfter (g : Cfg) (maxTag : Nat) (op : Op n D W) (i : Fin n) (p p' : Proc n D W) (σ : Store n) : Out (Store n) :=
  match op with
  | .addHood id items =>
    if id = defaultId ∨ (p.hoods.lookup id).isSome ∨ items.all (itemOk g) = false then .ok σ
    else addStore g maxTag i p' id items σ
  | .removeHood id => .ok (removeStore id σ)
  | .stop _ => rebuildStore g maxTag i p' { σ with send := fun _ => [], recv := fun _ => [] }
  | .balance _ => rebuildStore g maxTag i p' (clearStore σ)
  | _ => .ok σ

/-- Effect of an operation on the grid and on what is stored. -/
def stepStored (g : Cfg) (dflt : D) (maxTag : Nat) (s : Sys n D W) (σ : Fin n → Store n) (op : Op n D W) :
    Out (Sys n D W × (Fin n → Store n)) :=
  (step g dflt maxTag s op).bind fun s' =>
  (Out.collect fun i => storeAfter g maxTag op i (s i) (s' i) (σ i)).bind fun σ' => .ok (s', σ')

/-- Whether iterators of all neighborhoods exist after an operation: `stop_refining` and `balance_load` make all of
them (dccrg.hpp:10743-10745, 4198-4200). -/
def Op.makes : Op n D W → Bool → Bool
  | .stop _, _ => true
  | .balance _, _ => true
  | _, b => b

/-- Reachable states with what is stored. The last argument says whether iterators of all neighborhoods have been
made after the last copy construction. -/
inductive WithStore {n : Nat} {W : Type} (g : Cfg) :
    {D : Type} → D → Nat → Sys n D W → (Fin n → Store n) → Bool → Prop
  | init {D : Type} {dflt : D} {maxTag : Nat} {s : Sys n D W} {σ : Fin n → Store n} :
      createGrid g n dflt maxTag = .ok s → (Out.collect fun i => initStore g maxTag i (s i)) = .ok σ →
      WithStore g dflt maxTag s σ true
  | step {D : Type} {dflt : D} {maxTag : Nat} {s s' : Sys n D W} {σ σ' : Fin n → Store n} {b : Bool} (op : Op n D W) :
      WithStore g dflt maxTag s σ b → op.Ok s → stepStored g dflt maxTag s σ op = .ok (s', σ') →
      WithStore g dflt maxTag s' σ' (op.makes b)
  | copy {D D0 : Type} {dflt : D} {dflt0 : D0} {maxTag : Nat} {s : Sys n D0 W} {σ σ' : Fin n → Store n} {b : Bool} :
      WithStore g dflt0 maxTag s σ b →
      (Out.collect fun i => copyStore g (copyProc g dflt i (s i)) (σ i)) = .ok σ' →
      WithStore g dflt maxTag (copyGrid g dflt s) σ' false

/-! ## Functions that read what is stored -/

/-- `get_local_cells_on_process_boundary` (dccrg.hpp:6213-6246). -/
def storedLocal (p : Proc n D W) (σ : Store n) (id : Int) (sorted : Bool) : Out (List Nat) :=
  if id = defaultId then .ok (sortIf sorted σ.loc)
  else if (p.hoods.lookup id).isSome then (Out.at σ.userLoc id).bind fun l => .ok (sortIf sorted l)
  else .ok []

/-- `get_remote_cells_on_process_boundary` (dccrg.hpp:6324-6357). -/
def storedRemote (p : Proc n D W) (σ : Store n) (id : Int) (sorted : Bool) : Out (List Nat) :=
  if id = defaultId then .ok (sortIf sorted σ.rem)
  else if (p.hoods.lookup id).isSome then (Out.at σ.userRem id).bind fun l => .ok (sortIf sorted l)
  else .ok []

/-- Lists used by updates of remote neighbors (dccrg.hpp:5160-5240, 5275-5350). `at` throws for a neighborhood that
does not exist. -/
def storedSends (σ : Store n) (id : Int) : Out ((Fin n → List Nat) × (Fin n → List Nat)) :=
  if id = defaultId then .ok (σ.send, σ.recv)
  else (Out.at σ.userSend id).bind fun a => (Out.at σ.userRecv id).bind fun b => .ok (a, b)

/-- Vectors and ranges read by `local_cells(id)` and others (dccrg.hpp:7649-7775). They throw if there are none. -/
def storedPtr (σ : Store n) (id : Int) : Out Cache :=
  if id = defaultId then .ok σ.ptr else Out.at σ.userPtr id

/-- `all_cells(id)` (dccrg.hpp:7758-7775): range of cells. -/
def storedAll (σ : Store n) (id : Int) : Out (Nat × Nat) :=
  if id = defaultId then .ok σ.ptr.all else Out.at σ.userAll id

/-- Face neighbors in one direction (dccrg.hpp:2911-3004), reading stored neighbors. -/
def storedFaceDir (g : Cfg) (six : Nat → Option (Fin 3 → Bool → Nat)) (c : Nat) (d : Fin 3) (pos : Bool) : Out (List Nat) :=
  (Out.at six c).bind fun e =>
  if e d pos = 0 then .ok []
  else if g.lvl c ≥ g.lvl (e d pos) then .ok [e d pos]
  else
    (Out.at six (e d pos)).bind fun f =>
    let x := f (other1 d) true
    let y := f (other2 d) true
    if y ≠ 0 then
      (Out.at six y).bind fun h => .ok (e d pos :: ((if x ≠ 0 then [x] else []) ++
        (y :: if h (other1 d) true ≠ 0 then [h (other1 d) true] else [])))
    else .ok (e d pos :: if x ≠ 0 then [x] else [])

/-- `get_face_neighbors_of` (dccrg.hpp:2883-3010), reading stored neighbors. -/
def storedFaces (g : Cfg) (σ : Store n) (c : Nat) : Out (List (Nat × Int)) :=
  (Out.at σ.six c).bind fun _ =>
  Out.fold (fun x l => (storedFaceDir g σ.six c x.1 x.2).bind fun r => .ok (l ++ r.map fun b => (b, dirOf x.1 x.2)))
    [(0, false), (0, true), (1, false), (1, true), (2, false), (2, true)] []

end Dccrg
