import Verif.StoredHist
/-!
# Checks in debug builds

If `DEBUG` is defined the code checks itself: `is_consistent`, `verify_neighbors`, `verify_remote_neighbor_info`,
`verify_user_data` and `pin_requests_succeeded` (dccrg.hpp:12415-13001) are called by functions which change the grid or
its partition, which also have checks of their own. A check that fails ends the program with `abort`, `exit` or an exception,
all of which are `throws` here.

Checks which only repeat what the model of the release build does anyway (a missing key ends in `throws` there) are not repeated.
Checks of `grid_initialized` are not modelled. `verify_neighbors` sorts the lists of neighbors_to that it checks (dccrg.hpp:12583);
here a copy is sorted, the order of these lists is unspecified anyway.
-/
namespace Dccrg
open Cfg
variable {n : Nat} {D W α β : Type}

/-- Go on if a check succeeded. -/
def Out.check (b : Out Bool) (x : Out α) : Out α := b.bind fun b => if b then x else .throws

/-- All checks succeed, in order. -/
def Out.every (l : List α) (f : α → Out Bool) : Out Bool :=
  Out.fold (fun a b => if b then f a else .ok b) l true

/-- `std::equal` with three iterators: as many items are compared as there are in the first range. Fails if the second range is
shorter, which would be read beyond its end. -/
def stdEqual [BEq α] : List α → List α → Bool
  | [], _ => true
  | _ :: _, [] => false
  | a :: l, b :: m => a == b && stdEqual l m

/-! ## Functions that verify -/

/-- `is_consistent` (dccrg.hpp:12419-12475): cells and their processes on all processes are compared to process 0. -/
def dbgConsistent (g : Cfg) (s : Sys n D W) : Bool :=
  decide (∀ p q : Fin n, q.val = 0 →
    stdEqual (cellsIn g (s p).owner) (cellsIn g (s q).owner) = true ∧
    stdEqual ((cellsIn g (s p).owner).map (s p).owner) ((cellsIn g (s q).owner).map (s q).owner) = true)

/-- Equality of neighbors. -/
def nbrEq (a b : Nat × V3 Int) : Bool := a.1 == b.1 && decide (∀ d, a.2 d = b.2 d)

/-- Order of pairs of an id and an array. -/
def nbrLe (a b : Nat × V3 Int) : Bool :=
  decide (a.1 < b.1 ∨ a.1 = b.1 ∧ (a.2 0 < b.2 0 ∨ a.2 0 = b.2 0 ∧ (a.2 1 < b.2 1 ∨ a.2 1 = b.2 1 ∧ a.2 2 ≤ b.2 2)))

/-- `verify_neighbors(cell, hood_of, hood_to, neighbor_of_lists, neighbor_to_lists)` (dccrg.hpp:12481-12640). `T` is `neighbors_`. -/
def dbgCell (g : Cfg) (w : Owner n) (T : Nat → Option (Fin 3 → Bool → Nat)) (of to : Nat → Option Nbrs) (H : List (V3 Int))
    (c : Nat) : Out Bool :=
  if c = 0 ∨ c > g.last ∨ exist w c = false then .ok false
  else if c = getChild g (exist w) c then
    match of c, to c with
    | some l, some r =>
      (findNeighborsOfT g (exist w) T c H).bind fun l' =>
      if l.isEqv l' nbrEq = false then .ok false
      else (findNeighborsTo0 g (exist w) c (negHood H)).bind fun r' =>
        .ok ((r.mergeSort nbrLe).isEqv (r'.mergeSort nbrLe) nbrEq)
    | _, _ => .ok false
  else .ok ((of c).isNone && (to c).isNone)

/-- Last part of `verify_neighbors()` (dccrg.hpp:12687-12710): levels of cells and neighbors behind iterators. -/
def dbgLevels (g : Cfg) (k : Cache) : Bool :=
  k.cells.all fun x => (range k.nbrs x.of ++ range k.nbrs x.to).all fun b =>
    decide (((g.lvl x.id : Int) - g.lvl b.1).natAbs ≤ 1)

/-- `verify_neighbors()` (dccrg.hpp:12646-12713). -/
def dbgNeighbors (g : Cfg) (i : Fin n) (p : Proc n D W) (σ : Store n) : Out Bool :=
  (Out.every (cellsIn g p.owner) fun c =>
    if p.owner c ≠ some i then .ok true
    else (dbgCell g p.owner σ.six σ.of σ.to (hoodOf g) c).bind fun b =>
      if b = false then .ok false
      else Out.every p.hoods fun x =>
        (Out.at σ.userOf x.1).bind fun of => (Out.at σ.userTo x.1).bind fun to =>
        dbgCell g p.owner σ.six of to x.2 c).bind fun b =>
  .ok (b && dbgLevels g σ.ptr)

/-- `verify_remote_neighbor_info(cell)` (dccrg.hpp:12724-12791). -/
def dbgInfoCell (g : Cfg) (i : Fin n) (w : Owner n) (σ : Store n) (c : Nat) : Out Bool :=
  (dbgCell g w σ.six σ.of σ.to (hoodOf g) c).bind fun b =>
  if b = false then .ok false
  else if c ≠ getChild g (exist w) c then .ok true
  else
    (Out.at σ.of c).bind fun l => (Out.at σ.to c).bind fun r =>
    Out.every (l ++ r) fun x =>
      if x.1 = 0 then .ok true
      else (Out.at w x.1).bind fun j => .ok (j == i || (σ.loc.contains c && σ.rem.contains x.1))

/-- Loop over found neighbors in `verify_remote_neighbor_info()` (dccrg.hpp:12879-12897, 12900-12920): whether some are remote.
`f` is the test with `is_neighbor`. -/
def dbgRemote (i : Fin n) (w : Owner n) (f : Nat → Bool) (l : List Nat) : Out Bool :=
  Out.fold (fun b r =>
    if b = 0 then .ok r
    else (Out.at w b).bind fun j => if f b = false then .throws else .ok (r || j != i)) l false

/-- `verify_remote_neighbor_info()` (dccrg.hpp:12801-12943). -/
def dbgInfo (g : Cfg) (i : Fin n) (p : Proc n D W) (σ : Store n) : Out Bool :=
  Out.every (cellsIn g p.owner) fun c =>
    if c ≠ getChild g (exist p.owner) c then .ok true
    else if p.owner c ≠ some i then
      let near := (cellsIn g p.owner).any fun b => p.owner b == some i && (b == getChild g (exist p.owner) b) &&
        (isNeighbor g c b || isNeighbor g b c)
      .ok (σ.rem.contains c == near)
    else
      (findNeighborsOfT g (exist p.owner) σ.six c (hoodOf g)).bind fun l =>
      (dbgRemote i p.owner (fun b => isNeighbor g c b) (l.map (·.1))).bind fun a =>
      (findNeighborsTo0 g (exist p.owner) c (negHood (hoodOf g))).bind fun r =>
      (dbgRemote i p.owner (fun b => isNeighbor g b c) (r.map (·.1))).bind fun b =>
      .ok (σ.loc.contains c == (a || b))

/-- `verify_user_data` (dccrg.hpp:12949-12976). -/
def dbgData (g : Cfg) (i : Fin n) (p : Proc n D W) : Bool :=
  (cellsIn g p.owner).all fun c =>
    !(p.owner c == some i && (c == getChild g (exist p.owner) c) && !p.has c) && !(p.owner c != some i && p.has c)

/-- `pin_requests_succeeded` (dccrg.hpp:12982-13000). -/
def dbgPins (g : Cfg) (p : Proc n D W) : Out Bool :=
  Out.every (ids g) fun c =>
    match p.pins c with
    | none => .ok true
    | some q => (Out.at p.owner c).bind fun j => .ok (j == q)

/-! ## Checks when neighbor lists and other things are stored -/

/-- No neighbor has offset zero (dccrg.hpp:8432-8447, 9141-9156, 11536-11552). -/
def dbgOffsets (l : Nbrs) : Bool := l.all fun b => b.1 == 0 || decide (∃ d, b.2 d ≠ 0)

/-- Checks in `update_neighbors_(cell)` (dccrg.hpp:9599-9608, 9613-9645) of new neighbors. -/
def dbgSix (g : Cfg) (E : Nat → Bool) (x : Fin 3 → Bool → Nat) : Bool :=
  decide (∀ d, ∀ b : Bool, (getChild g E (x d b) = 0 ∨ getChild g E (x d b) = x d b) ∧
    (x d b = 0 ∨ E (x d b) = true ∧ (g.lvl (x d b) = 0 ∨ E (g.parent (x d b)) = false ∧
      (g.lvl (x d b) = g.maxLvl ∨ E (g.child (x d b) fun _ => 0) = false))))

/-- `update_neighbors_()` (dccrg.hpp:9507-9646). -/
def updateSixD (g : Cfg) (w : Owner n) : Out (Nat → Option (Fin 3 → Bool → Nat)) :=
  Out.fold (fun c m => match sixEntry g (exist w) c with
    | some x => if dbgSix g (exist w) x then .ok (setAt m c x) else .throws
    | none => .ok m) (cellsIn g w) fun _ => none

/-- `update_neighbors()` and `update_neighbors(cell)` (dccrg.hpp:9088-9158). -/
def updateListsD (g : Cfg) (w : Owner n) (σ : Store n) : Out (Store n) :=
  Out.fold (fun c σ =>
    if exist w c = false then .ok σ
    else if c ≠ getChild g (exist w) c then .ok σ
    else if c ≠ getParent g (exist w) c then .ok σ
    else
      (findNeighborsOfT g (exist w) σ.six c (hoodOf g)).bind fun l =>
      (findNeighborsTo0 g (exist w) c (negHood (hoodOf g))).bind fun r =>
      let σ' : Store n := { σ with of := setAt σ.of c l, to := setAt σ.to c r }
      Out.check (dbgCell g w σ'.six σ'.of σ'.to (hoodOf g) c) (if dbgOffsets l then .ok σ' else .throws))
    (cellsIn g w) { σ with of := fun _ => none, to := fun _ => none }

/-- Lists of neighbors in `initialize_neighbors` (dccrg.hpp:8425-8461). `p` is the process. -/
def initListsD (g : Cfg) (i : Fin n) (p : Proc n D W) (σ : Store n) : Out (Store n) :=
  (Out.fold (fun c σ =>
      (findNeighborsOfT g (exist p.owner) σ.six c (hoodOf g)).bind fun l =>
      if dbgOffsets l = false then .throws
      else (findNeighborsTo0 g (exist p.owner) c (negHood (hoodOf g))).bind fun r =>
        .ok { σ with of := setAt σ.of c l, to := setAt σ.to c r })
    (cellsIn g p.owner) σ).bind fun σ => Out.check (dbgNeighbors g i p σ) (.ok σ)

/-- Checks at the start of `update_remote_neighbor_info(cell)` (dccrg.hpp:9198-9229). -/
def dbgLeaf (g : Cfg) (p : Proc n D W) (c : Nat) : Bool :=
  !(g.lvl c != g.maxLvl && exist p.owner (g.child c fun _ => 0)) && !(g.lvl c != 0 && exist p.owner (g.parent c)) && p.has c

/-- `update_remote_neighbor_info()` with `update_remote_neighbor_info(cell)` (dccrg.hpp:9186-9289, 9432-9465). -/
def updateInfoD (g : Cfg) (i : Fin n) (p : Proc n D W) (σ : Store n) : Out (Store n) :=
  (Out.fold (fun c (s : List Nat × List Nat) =>
    if c ≠ getChild g (exist p.owner) c then .ok s
    else if p.owner c = some i ∧ dbgLeaf g p c = false then .throws
    else (cellInfo i p.owner σ.of σ.to c s).bind fun s' =>
      Out.check (dbgInfoCell g i p.owner { σ with loc := s'.1, rem := s'.2 } c) (.ok s'))
    (heldBy g p) ([], [])).bind fun s =>
  Out.check (dbgInfo g i p { σ with loc := s.1, rem := s.2 }) (.ok { σ with loc := s.1, rem := s.2 })

/-- `update_user_remote_neighbor_info(id)` with `update_user_remote_neighbor_info(cell, id)`
(dccrg.hpp:9300-9425, 9472-9504). -/
def updateUserInfoD (g : Cfg) (i : Fin n) (p : Proc n D W) (id : Int) (σ : Store n) : Out (Store n) :=
  (Out.fold (fun c s =>
    if c ≠ getChild g (exist p.owner) c then .ok s
    else if p.has c = false ∨ p.hoods.lookup id = none then .throws
    else
      (Out.at σ.userOf id).bind fun of => (Out.at σ.userTo id).bind fun to =>
      if of c = none ∨ to c = none then .throws
      else (userCellInfo g i p.owner of to c s).bind fun s' =>
        Out.check (dbgInfoCell g i p.owner σ c) (.ok s'))
    (heldBy g p) ([], [])).bind fun s =>
  let σ' : Store n := { σ with userLoc := setAt σ.userLoc id s.1, userRem := setAt σ.userRem id s.2 }
  Out.check (dbgInfo g i p σ') (.ok σ')

/-- `listsFrom` with checks: cells on process boundary have no children (dccrg.hpp:8799-8804, 8976-8980) and processes do not send to
themselves (dccrg.hpp:8859-8865, 8903-8909; only for the default neighborhood, but checked for all here). -/
def listsFromD (g : Cfg) (maxTag : Nat) (i : Fin n) (w : Owner n) (of to : Nat → Option Nbrs) (loc : List Nat) :
    Out ((Fin n → List Nat) × (Fin n → List Nat)) :=
  if ∃ c ∈ loc, c ≠ getChild g (exist w) c then .throws
  else (listsFrom maxTag i w of to loc).bind fun m =>
    if m.1 i = [] ∧ m.2 i = [] then .ok m else .throws

/-- `recalculate_neighbor_update_send_receive_lists(id)` (dccrg.hpp:8954-9082). -/
def updateUserSendsD (g : Cfg) (maxTag : Nat) (i : Fin n) (w : Owner n) (id : Int) (σ : Store n) : Out (Store n) :=
  (Out.at σ.userLoc id).bind fun loc =>
  (Out.at σ.userOf id).bind fun of => (Out.at σ.userTo id).bind fun to =>
  (listsFromD g maxTag i w of to loc).bind fun m =>
  .ok { σ with userSend := setAt σ.userSend id m.1, userRecv := setAt σ.userRecv id m.2 }

/-- `recalculate_neighbor_update_send_receive_lists()` (dccrg.hpp:8784-8944). -/
def updateSendsD (g : Cfg) (maxTag : Nat) (i : Fin n) (p : Proc n D W) (σ : Store n) : Out (Store n) :=
  (listsFromD g maxTag i p.owner σ.of σ.to σ.loc).bind fun m =>
  Out.fold (fun x σ => updateUserSendsD g maxTag i p.owner x.1 σ) p.hoods { σ with send := m.1, recv := m.2 }

/-- `setsOf` with checks of offsets (dccrg.hpp:11536-11552, 11563-11577, 11622-11633, 11649-11661). -/
def setsOfD (p : Proc n D W) (σ : Store n) (id : Int) (c : Nat) : Out (Nbrs × Nbrs × Nbrs) :=
  if c = 0 then .throws
  else (storedOf p σ c id).bind fun l => (storedTo p σ c id).bind fun r =>
    match l, r with
    | some l, some r =>
      if dbgOffsets l = false ∨ (∃ b ∈ r, b.1 ≠ 0 ∧ ∀ d, b.2 d ≠ 0) then .throws
      else
        let x := neighborSets l r
        if dbgOffsets (x.1 ++ x.2.1) = false then .throws else .ok x
    | _, _ => .throws

/-- `update_cell_pointers` (dccrg.hpp:11418-11732). -/
def pointersFromD (g : Cfg) (p : Proc n D W) (σ : Store n) (id : Int) (loc : List Nat) : Out Cache :=
  let inner := (heldBy g p).filter fun c => !loc.contains c
  let outer := (heldBy g p).filter fun c => loc.contains c
  if ∃ c ∈ σ.rem, (p.remote c).isNone then .throws
  else
    (itemsFrom (setsOfD p σ id) (inner ++ outer ++ σ.rem) 0).bind fun x =>
    let a := inner.length
    let b := outer.length
    let r := σ.rem.length
    .ok ⟨x.1, x.2, (0, a), (a, a + b), (0, a + b), (a + b, a + b + r), (0, a + b + r)⟩

def updatePtrD (g : Cfg) (p : Proc n D W) (σ : Store n) : Out (Store n) :=
  (pointersFromD g p σ defaultId σ.loc).bind fun k => .ok { σ with ptr := k }

/-- `update_cell_pointers_user` (dccrg.hpp:11738-11770). -/
def updateUserPtrD (g : Cfg) (p : Proc n D W) (id : Int) (σ : Store n) : Out (Store n) :=
  if (p.hoods.lookup id).isNone then .throws
  else (Out.at σ.userLoc id).bind fun loc => (pointersFromD g p σ id loc).bind fun k =>
    .ok { σ with userPtr := setAt σ.userPtr id k, userAll := setAt σ.userAll id k.all }

/-! ## What operations store -/

/-- `initialize` (dccrg.hpp:526-560). -/
def initStoreD (g : Cfg) (maxTag : Nat) (i : Fin n) (p : Proc n D W) : Out (Store n) :=
  (updateSixD g p.owner).bind fun six =>
  (initListsD g i p { Store.empty n with six := six }).bind fun σ =>
  (updateInfoD g i p σ).bind fun σ =>
  Out.check (dbgInfo g i p σ) <|
  (updateSendsD g maxTag i p σ).bind fun σ =>
  updatePtrD g p σ

/-- `rebuildStore` with checks. `mid` tells whether `verify_neighbors` is called after neighbor lists have been stored: it is in
`execute_refines` (dccrg.hpp:10710-10717), not in `finish_balance_load`. -/
def rebuildStoreD (g : Cfg) (maxTag : Nat) (mid : Bool) (i : Fin n) (p : Proc n D W) (σ : Store n) : Out (Store n) :=
  (updateSixD g p.owner).bind fun six =>
  (updateListsD g p.owner { σ with six := six }).bind fun σ =>
  (Out.fold (fun x σ => clearUserLists x σ) p.hoods σ).bind fun σ =>
  (Out.fold (fun c σ => Out.fold (fun x σ => updateUserLists g p.owner x c σ) p.hoods σ)
    (cellsIn g p.owner) σ).bind fun σ =>
  Out.check (if mid then dbgNeighbors g i p σ else .ok true) <|
  (updateInfoD g i p σ).bind fun σ =>
  (Out.fold (fun x σ => updateUserInfoD g i p x.1 σ) p.hoods σ).bind fun σ =>
  (updateSendsD g maxTag i p σ).bind fun σ =>
  (updatePtrD g p σ).bind fun σ =>
  Out.fold (fun x σ => updateUserPtrD g p x.1 σ) p.hoods σ

/-- `add_neighborhood` (dccrg.hpp:6591-6621, 6674-6685). -/
def addStoreD (g : Cfg) (maxTag : Nat) (i : Fin n) (p : Proc n D W) (id : Int) (items : List (V3 Int)) (σ : Store n) :
    Out (Store n) :=
  if (σ.userOf id).isSome ∨ (σ.userTo id).isSome ∨ (σ.userSend id).isSome ∨ (σ.userRecv id).isSome then .throws
  else
    (Out.fold (fun c σ => updateUserLists g p.owner (id, items) c σ) (cellsIn g p.owner) σ).bind fun σ =>
    (updateUserInfoD g i p id σ).bind fun σ =>
    (updateUserSendsD g maxTag i p.owner id σ).bind fun σ =>
    updateUserPtrD g p id σ

/-- Copy constructor (dccrg.hpp:362-446). -/
def copyStoreD (g : Cfg) (p : Proc n D W) (σ : Store n) : Out (Store n) :=
  updatePtrD g p { σ with
    ptr := Cache.none
    userPtr := fun _ => none
    userAll := fun _ => none }

/-- What process `i` stores after an operation. -/
def storeAfterD (g : Cfg) (maxTag : Nat) (op : Op n D W) (i : Fin n) (p p' : Proc n D W) (σ : Store n) : Out (Store n) :=
  match op with
  | .addHood id items =>
    if id = defaultId ∨ (p.hoods.lookup id).isSome ∨ items.all (itemOk g) = false then .ok σ
    else addStoreD g maxTag i p' id items σ
  | .removeHood id => .ok (removeStore id σ)
  | .stop _ => rebuildStoreD g maxTag true i p' { σ with send := fun _ => [], recv := fun _ => [] }
  | .balance _ => rebuildStoreD g maxTag false i p' (clearStore σ)
  | _ => .ok σ

/-! ## Refinement -/

/-- Check at the end of `override_refines` (dccrg.hpp:10253-10280). -/
def dbgRefines (g : Cfg) (i : Fin n) (p : Proc n D W) (R : List Nat) : Bool :=
  decide (∀ c ∈ R, c = getChild g (exist p.owner) c ∧ exist p.owner c = true ∧ (p.owner c = some i → p.has c = true))

/-- Check at the end of `induce_refines` (dccrg.hpp:9908-9951). -/
def dbgInduced (g : Cfg) (p : Proc n D W) (σ : Store n) (R : List Nat) : Out Bool :=
  Out.every R fun c =>
    (findNeighborsOfT g (exist p.owner) σ.six c (hoodOf g)).bind fun l =>
    (findNeighborsTo0 g (exist p.owner) c (negHood (hoodOf g))).bind fun r =>
    .ok ((l ++ r).all fun b => b.1 == 0 || !(decide (g.lvl b.1 < g.lvl c) && !R.contains b.1))

/-- Check at the end of `override_unrefines` (dccrg.hpp:10107-10173). `get_parent` is the parent only if it exists. -/
def dbgUnrefines (g : Cfg) (i : Fin n) (p : Proc n D W) (σ : Store n) (R U : List Nat) : Out Bool :=
  Out.every U fun u =>
    if u ≠ getChild g (exist p.owner) u ∨ exist p.owner u = false ∨ (p.owner u = some i ∧ p.has u = false) then .ok false
    else
      (findNeighborsOfT g (exist p.owner) σ.six (getParent g (exist p.owner) u) (hoodOf g)).bind fun l =>
      .ok (l.all fun b => b.1 == 0 || (decide (g.lvl b.1 ≤ g.lvl u) && !(g.lvl b.1 == g.lvl u && R.contains b.1)))

/-- Cells to refine or unrefine are the same on all processes (dccrg.hpp:10324-10362). -/
def dbgSame (f : Fin n → List Nat) : Bool :=
  decide (∀ p q : Fin n, q.val = 0 → stdEqual (isort (dedup (f p))) (isort (dedup (f q))) = true)

/-- Processes do not transfer cells to themselves (dccrg.hpp:10794-10802, 11010-11018). -/
def dbgSelf (send recv : Fin n → Fin n → List Nat) : Bool := decide (∀ i, send i i = [] ∧ recv i i = [])

/-- Refined cell has lists of neighbors on its process (dccrg.hpp:10386-10402). -/
def refineOneD (g : Cfg) (dflt : D) (i : Fin n) (σ : Store n) (c : Nat) (s : Proc n D W × List Nat) :
    Out (Proc n D W × List Nat) :=
  if s.1.owner c = some i ∧ (σ.of c = none ∨ σ.to c = none) then .throws else refineOne g dflt i c s

/-- Checks of an unrefined cell and its siblings (dccrg.hpp:10464-10483, 10494-10530). `p` is the process without changes of owners
made by this loop, `w` are current owners. -/
def parentOwnerD (g : Cfg) (i : Fin n) (p : Proc n D W) (u : Nat) (w : Owner n) : Out (Owner n) :=
  if u ≠ getChild g (exist w) u ∨ g.parent u = 0 ∨ g.lvl u = 0 then .throws
  else (parentOwner g u w).bind fun w =>
    if (∀ k ∈ g.children (g.parent u), k = 0 ∨ exist w k = true ∧ k = getChild g (exist w) k ∧ (w k = some i → p.has k = true)) ∧
      u ∈ g.children (g.parent u) then .ok w else .throws

/-- Unrefined cell has a parent (dccrg.hpp:10546-10552). -/
def unrefineOneD (g : Cfg) (i : Fin n) (u : Nat) (s : Moving n D W) : Out (Moving n D W) :=
  if g.lvl u = 0 then .throws else unrefineOne g i u s

/-- `prepare` with checks. -/
def prepareD (g : Cfg) (dflt : D) (i : Fin n) (σ : Store n) (p : Proc n D W) : Out (Moving n D W × List Nat) :=
  (Out.fold (refineOneD g dflt i σ) (dedup p.req.toRefine) ({ p with
    remote := fun _ => none
    refinedData := fun _ => none
    unrefinedData := fun _ => none }, [])).bind fun s =>
  (Out.fold (parentOwnerD g i s.1) (dedup p.req.toUnrefine) s.1.owner).bind fun w =>
  (Out.fold (unrefineOneD g i) (families g p.req.toUnrefine)
    ({ s.1 with owner := w }, fun _ => [], fun _ => [])).bind fun m => .ok (m, s.2)

/-- Parents of unrefined cells exist without children (dccrg.hpp:10653-10668); user data after that, before refined cells are
removed (dccrg.hpp:10685-10689). -/
def finishRefinesD (g : Cfg) (dflt : D) (i : Fin n) (p : Proc n D W) : Out (Proc n D W) :=
  if ∃ P ∈ parents g p.req.toUnrefine, P ≠ getChild g (exist p.owner) P then .throws
  else (finishRefines g dflt i p).bind fun p' =>
    if dbgData g i { p' with owner := p.owner } then .ok p' else .throws

/-- `execute_refines` (dccrg.hpp:10298-10748). -/
def executeRefinesD (g : Cfg) (dflt : D) (maxTag : Nat) (s : Sys n D W) (σ : Fin n → Store n) :
    Out (Fin n → Proc n D W × List Nat) :=
  (Out.collect fun i => Out.check (dbgInfo g i (s i) (σ i)) (if dbgData g i (s i) then .ok () else .throws)).bind fun _ =>
  if dbgSame (fun i => (s i).req.toRefine) = false ∨ dbgSame (fun i => (s i).req.toUnrefine) = false then .throws
  else
    (Out.collect fun i => prepareD g dflt i (σ i) (s i)).bind fun m =>
    if dbgSelf (fun p => (m p).1.2.1) (fun p => (m p).1.2.2) = false then .throws
    else
    (transfer maxTag (fun p q => isort ((m p).1.2.1 q)) (fun q p => isort ((m q).1.2.2 p))
      (fun p => (m p).1.1.data) (fun p => (m p).1.1.unrefinedData)).bind fun un =>
    Out.collect fun i =>
      (finishRefinesD g dflt i { (m i).1.1 with unrefinedData := un i }).bind fun p =>
      (rebuild g dflt maxTag i p).bind fun p => .ok (p, (m i).2)

/-- `stop_refining` (dccrg.hpp:3538-3562). -/
def stopRefiningD (g : Cfg) (dflt : D) (maxTag : Nat) (sorted : Bool) (s : Sys n D W) (σ : Fin n → Store n) :
    Out (Fin n → Proc n D W × List Nat) :=
  match overrideRefines g (fun i => exist (s i).owner) (fun i => (s i).req) with
  | none => .hangs
  | some r =>
    if (∃ i, dbgRefines g i (s i) (r i).toRefine = false) ∨ dbgConsistent g s = false then .throws
    else
      (induceRefines g (fun i => (s i).owner) (fun i c => ((s i).data c).isSome)
        (fun i => (r i).toRefine)).bind fun refs =>
      (Out.collect fun i => Out.check (dbgInduced g (s i) (σ i) (refs i)) (.ok ())).bind fun _ =>
      if dbgConsistent g s = false then .throws
      else
        (overrideUnrefines g (fun i => exist (s i).owner) refs (fun i => (r i).notUnrefine)
          (fun i => (r i).toUnrefine)).bind fun unrefs =>
        (Out.collect fun i => Out.check (dbgUnrefines g i (s i) (σ i) (refs i) (unrefs i)) (.ok ())).bind fun _ =>
        if dbgConsistent g s = false then .throws
        else
          (executeRefinesD g dflt maxTag (fun i => { s i with req :=
            { toRefine := refs i, toUnrefine := unrefs i, notRefine := (r i).notRefine,
              notUnrefine := [] } }) σ).bind fun res =>
          .ok fun i => ((res i).1, if sorted then isort (res i).2 else (res i).2)

/-! ## Load balancing -/

/-- New pin requests are made by owners of cells (dccrg.hpp:8513-8521). -/
def dbgNewPins (g : Cfg) (s : Sys n D W) (w : Owner n) : Bool :=
  decide (∀ p, ∀ c ∈ ids g, ((s p).newPins c).isSome = true → w c = some p)

/-- Cells are added and removed at most once, by their process (dccrg.hpp:3896-3960, 4077-4126). `w` is `cell_process`. -/
def dbgMoves (b : Fin n → Balancing n D W) (w : Owner n) : Bool :=
  decide ((∀ p q p' q', ∀ c ∈ (b p).send q, c ∈ (b p').send q' → p = p') ∧
    (∀ p q p' q', ∀ c ∈ (b p).recv q, c ∈ (b p').recv q' → p = p') ∧
    ∀ p q, ∀ c ∈ (b p).send q, w c = some p)

/-- A cell of the partitioner has not been added or removed before (dccrg.hpp:8652-8658, 8731-8737). `l` are its cells and other
processes, which are not pinned. -/
def dbgOnce (pins : Nat → Option (Fin n)) (i : Fin n) (l : List (Nat × Fin n)) : Bool :=
  decide (((l.filter fun m => m.2 != i && (pins m.1).isNone).map (·.1)).Nodup)

/-- `initialize_balance_load` (dccrg.hpp:3820-3965). -/
def initBalanceD (g : Cfg) (dflt : D) (s : Sys n D W) (σ : Fin n → Store n) (z : Fin n → Moves n) (i : Fin n) :
    Out (Balancing n D W) :=
  Out.check (dbgInfo g i (s i) (σ i)) <|
  if dbgData g i (s i) = false ∨ dbgNewPins g s (s i).owner = false ∨ dbgOnce (updatePins s i) i (z i).recv = false ∨
    dbgOnce (updatePins s i) i (z i).send = false then .throws
  else initBalance g dflt s z i

/-- `finish_balance_load` (dccrg.hpp:4030-4150). -/
def finishBalanceD (g : Cfg) (dflt : D) (maxTag : Nat) (b : Fin n → Balancing n D W) : Out (Sys n D W) :=
  if ∃ i, dbgMoves b (b i).proc.owner = false then .throws
  else if dbgConsistent g (fun i => { (b i).proc with owner := movedOwner b (b i).proc.owner }) = false then .throws
  else
    (Out.collect fun i => Out.check (dbgPins g { (b i).proc with owner := movedOwner b (b i).proc.owner }) (.ok ())).bind fun _ =>
    finishBalance g dflt maxTag b

/-- `balance_load` (dccrg.hpp:1041-1062). -/
def balanceLoadD (g : Cfg) (dflt : D) (maxTag : Nat) (z : Fin n → Moves n) (s : Sys n D W) (σ : Fin n → Store n) :
    Out (Sys n D W) :=
  (Out.collect fun i => initBalanceD g dflt s σ z i).bind fun b =>
  if ∃ i, dbgMoves b (s i).owner = false then .throws
  else if dbgSelf (fun p => (b p).send) (fun p => (b p).recv) = false then .throws
  else (continueBalance maxTag b).bind fun b => finishBalanceD g dflt maxTag b

/-! ## Operations -/

/-- Check in `unpin_local_cells` (dccrg.hpp:6116-6154). -/
def dbgLocal (g : Cfg) (i : Fin n) (p : Proc n D W) : Bool :=
  (cellsIn g p.owner).all fun c => p.owner c != some i || p.has c == (c == getChild g (exist p.owner) c)

/-- All four functions at the end of `finish_balance_load` (dccrg.hpp:4202-4230) and `add_neighborhood` (dccrg.hpp:6687-6715). -/
def dbgAll (g : Cfg) (s : Sys n D W) (σ : Fin n → Store n) : Out Bool :=
  if dbgConsistent g s = false then .ok false
  else (Out.collect fun i => (dbgNeighbors g i (s i) (σ i)).bind fun a => (dbgInfo g i (s i) (σ i)).bind fun b =>
    .ok (a && b && dbgData g i (s i))).bind fun r => .ok (decide (∀ i, r i = true))

/-- Effect of an operation on the grid in a debug build. -/
def stepD (g : Cfg) (dflt : D) (maxTag : Nat) (s : Sys n D W) (σ : Fin n → Store n) : Op n D W → Out (Sys n D W)
  | .unpinLocal i => if dbgLocal g i (s i) then step g dflt maxTag s (.unpinLocal i) else .throws
  | .update id => (Out.collect fun i => storedSends (σ i) id).bind fun m =>
    if dbgSelf (fun i => (m i).1) (fun i => (m i).2) then step g dflt maxTag s (.update id) else .throws
  | .stop sorted => (stopRefiningD g dflt maxTag sorted s σ).bind fun r => .ok fun i => (r i).1
  | .balance z => balanceLoadD g dflt maxTag z s σ
  | op => step g dflt maxTag s op

/-- Whether everything is verified at the end of an operation: unless `add_neighborhood` returned false. -/
def Op.verifies (g : Cfg) (s : Sys n D W) : Op n D W → Bool
  | .balance _ => true
  | .addHood id items => decide (id ≠ defaultId ∧ ∃ i, (s i).hoods.lookup id = none) && items.all (itemOk g)
  | _ => false

/-- Effect of an operation on the grid and on what is stored, in a debug build. -/
def stepStoredD (g : Cfg) (dflt : D) (maxTag : Nat) (s : Sys n D W) (σ : Fin n → Store n) (op : Op n D W) :
    Out (Sys n D W × (Fin n → Store n)) :=
  (stepD g dflt maxTag s σ op).bind fun s' =>
  (Out.collect fun i => storeAfterD g maxTag op i (s i) (s' i) (σ i)).bind fun σ' =>
  Out.check (if op.verifies g s then dbgAll g s' σ' else .ok true) (.ok (s', σ'))

/-- States with what is stored, of debug builds. -/
inductive WithStoreD {n : Nat} {W : Type} (g : Cfg) : {D : Type} → D → Nat → Sys n D W → (Fin n → Store n) → Prop
  | init {D : Type} {dflt : D} {maxTag : Nat} {s : Sys n D W} {σ : Fin n → Store n} :
      createGrid g n dflt maxTag = .ok s → (Out.collect fun i => initStoreD g maxTag i (s i)) = .ok σ →
      WithStoreD g dflt maxTag s σ
  | step {D : Type} {dflt : D} {maxTag : Nat} {s s' : Sys n D W} {σ σ' : Fin n → Store n} (op : Op n D W) :
      WithStoreD g dflt maxTag s σ → op.Ok s → stepStoredD g dflt maxTag s σ op = .ok (s', σ') →
      WithStoreD g dflt maxTag s' σ'
  | copy {D D0 : Type} {dflt : D} {dflt0 : D0} {maxTag : Nat} {s : Sys n D0 W} {σ σ' : Fin n → Store n} :
      WithStoreD g dflt0 maxTag s σ → (Out.collect fun i => copyStoreD g (copyProc g dflt i (s i)) (σ i)) = .ok σ' →
      WithStoreD g dflt maxTag (copyGrid g dflt s) σ'

end Dccrg
