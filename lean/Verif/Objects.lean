import Verif.StoredHist
/-!
# Objects behind pointers

Data of cells are objects in containers (`std::unordered_map`), pointers to which are given to users by `operator[]` and items of
iterators. An object keeps its address until it is erased from its container; here objects have numbers that are never used
again, so that a pointer to an erased object differs from pointers to all existing ones.

Items of iterators also have members which are defined by the user and are updated when the items are made (`Extras`).
-/
namespace Dccrg
open Cfg
variable {n : Nat} {D W X Y : Type}

/-- Containers of data: `cell_data`, `remote_neighbors`, `refined_cell_data` and `unrefined_cell_data`. -/
inductive Pool where
  | own
  | copy
  | refined
  | unrefined
  deriving DecidableEq

/-- Contents of a container. -/
def Proc.pool (p : Proc n D W) : Pool → Nat → Option D
  | .own => p.data
  | .copy => p.remote
  | .refined => p.refinedData
  | .unrefined => p.unrefinedData

/-- Objects of a process: the number of the object which has data of a cell in a container, and the next unused number. -/
structure Objs where
  obj : Pool → Nat → Option Nat
  next : Nat

/-- No objects. -/
def Objs.empty : Objs := ⟨fun _ _ => none, 0⟩

/-- `operator[]` of a container: a new object is made if there is none. -/
def Objs.add (m : Pool) (h : Objs) (c : Nat) : Objs :=
  if (h.obj m c).isSome then h
  else ⟨fun m' x => if m' = m ∧ x = c then some h.next else h.obj m' x, h.next + 1⟩

/-- `operator[]` for several cells in order. -/
def Objs.addAll (m : Pool) (l : List Nat) (h : Objs) : Objs := l.foldl (Objs.add m) h

/-- `erase` of several cells. -/
def Objs.del (m : Pool) (l : List Nat) (h : Objs) : Objs :=
  { h with obj := fun m' x => if m' = m ∧ x ∈ l then none else h.obj m' x }

/-- `clear`. -/
def Objs.clear (m : Pool) (h : Objs) : Objs :=
  { h with obj := fun m' x => if m' = m then none else h.obj m' x }

/-- Pointer returned by `operator[]` of the grid (dccrg.hpp:768-781). -/
def Objs.access (h : Objs) (c : Nat) : Option Nat :=
  match h.obj .own c with
  | some a => some a
  | none => match h.obj .copy c with
    | some a => some a
    | none => match h.obj .refined c with
      | some a => some a
      | none => h.obj .unrefined c

/-! ## Objects made and erased by functions -/

/-- Something else that changes in a loop, `k` is called before every round. -/
def follow {α β γ : Type} (f : α → β → Out β) (k : α → β → γ → γ) : List α → β → γ → γ
  | [], _, c => c
  | a :: l, b, c =>
    match f a b with
    | .ok b' => follow f k l b' (k a b c)
    | _ => c

/-- One refined cell (dccrg.hpp:10412-10413, 10425-10431). -/
def refineObjs (g : Cfg) (i : Fin n) (c : Nat) (s : Proc n D W × List Nat) (h : Objs) : Objs :=
  if s.1.owner c = some i then (((h.add .refined c).del .own [c]).addAll .own (g.children c)) else h

/-- One unrefined cell (dccrg.hpp:10581-10582). -/
def unrefineObjs (g : Cfg) (i : Fin n) (u : Nat) (s : Moving n D W) (h : Objs) : Objs :=
  if s.1.owner u = some i ∧ s.1.owner (g.parent u) = some i then (h.add .unrefined u).del .own [u] else h

/-- Objects after `prepare` (dccrg.hpp:10318-10322, 10365-10597). -/
def prepareObjs (g : Cfg) (dflt : D) (i : Fin n) (p : Proc n D W) (h : Objs) : Out Objs :=
  let p0 : Proc n D W := { p with
    remote := fun _ => none
    refinedData := fun _ => none
    unrefinedData := fun _ => none }
  let h := ((h.clear .copy).clear .refined).clear .unrefined
  (Out.fold (refineOne g dflt i) (dedup p.req.toRefine) (p0, [])).bind fun s =>
  let h := follow (refineOne g dflt i) (refineObjs g i) (dedup p.req.toRefine) (p0, []) h
  (Out.fold (parentOwner g) (dedup p.req.toUnrefine) s.1.owner).bind fun w =>
  .ok (follow (unrefineOne g i) (unrefineObjs g i) (families g p.req.toUnrefine) ({ s.1 with owner := w }, fun _ => [], fun _ => []) h)

/-- Objects after `execute_refines` (dccrg.hpp:10298-10748) except copies of remote neighbors, which are made by `keptAfter`:
received data of unrefined cells (dccrg.hpp:10796-10798), parents and removal of unrefined cells (dccrg.hpp:10670-10680). -/
def executeObjs (g : Cfg) (dflt : D) (s : Sys n D W) (h : Fin n → Objs) : Out (Fin n → Objs) :=
  (Out.collect fun i => prepare g dflt i (s i)).bind fun m =>
  (Out.collect fun i => prepareObjs g dflt i (s i) (h i)).bind fun h =>
  .ok fun i =>
    let U := (m i).1.1.req.toUnrefine
    (((h i).addAll .unrefined ((List.finRange n).flatMap fun p => isort ((m i).1.2.2 p))).addAll .own
      ((parents g U).filter fun P => (m i).1.1.owner P == some i)).del .own (families g U)

/-- Objects after `stop_refining` (dccrg.hpp:3538-3562). -/
def stopObjs (g : Cfg) (dflt : D) (s : Sys n D W) (h : Fin n → Objs) : Out (Fin n → Objs) :=
  match overrideRefines g (fun i => exist (s i).owner) (fun i => (s i).req) with
  | none => .hangs
  | some r =>
    (induceRefines g (fun i => (s i).owner) (fun i c => ((s i).data c).isSome)
      (fun i => (r i).toRefine)).bind fun refs =>
    (overrideUnrefines g (fun i => exist (s i).owner) refs (fun i => (r i).notUnrefine)
      (fun i => (r i).toUnrefine)).bind fun unrefs =>
    executeObjs g dflt (fun i => { s i with req :=
      { toRefine := refs i, toUnrefine := unrefs i, notRefine := (r i).notRefine, notUnrefine := [] } }) h

/-- Objects after load balancing: arriving cells (dccrg.hpp:3864-3878), clearing (dccrg.hpp:3887-3891), received data
(dccrg.hpp:10796-10798) and removed cells (dccrg.hpp:4165-4168). -/
def balanceObjs (g : Cfg) (dflt : D) (z : Fin n → Moves n) (s : Sys n D W) (h : Fin n → Objs) : Out (Fin n → Objs) :=
  (Out.collect fun i => initBalance g dflt s z i).bind fun b =>
  .ok fun i =>
    let arriving := (List.finRange n).flatMap (b i).recv
    let leaving := (List.finRange n).flatMap (b i).send
    (((((((h i).addAll .own arriving).clear .copy).clear .refined).clear .unrefined).addAll .own arriving).del .own leaving)

/-- Objects after an operation, before copies of remote neighbors are allocated. Updates make an object if there is none for a
received cell (dccrg.hpp:10796-10798). -/
def objsAfter (g : Cfg) (dflt : D) (s : Sys n D W) (σ : Fin n → Store n) (h : Fin n → Objs) : Op n D W → Out (Fin n → Objs)
  | .stop _ => stopObjs g dflt s h
  | .balance z => balanceObjs g dflt z s h
  | .update id => (Out.collect fun i => storedSends (σ i) id).bind fun m =>
    .ok fun i => (h i).addAll .copy ((List.finRange n).flatMap (m i).2)
  | .clearRefined i => .ok fun j => if j = i then ((h j).clear .refined).clear .unrefined else h j
  | _ => .ok h

/-! ## Items of iterators -/

/-- Members of items that are added by the user: results of their `update` functions (dccrg.hpp:7490-7511, 7559-7573) as functions
of cells and their processes, and of ids of the cell, neighborhood and neighbor. -/
structure Extras (n : Nat) (X Y : Type) where
  cell : Owner n → Nat → X
  nbr : Owner n → Int → Nat → Nat × V3 Int → Y

/-- `Neighbors_Item` (dccrg.hpp:7459-7512). -/
structure NbrView (Y : Type) where
  id : Nat
  off : V3 Int
  data : Option Nat
  extra : Y

/-- `Cells_Item` (dccrg.hpp:7533-7575) with its neighbors. -/
structure CellView (X Y : Type) where
  id : Nat
  data : Option Nat
  extra : X
  nbrs : List (NbrView Y)

/-- Items made by `update_cell_pointers` (dccrg.hpp:11508-11515, 11608-11680) of a process with given owners of cells and objects. -/
def viewOf (e : Extras n X Y) (w : Owner n) (h : Objs) (id : Int) (k : Cache) : List (CellView X Y) :=
  k.cells.map fun x => ⟨x.id, h.access x.id, e.cell w x.id,
    (range k.nbrs x.all).map fun b => ⟨b.1, b.2, h.access b.1, e.nbr w id x.id b⟩⟩

/-- Objects of a process and items of its iterators. -/
structure Views (n : Nat) (X Y : Type) where
  objs : Objs
  /-- `cells_rw`, `neighbors_rw` -/
  dflt : List (CellView X Y)
  /-- `cells_user`, `neighbors_user` -/
  user : Int → Option (List (CellView X Y))

/-- Allocation of copies of remote neighbors (dccrg.hpp:7234-7236). -/
def Objs.alloc (σ : Store n) (h : Objs) : Objs := h.addAll .copy σ.rem

/-- What a process has after an operation: `p` and `p'` are the process before and after it, `σ'` is what is stored after it, `h` are
objects without new copies of remote neighbors (dccrg.hpp:4182-4200, 6683-6685, 6751-6764, 10727-10745). -/
def viewsAfter (e : Extras n X Y) (g : Cfg) (op : Op n D W) (p p' : Proc n D W) (σ' : Store n) (h : Objs) (v : Views n X Y) :
    Views n X Y :=
  let rebuilt : Views n X Y :=
    ⟨h.alloc σ', viewOf e p'.owner (h.alloc σ') defaultId σ'.ptr, fun id =>
      if (p'.hoods.lookup id).isSome then (σ'.userPtr id).map (viewOf e p'.owner (h.alloc σ') id) else v.user id⟩
  match op with
  | .stop _ => rebuilt
  | .balance _ => rebuilt
  | .addHood id items =>
    if id = defaultId ∨ (p.hoods.lookup id).isSome ∨ items.all (itemOk g) = false then { v with objs := h }
    else ⟨h.alloc σ', v.dflt, fun x =>
      if x = id then (σ'.userPtr id).map (viewOf e p'.owner (h.alloc σ') id) else v.user x⟩
  | .removeHood id => if id = defaultId then { v with objs := h } else { v with objs := h, user := eraseAt v.user id }
  | _ => { v with objs := h }

/-- What `initialize` makes (dccrg.hpp:8186, 8259, 541-560), or the copy constructor (dccrg.hpp:421-446). `p` is the process after
that, its local cells are made first. -/
def viewsStart (e : Extras n X Y) (g : Cfg) (p : Proc n D W) (σ : Store n) : Views n X Y :=
  let h := (Objs.empty.addAll .own (heldBy g p)).alloc σ
  ⟨h, viewOf e p.owner h defaultId σ.ptr, fun _ => none⟩

/-- Histories with objects and items. -/
inductive WithViews {n : Nat} {W X Y : Type} (e : Extras n X Y) (g : Cfg) :
    {D : Type} → D → Nat → Sys n D W → (Fin n → Store n) → (Fin n → Views n X Y) → Prop
  | init {D : Type} {dflt : D} {maxTag : Nat} {s : Sys n D W} {σ : Fin n → Store n} :
      createGrid g n dflt maxTag = .ok s → (Out.collect fun i => initStore g maxTag i (s i)) = .ok σ →
      WithViews e g dflt maxTag s σ fun i => viewsStart e g (s i) (σ i)
  | step {D : Type} {dflt : D} {maxTag : Nat} {s s' : Sys n D W} {σ σ' : Fin n → Store n} {v : Fin n → Views n X Y}
      {h : Fin n → Objs} (op : Op n D W) :
      WithViews e g dflt maxTag s σ v → op.Ok s → stepStored g dflt maxTag s σ op = .ok (s', σ') →
      objsAfter g dflt s σ (fun i => (v i).objs) op = .ok h →
      WithViews e g dflt maxTag s' σ' fun i => viewsAfter e g op (s i) (s' i) (σ' i) (h i) (v i)
  | copy {D D0 : Type} {dflt : D} {dflt0 : D0} {maxTag : Nat} {s : Sys n D0 W} {σ σ' : Fin n → Store n} {v : Fin n → Views n X Y} :
      WithViews e g dflt0 maxTag s σ v →
      (Out.collect fun i => copyStore g (copyProc g dflt i (s i)) (σ i)) = .ok σ' →
      WithViews e g dflt maxTag (copyGrid g dflt s) σ' fun i => viewsStart e g (copyProc g dflt i (s i)) (σ' i)

end Dccrg
