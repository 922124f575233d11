import Verif.Halo
/-!
# Executing refinement

Model of `execute_refines` (dccrg.hpp:10298-10748) and `stop_refining` (dccrg.hpp:3538-3562).
`Cell_Data` is a type `D` with default value `dflt`, weights of cells have type `W`.
-/
namespace Dccrg
variable {n : Nat} {D W α β : Type}

/-- State of one process (dccrg.hpp:7310-7560). Neighbor lists, cells on process boundary and lists of
cells to send and receive are recomputed by the code after every change of the grid or of its partition,
they are functions of `owner` here. A new pin request is `some p` for pinning to process `p`, `none`
for unpinning (stored by the code as number of processes). -/
structure Proc (n : Nat) (D W : Type) where
  /-- `cell_process` -/
  owner : Owner n
  /-- `cell_data` -/
  data : Nat → Option D
  /-- `remote_neighbors` -/
  remote : Nat → Option D
  /-- requests for refinement -/
  req : Req
  /-- `refined_cell_data` -/
  refinedData : Nat → Option D
  /-- `unrefined_cell_data` -/
  unrefinedData : Nat → Option D
  /-- `pin_requests` -/
  pins : Nat → Option (Fin n)
  /-- `new_pin_requests` -/
  newPins : Nat → Option (Option (Fin n))
  /-- `cell_weights` -/
  weights : Nat → Option W
  /-- `user_hood_of` -/
  hoods : List (Int × List (V3 Int))

/-- State of all processes. -/
abbrev Sys (n : Nat) (D W : Type) := Fin n → Proc n D W

/-- Assign one value to several keys, `none` erases. -/
def put (f : Nat → Option α) (ks : List Nat) (v : Option α) : Nat → Option α :=
  fun x => if x ∈ ks then v else f x

/-- Loop over a list. -/
def Out.fold (f : α → β → Out β) : List α → β → Out β
  | [], b => .ok b
  | a :: l, b =>
    match f a b with
    | .ok b' => Out.fold f l b'
    | .throws => .throws
    | .hangs => .hangs
    | .undef => .undef

/-- Continue with result. -/
def Out.bind : Out α → (α → Out β) → Out β
  | .ok a, f => f a
  | .throws, _ => .throws
  | .hangs, _ => .hangs
  | .undef, _ => .undef

def Out.isOk : Out α → Bool
  | .ok _ => true
  | _ => false

def Out.get : (o : Out α) → o.isOk = true → α
  | .ok a, _ => a

def Out.isHang : Out α → Bool
  | .hangs => true
  | _ => false

def Out.isUndef : Out α → Bool
  | .undef => true
  | _ => false

/-- Results of all processes. -/
def Out.collect (f : Fin n → Out α) : Out (Fin n → α) :=
  if h : ∀ i, (f i).isOk = true then .ok fun i => (f i).get (h i)
  else if ∃ i, (f i).isUndef = true then .undef
  else if ∃ i, (f i).isHang = true then .hangs else .throws

/-! ## Refined cells -/

/-- Children inherit a value of refined cell (dccrg.hpp:10428-10452). -/
def inherit (f : Nat → Option α) (c : Nat) (ks : List Nat) : Nat → Option α :=
  if (f c).isSome then fun x => if x = c then none else if x ∈ ks then f c else f x else f

/-- Process one refined cell (dccrg.hpp:10366-10453); also new cells of the process. -/
def refineOne (g : Cfg) (dflt : D) (i : Fin n) (c : Nat) (s : Proc n D W × List Nat) :
    Out (Proc n D W × List Nat) :=
  match s.1.owner c with
  | none => .throws
  | some o =>
    if o = i ∧ (s.1.data c).isNone then .throws
    else if ¬ g.Valid c ∨ g.lvl c = g.maxLvl then .throws
    else
      .ok ({ s.1 with
        owner := put s.1.owner (g.children c) (some o)
        data := if o = i then fun x => if x ∈ g.children c then some ((s.1.data x).getD dflt)
          else if x = c then none else s.1.data x else s.1.data
        refinedData := if o = i then put s.1.refinedData [c] (s.1.data c) else s.1.refinedData
        pins := inherit s.1.pins c (g.children c)
        newPins := inherit s.1.newPins c (g.children c)
        weights := if o = i then inherit s.1.weights c (g.children c) else s.1.weights },
        if o = i then s.2 ++ g.children c else s.2)

/-! ## Unrefined cells -/

/-- Owner of the parent of one unrefined cell (dccrg.hpp:10457-10492). -/
def parentOwner (g : Cfg) (u : Nat) (w : Owner n) : Out (Owner n) :=
  match w (g.child (g.parent u) (fun _ => 0)) with
  | none => .throws
  | some o => .ok (put w [g.parent u] (some o))

/-- `all_to_unrefine` (dccrg.hpp:10455, 10532-10534). -/
def families (g : Cfg) (l : List Nat) : List Nat := dedup (l.flatMap fun u => g.children (g.parent u))

/-- `parents_of_unrefined` (dccrg.hpp:10456, 10485). -/
def parents (g : Cfg) (l : List Nat) : List Nat := dedup (l.map g.parent)

/-- Process with lists of cells to send and receive. -/
abbrev Moving (n : Nat) (D W : Type) := Proc n D W × (Fin n → List Nat) × (Fin n → List Nat)

/-- Add to the end of one of the lists. -/
def push (f : Fin n → List Nat) (p : Fin n) (c : Nat) : Fin n → List Nat :=
  fun q => if q = p then f q ++ [c] else f q

/-- Remove one unrefined cell from the grid (dccrg.hpp:10538-10597). -/
def unrefineOne (g : Cfg) (i : Fin n) (u : Nat) (s : Moving n D W) : Out (Moving n D W) :=
  match s.1.owner (g.parent u), s.1.owner u with
  | some op, some ou =>
    let p : Proc n D W := { s.1 with
      owner := put s.1.owner [u] none
      pins := put s.1.pins [u] none
      newPins := put s.1.newPins [u] none
      weights := put s.1.weights [u] none }
    if i = ou ∧ i = op then
      if (s.1.data u).isNone then .throws
      else .ok ({ p with
        unrefinedData := put p.unrefinedData [u] (p.data u)
        data := put p.data [u] none }, s.2)
    else if i = ou then .ok (p, push s.2.1 op u, s.2.2)
    else if i = op then .ok (p, s.2.1, push s.2.2 ou u)
    else .ok (p, s.2)
  | _, _ => .throws

/-- Everything that one process does before data of unrefined cells is transferred
(dccrg.hpp:10320-10325, 10365-10597). -/
def prepare (g : Cfg) (dflt : D) (i : Fin n) (p : Proc n D W) :
    Out (Moving n D W × List Nat) :=
  (Out.fold (refineOne g dflt i) (dedup p.req.toRefine) ({ p with
    remote := fun _ => none
    refinedData := fun _ => none
    unrefinedData := fun _ => none }, [])).bind fun s =>
  (Out.fold (parentOwner g) (dedup p.req.toUnrefine) s.1.owner).bind fun w =>
  (Out.fold (unrefineOne g i) (families g p.req.toUnrefine)
    ({ s.1 with owner := w }, fun _ => [], fun _ => [])).bind fun m => .ok (m, s.2)

/-! ## The rest -/

/-- Whether lists of neighbors of all cells can be found (dccrg.hpp:10701-10711). -/
def neighborsFound (g : Cfg) (p : Proc n D W) : Bool :=
  (ids g).all fun c => !exist p.owner c ||
    ((hoodOf g :: p.hoods.map (·.2)).all fun H =>
      (findNeighborsOf g (exist p.owner) c H).isOk &&
      (findNeighborsTo g (exist p.owner) c (negHood H)).isOk)

/-- Whether tags of messages are possible for updates of remote neighbors (dccrg.hpp:8868-8880,
8926-8938, 9030-9042, 9067-9079). -/
def tagsFit (g : Cfg) (maxTag : Nat) (i : Fin n) (p : Proc n D W) : Bool :=
  (hoodOf g :: p.hoods.map (·.2)).all fun H => (List.finRange n).all fun q =>
    decide ((sendList g H i p.owner (fun c => (p.data c).isSome) q).length ≤ maxTag) &&
    decide ((recvList g H i p.owner (fun c => (p.data c).isSome) q).length ≤ maxTag)

/-- Updates of neighbor lists and copies of remote neighbors after the grid or its partition has changed
(dccrg.hpp:10699-10745, 4183-4232). -/
def rebuild (g : Cfg) (dflt : D) (maxTag : Nat) (i : Fin n) (p : Proc n D W) : Out (Proc n D W) :=
  if neighborsFound g p = false then .throws
  else if tagsFit g maxTag i p = false then .throws
  else .ok { p with
    remote := fun c =>
      if c ∈ remoteBoundary g i p.owner (fun c => (p.data c).isSome) then
        some ((p.remote c).getD dflt) else p.remote c }

/-- What one process does after data of unrefined cells has been transferred (dccrg.hpp:10647-10697).
`R` and `U` are `cells_to_refine` and `cells_to_unrefine`. -/
def finishRefines (g : Cfg) (dflt : D) (i : Fin n) (p : Proc n D W) : Out (Proc n D W) :=
  let R := p.req.toRefine
  let U := p.req.toUnrefine
  if ∃ P ∈ parents g U, p.owner P = none then .throws
  else .ok { p with
    data := fun x => if x ∈ families g U then none
      else if x ∈ parents g U ∧ p.owner x = some i then some ((p.data x).getD dflt) else p.data x
    owner := put p.owner R none
    req := { p.req with toRefine := [], toUnrefine := [] } }

/-- `execute_refines` (dccrg.hpp:10298-10748) of all processes, with cells returned on each process. -/
def executeRefines (g : Cfg) (dflt : D) (maxTag : Nat) (s : Sys n D W) :
    Out (Fin n → Proc n D W × List Nat) :=
  (Out.collect fun i => prepare g dflt i (s i)).bind fun m =>
  (transfer maxTag (fun p q => isort ((m p).1.2.1 q)) (fun q p => isort ((m q).1.2.2 p))
    (fun p => (m p).1.1.data) (fun p => (m p).1.1.unrefinedData)).bind fun un =>
  Out.collect fun i =>
    (finishRefines g dflt i { (m i).1.1 with unrefinedData := un i }).bind fun p =>
    (rebuild g dflt maxTag i p).bind fun p => .ok (p, (m i).2)

/-- `stop_refining` (dccrg.hpp:3538-3562), also returned cells of every process. -/
def stopRefining (g : Cfg) (dflt : D) (maxTag : Nat) (sorted : Bool) (s : Sys n D W) :
    Out (Fin n → Proc n D W × List Nat) :=
  match overrideRefines g (fun i => exist (s i).owner) (fun i => (s i).req) with
  | none => .hangs
  | some r =>
    (induceRefines g (fun i => (s i).owner) (fun i c => ((s i).data c).isSome)
      (fun i => (r i).toRefine)).bind fun refs =>
    (overrideUnrefines g (fun i => exist (s i).owner) refs (fun i => (r i).notUnrefine)
      (fun i => (r i).toUnrefine)).bind fun unrefs =>
    (executeRefines g dflt maxTag fun i => { s i with req :=
      { toRefine := refs i, toUnrefine := unrefs i, notRefine := (r i).notRefine,
        notUnrefine := [] } }).bind fun res =>
    .ok fun i => ((res i).1, if sorted then isort (res i).2 else (res i).2)

end Dccrg
