import Verif.Nbr
/-!
# Datatypes, requests and files of MPI

Model of what functions of dccrg do with objects of MPI: datatypes, requests of nonblocking communication and files, on one process.
An object is a number that isn't used again. Using objects in a way which MPI doesn't define is `Out.undef`. MPI functions are
assumed to succeed. Communicators and Zoltan are not modelled.
-/
namespace Dccrg

/-- A datatype: one of MPI, or one that has been made by a program. -/
inductive Dtype where
  | named
  | derived (k : Nat)

/-- Objects of MPI on one process: numbers below `types`, `reqs` and `files` have been used. -/
structure Mpi where
  types : Nat
  alive : Nat → Bool
  committed : Nat → Bool
  reqs : Nat
  pending : Nat → Bool
  files : Nat
  opened : Nat → Bool

/-- Programs that use MPI. -/
def Use (α : Type) : Type := Mpi → Out (α × Mpi)

instance : Monad Use where
  pure a := fun h => .ok (a, h)
  bind m f := fun h => match m h with
    | .ok (a, h') => f a h'
    | .throws => .throws
    | .hangs => .hangs
    | .undef => .undef

namespace Mpi

/-! ## Functions of MPI -/

/-- A datatype that can be used. -/
def valid (h : Mpi) : Dtype → Bool
  | .named => true
  | .derived k => h.alive k

/-- A datatype that can be used for communication and files. -/
def ready (h : Mpi) : Dtype → Bool
  | .named => true
  | .derived k => h.alive k && h.committed k

/-- `Is_Named_Datatype` (dccrg_mpi_support.hpp:66-95), which calls `MPI_Type_get_envelope`. -/
def isNamed (t : Dtype) : Use Bool := fun h =>
  if h.valid t then .ok (match t with | .named => true | .derived _ => false, h) else .undef

/-- `MPI_Type_size`. -/
def typeSize (t : Dtype) : Use Unit := fun h => if h.valid t then .ok ((), h) else .undef

/-- `MPI_Type_commit`. -/
def commit (t : Dtype) : Use Unit := fun h =>
  match t with
  | .named => .ok ((), h)
  | .derived k => if h.alive k then .ok ((), { h with committed := fun x => if x = k then true else h.committed x }) else .undef

/-- `MPI_Type_create_struct` and `MPI_Type_contiguous` from given datatypes, which are not needed afterwards. -/
def create (ts : List Dtype) : Use Dtype := fun h =>
  if ts.all h.valid then
    .ok (.derived h.types, { h with
      types := h.types + 1
      alive := fun x => if x = h.types then true else h.alive x
      committed := fun x => if x = h.types then false else h.committed x })
  else .undef

/-- `MPI_Type_free`, named datatypes must not be freed. Communication that has been started is not disturbed. -/
def freeType (t : Dtype) : Use Unit := fun h =>
  match t with
  | .named => .undef
  | .derived k => if h.alive k then .ok ((), { h with alive := fun x => if x = k then false else h.alive x }) else .undef

/-- `MPI_Isend` or `MPI_Irecv`. -/
def post (t : Dtype) : Use Nat := fun h =>
  if h.ready t then
    .ok (h.reqs, { h with
      reqs := h.reqs + 1
      pending := fun x => if x = h.reqs then true else h.pending x })
  else .undef

/-- `MPI_Waitall` of requests that must be of unfinished communication. -/
def waitAll (l : List Nat) : Use Unit := fun h =>
  if l.all h.pending then .ok ((), { h with pending := fun x => if x ∈ l then false else h.pending x }) else .undef

/-- `MPI_File_open`. -/
def openFile : Use Nat := fun h =>
  .ok (h.files, { h with
    files := h.files + 1
    opened := fun x => if x = h.files then true else h.opened x })

/-- `MPI_File_write_at`, `MPI_File_read_at_all`, `MPI_File_set_view` and other functions, with a datatype. -/
def fileWith (f : Nat) (t : Dtype) : Use Unit := fun h => if h.opened f && h.ready t then .ok ((), h) else .undef

/-- `MPI_File_close`. -/
def closeFile (f : Nat) : Use Unit := fun h =>
  if h.opened f then .ok ((), { h with opened := fun x => if x = f then false else h.opened x }) else .undef

end Mpi
open Mpi

/-- What `get_mpi_datatype` of a cell returns as datatype: a named one, a new one that may be committed, or one that has been made
earlier. -/
inductive Reply where
  | named
  | fresh (committed : Bool)
  | kept (k : Nat)

/-- `get_cell_mpi_datatype` (dccrg_get_cell_datatype.hpp). -/
def ask : Reply → Use Dtype
  | .named => pure .named
  | .fresh b => do
    let t ← create []
    if b then commit t
    pure t
  | .kept k => pure (.derived k)

/-- One of two parts of a function. -/
def Use.pick {α : Type} (b : Bool) (m n : Use α) : Use α := if b then m else n

/-- Loop over a list. -/
def forAll {α β : Type} (f : α → Use β) : List α → Use (List β)
  | [] => pure []
  | a :: l => do
    let b ← f a
    let r ← forAll f l
    pure (b :: r)

/-- Frees a datatype unless it is named (e.g. dccrg.hpp:10973-10985). -/
def freeDerived (t : Dtype) : Use Unit := do
  let b ← isNamed t
  if b then pure () else freeType t

/-- One cell in a message (dccrg.hpp:10813-10886, 11022-11095): its request. -/
def postSingle (r : Reply) : Use Nat := do
  let t ← ask r
  let b ← isNamed t
  Use.pick b (pure ()) (commit t)
  let q ← post t
  Use.pick b (pure ()) (freeType t)
  pure q

/-- All cells in one message (dccrg.hpp:10888-10986, 11097-11187): its request. First elements of vectors don't exist if there are no
cells. -/
def postWhole (rs : List Reply) : Use Nat :=
  if rs.isEmpty then fun _ => .undef
  else do
    let ts ← forAll ask rs
    let d ← create ts
    commit d
    let q ← post d
    freeType d
    let _ ← forAll freeDerived ts
    pure q

/-- `start_user_data_receives` and `start_user_data_sends` (dccrg.hpp:10779-11191): requests of messages to or from given processes,
in any order of processes, added to those that are stored. -/
def postTo (single : Bool) : List (Nat × List Reply) → (Nat → List Nat) → Use (Nat → List Nat)
  | [], q => pure q
  | (p, rs) :: l, q => do
    let new ← Use.pick single (forAll postSingle rs) do
      let r ← postWhole rs
      pure [r]
    postTo single l fun x => if x = p then q x ++ new else q x

/-- `wait_user_data_transfer_receives` and `wait_user_data_transfer_sends` (dccrg.hpp:11198-11263) for stored requests of processes
`ps`. -/
def waitFor : List Nat → (Nat → List Nat) → Use Unit
  | [], _ => pure ()
  | p :: ps, q => do
    waitAll (q p)
    waitFor ps q

/-- Header of files (dccrg.hpp:1176-1237, 1905-1953). -/
def useHeader (f : Nat) (header : Reply) : Use Unit := do
  let t ← ask header
  let b ← isNamed t
  Use.pick b (pure ()) (commit t)
  fileWith f t
  typeSize t
  freeDerived t

/-- Datatype of data of a cell in the file (dccrg.hpp:1454-1490, 2245-2281). -/
def fileType (t : Dtype) : Use Dtype := do
  let b ← isNamed t
  if b then pure t else do
    typeSize t
    create [.named]

/-- Datatype of data of all cells, in memory or in the file (dccrg.hpp:1417-1452, 1640-1672, 2305-2329, 2345-2384). -/
def cellsType (ts : List Dtype) : Use Dtype := do
  let t ← create ts
  commit t
  pure t

/-- `save_grid_data` (dccrg.hpp:1117-1787), `root` on process 0, of cells whose datatypes are given. Datatypes are named in a process
without cells. -/
def saveTypes (root : Bool) (header : Reply) (cells : List Reply) : Use Unit := do
  let f ← openFile
  Use.pick root (useHeader f header) (pure ())
  let ts ← forAll ask cells
  let mem ← Use.pick cells.isEmpty (pure .named) (cellsType ts)
  let fts ← forAll fileType ts
  let _ ← forAll (fun t => do typeSize t; isNamed t) fts
  let file ← Use.pick cells.isEmpty (pure .named) (cellsType fts)
  fileWith f file
  fileWith f mem
  freeDerived mem
  freeDerived file
  let _ ← forAll freeDerived ts
  let _ ← forAll freeDerived fts
  closeFile f

/-- `start_loading_grid_data` (dccrg.hpp:1870-2163): the file. If the file is refused (dccrg.hpp:1963-2052) it stays open. -/
def startLoadingTypes (header : Reply) : Use Nat := do
  let f ← openFile
  useHeader f header
  fileWith f .named
  pure f

/-- `continue_loading_grid_data` (dccrg.hpp:2188-2447). Datatypes of cells in the file are not freed. -/
def continueLoadingTypes (f : Nat) (cells : List Reply) : Use Unit := do
  let ts ← forAll ask cells
  let fts ← forAll fileType ts
  let _ ← forAll typeSize ts
  let file ← cellsType fts
  fileWith f file
  let mem ← cellsType ts
  fileWith f mem
  freeType mem
  freeType file
  let _ ← forAll freeDerived ts
  pure ()

/-- What a grid stores about MPI: requests (dccrg.hpp:7387-7390) and the file that is being loaded (dccrg.hpp:7782), and all objects of the process.
Stored requests are those of processes below `procs`. -/
structure Handles where
  procs : Nat
  recv : Nat → List Nat
  send : Nat → List Nat
  file : Option Nat
  mpi : Mpi

/-- Parts of functions that use objects of MPI. -/
inductive Use.Call where
  /-- `start_user_data_transfers` (dccrg.hpp:10756-10774): used by `start_remote_neighbor_copy_updates`, `continue_balance_load` and
  `stop_refining`. -/
  | start (single : Bool) (recv send : List (Nat × List Reply))
  | waitReceives
  | waitSends
  | save (root : Bool) (header : Reply) (cells : List Reply)
  /-- false is returned if `accepted` is false -/
  | startLoading (header : Reply) (accepted : Bool)
  | continueLoading (cells : List Reply)
  | finishLoading

/-- One call. -/
def Handles.step (s : Handles) (c : Use.Call) : Out Handles :=
  match c with
  | .start single recv send =>
    match postTo single recv s.recv s.mpi with
    | .ok (r, h) => match postTo single send s.send h with
      | .ok (t, h') => .ok { s with recv := r, send := t, mpi := h' }
      | .throws => .throws | .hangs => .hangs | .undef => .undef
    | .throws => .throws | .hangs => .hangs | .undef => .undef
  | .waitReceives => match waitFor (List.range s.procs) s.recv s.mpi with
    | .ok (_, h) => .ok { s with recv := fun _ => [], mpi := h }
    | .throws => .throws | .hangs => .hangs | .undef => .undef
  | .waitSends => match waitFor (List.range s.procs) s.send s.mpi with
    | .ok (_, h) => .ok { s with send := fun _ => [], mpi := h }
    | .throws => .throws | .hangs => .hangs | .undef => .undef
  | .save root header cells => match saveTypes root header cells s.mpi with
    | .ok (_, h) => .ok { s with mpi := h }
    | .throws => .throws | .hangs => .hangs | .undef => .undef
  | .startLoading header accepted => match startLoadingTypes header s.mpi with
    | .ok (f, h) => .ok { s with file := if accepted then some f else none, mpi := h }
    | .throws => .throws | .hangs => .hangs | .undef => .undef
  | .continueLoading cells => match s.file with
    | none => .undef
    | some f => match continueLoadingTypes f cells s.mpi with
      | .ok (_, h) => .ok { s with mpi := h }
      | .throws => .throws | .hangs => .hangs | .undef => .undef
  | .finishLoading => match s.file with
    | none => .undef
    | some f => match closeFile f s.mpi with
      | .ok (_, h) => .ok { s with file := none, mpi := h }
      | .throws => .throws | .hangs => .hangs | .undef => .undef

/-- Calls one after the other. -/
def Handles.run (s : Handles) : List Use.Call → Out Handles
  | [] => .ok s
  | c :: l => match s.step c with
    | .ok s' => s'.run l
    | .throws => .throws | .hangs => .hangs | .undef => .undef

end Dccrg
