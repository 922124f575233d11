import Verif.Records
/-!
# Saving a grid

Model of `save_grid_data` (dccrg.hpp:1117-1787) and its file format. Every process computes where it writes from its own
cells and from what it has received from others. MPI functions are assumed to succeed, offsets of files do not overflow and
named datatypes have no padding.
-/
namespace Dccrg
variable {n : Nat}

/-- What `get_mpi_datatype` returns: whether datatype is named, count, size of datatype, and the bytes in memory that are
described by count and datatype. -/
structure Piece where
  named : Bool
  count : Nat
  size : Nat
  bytes : List Nat

/-- Bytes are the ones described. -/
def Piece.Ok (p : Piece) : Prop := p.bytes.length = p.count * p.size

/-- How much `current_byte_offset` is increased (dccrg.hpp:1508-1512). -/
def Piece.advance (p : Piece) : Nat := if p.named then p.count * p.size else p.size

/-- Loop over `file_displacements` (dccrg.hpp:1492-1513), second argument is `current_byte_offset`. -/
def displ : List Piece → Nat → List Nat
  | [], _ => []
  | p :: l, o => o :: displ l (o + p.advance)

/-- `current_byte_offset` after the loop (dccrg.hpp:1492-1513). -/
def displEnd (l : List Piece) : Nat := l.foldl (fun o p => o + p.advance) 0

/-- Members of `Dccrg` that are written to files. -/
structure Meta where
  mapping : Mapping
  hood : Nat
  per : V3 Bool
  geom : GeomPar

/-- Arguments of `save_grid_data` (dccrg.hpp:1117-1125), `header` is that of process 0. -/
structure SaveArgs (n : Nat) where
  offset : Nat
  header : Piece
  toWrite : Fin n → List Nat := fun _ => []
  info : Bool := true
  ids : Bool := true
  offsets : Bool := true

/-- `endianness_check` (dccrg.hpp:1256). -/
def endiannessCheck : Nat := 0x1234567890abcdef

/-- Sum over processes before process `i` (loops in dccrg.hpp:1545-1547, 1583-1589). -/
def before (i : Fin n) (f : Fin n → Nat) : Nat := (((List.finRange n).take i.1).map f).sum

/-- Sum over all processes, see `All_Reduce`. -/
def total (f : Fin n → Nat) : Nat := ((List.finRange n).map f).sum

section
variable (e : Order) (M : Meta) (a : SaveArgs n) (mine : Fin n → List Nat) (piece : Fin n → Nat → Option Piece)

/-- `offset` after header (dccrg.hpp:1211-1249). -/
def afterHeader : Nat := a.offset + a.header.size * a.header.count

/-- `offset` after information of the grid and number of cells (dccrg.hpp:1251-1361). -/
def afterInfo : Nat :=
  if a.info then
    afterHeader a + 8 + M.mapping.dataSize + 4 + topologySize + M.geom.dataSize + 8
  else afterHeader a

/-- `cells_to_write_` (dccrg.hpp:1363-1367), `mine` is the result of `get_cells()`. -/
def cellsOf (i : Fin n) : List Nat := if a.toWrite i = [] then mine i else a.toWrite i

/-- What the loop in dccrg.hpp:1390-1408 gets from cells; cells without data throw. -/
def piecesOf (i : Fin n) : List Piece := (cellsOf a mine i).filterMap (piece i)

/-- `total_number_of_cells` (dccrg.hpp:1335-1341). -/
def totalCells : Nat := total fun i => (cellsOf a mine i).length

/-- Information written by process 0 (dccrg.hpp:1251-1361). -/
def infoWrites : List Write :=
  let o := afterHeader a
  let o1 := o + 8
  let o2 := o1 + M.mapping.dataSize
  let o3 := o2 + 4
  let o4 := o3 + topologySize
  let o5 := o4 + M.geom.dataSize
  [(o, enc e 8 endiannessCheck)] ++ M.mapping.writes e o1 ++ [(o2, enc e 4 M.hood)] ++
    topologyWrites M.per o3 ++ M.geom.writes e o4 ++ [(o5, enc e 8 (totalCells a mine))]

/-- `cell_data_start` (dccrg.hpp:1534-1547). -/
def dataStart (i : Fin n) : Nat :=
  let s := afterInfo M a + 2 * totalCells a mine * 8
  let s := if a.ids then s else s - totalCells a mine * 8
  let s := if a.offsets then s else s - totalCells a mine * 8
  s + before i fun j => displEnd (piecesOf a mine piece j)

/-- `file_displacements` (dccrg.hpp:1489-1513, 1549-1552). -/
def positions (i : Fin n) : List Nat :=
  (displ (piecesOf a mine piece i) 0).map (· + dataStart M a mine piece i)

/-- `cell_list_start` (dccrg.hpp:1581-1589). -/
def listStart (i : Fin n) : Nat :=
  afterInfo M a + before i fun j =>
    if a.ids && a.offsets then (cellsOf a mine j).length * 2 * 8
    else if a.ids || a.offsets then (cellsOf a mine j).length * 8 else 0

/-- `cells_and_data_displacements` (dccrg.hpp:1591-1613), the part that is written. -/
def listOf (i : Fin n) : List Nat :=
  if a.ids && a.offsets then
    (List.zip (cellsOf a mine i) (positions M a mine piece i)).flatMap fun x => [x.1, x.2]
  else if a.ids then cellsOf a mine i
  else if a.offsets then positions M a mine piece i
  else []

/-- Data of cells (dccrg.hpp:1640-1710). -/
def dataWrites (i : Fin n) : List Write :=
  List.zipWith (fun d p => (d, p.bytes)) (positions M a mine piece i) (piecesOf a mine piece i)

/-- Header and information, written by process 0. -/
def headWrites (i : Fin n) : List Write :=
  if i.1 = 0 then
    (a.offset, a.header.bytes) :: (if a.info then infoWrites e M a mine else [])
  else []

/-- `save_grid_data` (dccrg.hpp:1117-1787): what each process writes. `cell_data.at` throws for cells that are not local;
sizes given to MPI that do not fit into `int` are undefined behavior. -/
def save : Out (Fin n → List Write) :=
  if ∃ i, ∃ c ∈ cellsOf a mine i, (piece i c).isNone then .throws
  else if a.header.size * a.header.count > intMax then .undef
  else if ∃ i, (listOf M a mine piece i).length > intMax then .undef
  else .ok fun i =>
    headWrites e M a mine i ++ [(listStart M a mine i, enc64 e (listOf M a mine piece i))] ++
      dataWrites M a mine piece i

end

/-! ## Sums over processes -/

theorem before_succ {f : Fin n → Nat} {i : Nat} (h : i < n) (h' : i + 1 < n) :
    before ⟨i + 1, h'⟩ f = before ⟨i, h⟩ f + f ⟨i, h⟩ := by
  unfold before
  simp only [List.take_add_one, List.getElem?_eq_getElem (show i < (List.finRange n).length by rw [List.length_finRange]; omega)]
  simp

/-- Parts of all processes follow each other. -/
theorem chain_ranks {base : Nat} {f : Fin n → List Write} {size : Fin n → Nat}
    (h : ∀ i, Chain (base + before i size) (f i) (base + before i size + size i)) :
    Chain base ((List.finRange n).flatMap f) (base + total size) := by
  have key : ∀ m, m ≤ n → Chain base (((List.finRange n).take m).flatMap f)
      (base + (((List.finRange n).take m).map size).sum) := by
    intro m
    induction m with
    | zero => intro _; rfl
    | succ m ih =>
      intro hm
      have e : (List.finRange n).take (m + 1) = (List.finRange n).take m ++ [⟨m, by omega⟩] := by
        rw [List.take_add_one, List.getElem?_eq_getElem (by rw [List.length_finRange]; omega)]
        simp
      rw [e, List.flatMap_append, List.flatMap_singleton, List.map_append, List.sum_append, chain_append]
      refine ⟨_, ih (by omega), ?_⟩
      have := h ⟨m, by omega⟩
      simpa [before, Nat.add_assoc] using this
  have := key n (Nat.le_refl n)
  rwa [List.take_of_length_le (by rw [List.length_finRange]; exact Nat.le_refl n)] at this

theorem displEnd_cons (p : Piece) (l : List Piece) : displEnd (p :: l) = p.advance + displEnd l := by
  have key : ∀ (l : List Piece) (o : Nat), l.foldl (fun o p => o + p.advance) o = o + displEnd l := by
    intro l
    induction l with
    | nil => intro o; rfl
    | cons p l ih =>
      intro o
      rw [List.foldl_cons, ih]
      show _ = o + (p :: l).foldl (fun o p => o + p.advance) 0
      rw [List.foldl_cons, ih]
      omega
  unfold displEnd
  rw [List.foldl_cons, key, Nat.zero_add]
  rfl

theorem displ_length (l : List Piece) (o : Nat) : (displ l o).length = l.length := by
  induction l generalizing o with
  | nil => rfl
  | cons p l ih => rw [displ, List.length_cons, ih, List.length_cons]

/-- Data of one process. -/
theorem chain_displ {l : List Piece} (h : ∀ p ∈ l, p.Ok ∧ (p.named = true ∨ p.count = 1)) (o s : Nat) :
    Chain (o + s) (List.zipWith (fun d p => (d, Piece.bytes p)) ((displ l o).map (· + s)) l) (o + s + displEnd l) := by
  induction l generalizing o with
  | nil => rfl
  | cons p l ih =>
    rw [displ, List.map_cons, List.zipWith_cons_cons, displEnd_cons]
    have hp := h p (List.mem_cons_self ..)
    have hl : p.bytes.length = p.advance := by
      rw [hp.1]
      unfold Piece.advance
      rcases hp.2 with e | e
      · rw [if_pos e]
      · split
        · rfl
        · rw [e, Nat.one_mul]
    refine ⟨rfl, ?_⟩
    have := ih (fun q hq => h q (List.mem_cons_of_mem _ hq)) (o + p.advance)
    rw [show o + s + p.bytes.length = o + p.advance + s by omega]
    rw [show o + s + (p.advance + displEnd l) = o + p.advance + s + displEnd l by omega]
    exact this

end Dccrg
