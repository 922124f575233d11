import Verif.SchedSpec
import Verif.LoadGrid
/-!
# Programs of processes that save and load a grid

What one process does in `save_grid_data` (dccrg.hpp:1117-1787) and `load_grid_data` (dccrg.hpp:1817-2481), as programs of
Sched. A program uses only what its own process stores, what its user gave to it, what it gets from communication and, when
loading, what is in the file. Functions of MPI for files that must be called by all processes do not give values to other
processes, so they are not assumed to make processes wait for each other, but they may.
-/
namespace Dccrg
open Cfg
variable {n : Nat} {D W α : Type} {g : Cfg}

/-- Call of a function that all processes must call and which doesn't give values to others. -/
def syncP (kind : Nat) (k : Prog n (Msg D) α) : Prog n (Msg D) α :=
  .coll kind (fun _ => some (.num 0)) (.num 0) fun _ => k

/-- `MPI_File_open` (dccrg.hpp:1160-1166, 1892-1898). -/
def openKind : Nat := 4
/-- `MPI_File_set_view` (dccrg.hpp:1665-1672, 2325-2332). -/
def viewKind : Nat := 5
/-- `MPI_File_write_at_all` (dccrg.hpp:1620-1627, 1684-1702). -/
def writeKind : Nat := 6
/-- `MPI_File_read_at_all` (dccrg.hpp:1919-1926, 1961-1968, 2015-2022, 2074-2081, 2090-2097, 2388-2395,
dccrg_mapping.hpp:523-530, 546-553, dccrg_topology.hpp:111-118). -/
def readKind : Nat := 7
/-- `MPI_File_close` (dccrg.hpp:1776, 2467). -/
def closeKind : Nat := 8
/-- `MPI_Bcast` (dccrg.hpp:1218, 1241). -/
def bcastKind : Nat := 9
/-- `MPI_Allgather` (dccrg.hpp:1515-1523, 1560-1568). -/
def gatherKind : Nat := 10
/-- `MPI_Comm_dup` (dccrg.hpp:7801, 7871). -/
def dupKind : Nat := 11
/-- `MPI_Allreduce` with `MPI_MAX` (dccrg.hpp:3747-3754). -/
def maxKind : Nat := 12

/-- `MPI_Bcast` of a number from process 0 (dccrg.hpp:1218, 1241): others than process 0 wait only for it, and process 0
doesn't wait. -/
def bcastP (v : Nat) : Prog n (Msg D) Nat :=
  .coll bcastKind (fun q => if q.1 = 0 then none else some (.num 0)) (.num v) fun x =>
    .done (((List.finRange n).head?.map fun q => (x q).toNum).getD 0)

/-- `MPI_Allgather` of a number (dccrg.hpp:1515-1523, 1560-1568). -/
def numbersP (v : Nat) : Prog n (Msg D) (Fin n → Nat) :=
  .coll gatherKind (fun _ => none) (.num v) fun x => .done fun q => (x q).toNum

/-- `MPI_Allreduce` with `MPI_MAX` (dccrg.hpp:3746-3754). -/
def maxP (v : Nat) : Prog n (Msg D) Nat :=
  .coll maxKind (fun _ => none) (.num v) fun x => .done (maxOver fun q => (x q).toNum)

/-! ## Saving -/

/-- Header and information (dccrg.hpp:1176-1361) written by process 0; `off` is `offset` after header. -/
def headP (e : Order) (M : Meta) (i : Fin n) (offset off total : Nat) (header : Piece) (info : Bool) : List Write :=
  if i.1 = 0 then
    (offset, header.bytes) :: (if info then
      [(off, enc e 8 endiannessCheck)] ++ M.mapping.writes e (off + 8) ++
        [(off + 8 + M.mapping.dataSize, enc e 4 M.hood)] ++ topologyWrites M.per (off + 8 + M.mapping.dataSize + 4) ++
        M.geom.writes e (off + 8 + M.mapping.dataSize + 4 + topologySize) ++
        [(off + 8 + M.mapping.dataSize + 4 + topologySize + M.geom.dataSize, enc e 8 total)] else [])
  else []

/-- `save_grid_data` (dccrg.hpp:1117-1787) of process `i`: what it writes. `header` is used only by process 0. Sizes that do
not fit into `int` are undefined behavior (`.fail`). -/
def saveP (e : Order) (M : Meta) (i : Fin n) (offset : Nat) (header : Piece) (toWrite mine : List Nat)
    (piece : Nat → Option Piece) (info ids offsets : Bool) : Prog n (Msg D) (List Write) :=
  syncP openKind <|
  if i.1 = 0 ∧ header.size * header.count > intMax then .fail
  else (bcastP (header.size * header.count)).bind fun headerSize =>
    let cells := if toWrite = [] then mine else toWrite
    (sumP cells.length).bind fun total =>
    if ∃ c ∈ cells, (piece c).isNone then .fail
    else
      let off := offset + headerSize
      let start := if info then off + 8 + M.mapping.dataSize + 4 + topologySize + M.geom.dataSize + 8 else off
      let pieces := cells.filterMap piece
      (numbersP (displEnd pieces)).bind fun bytes =>
      let s := start + 2 * total * 8
      let s := if ids then s else s - total * 8
      let s := if offsets then s else s - total * 8
      let positions := (displ pieces 0).map (· + (s + before i bytes))
      (numbersP cells.length).bind fun numbers =>
      let listStart := start + before i fun j =>
        if ids && offsets then numbers j * 2 * 8 else if ids || offsets then numbers j * 8 else 0
      let list := if ids && offsets then (List.zip cells positions).flatMap fun x => [x.1, x.2]
        else if ids then cells else if offsets then positions else []
      if list.length > intMax then .fail
      else syncP writeKind <| syncP viewKind <| syncP writeKind <| syncP closeKind <|
        .done (headP e M i offset off total header info ++ [(listStart, enc64 e list)] ++
          List.zipWith (fun d p => (d, Piece.bytes p)) positions pieces)

/-! ## Loading -/

/-- Calls of `refine_completely` (dccrg.hpp:3787-3789). -/
def refinesP (g : Cfg) : List Nat → Proc n D W → Out (Proc n D W)
  | [], p => .ok p
  | c :: l, p =>
    (refineCompletely g (exist p.owner) (fun c => (p.data c).isSome) p.req c).bind fun x =>
      refinesP g l { p with req := x.2 }

/-- Last loop of `load_cells` (dccrg.hpp:3782-3792): given number of iterations from level `l`, `par l` are cells in
`cells_and_parents[l]` in the order of the set. -/
def levelsP (g : Cfg) (dflt : D) (maxTag : Nat) (single : Bool) (i : Fin n) (par : Nat → List Nat) :
    Nat → Nat → Proc n D W → Prog n (Msg D) (Proc n D W)
  | 0, _, p => .done p
  | k + 1, l, p =>
    (Prog.ofOut (refinesP g (par l) p)).bind fun p =>
    (stopRefiningP g dflt maxTag single false i p).bind fun x =>
    levelsP g dflt maxTag single i par k (l + 1) (Dccrg.clearRefined x.1)

/-- `load_cells` (dccrg.hpp:3724-3793) of process `i`. -/
def loadCellsP (g : Cfg) (dflt : D) (maxTag : Nat) (single : Bool) (i : Fin n) (ord : List Nat → List Nat)
    (given : List Nat) (p : Proc n D W) : Prog n (Msg D) (Proc n D W) :=
  let overlapping := overlappingLocal g i p.owner given
  (maxP (maxLvlOf g overlapping)).bind fun m =>
  levelsP g dflt maxTag single i (fun l => ord (cellsAndParents g overlapping l)) m 0 p

/-- Reading of the byte order and of members of the grid (dccrg.hpp:1946-2052): each read is a function that all processes
must call, except that geometries are read without it. -/
def readMetaP (e : Order) (f : File) (off : Nat) (M0 : Meta) : Prog n (Msg D) (Option (Meta × Nat)) :=
  syncP readKind <|
  if dec e (f.get off 8) ≠ endiannessCheck then .done none
  else syncP dupKind <| syncP readKind <|
    if (M0.mapping.setLength (triple (dec64 e 3 (f.get (off + 8) 24)))).1 = false then .done none
    else syncP readKind <|
      let r := M0.mapping.read e f (off + 8)
      if r.1 = false then .done none
      else syncP readKind <| syncP readKind <|
        let o1 := off + 8 + r.2.dataSize
        let o3 := o1 + 4 + topologySize
        let q := GeomPar.read e f o3 r.2 M0.geom
        if q.1 = false then .done none
        else .done (some
          ({ mapping := r.2, hood := dec e (f.get o1 4), per := topologyRead f (o1 + 4), geom := q.2 }, o3 + q.2.dataSize))

/-- `continue_loading_grid_data` (dccrg.hpp:2188-2437), given number of calls. -/
def continueP (K : CellClass D) (f : File) : Nat → Proc n D W → List (Nat × Nat) → Prog n (Msg D) (Proc n D W)
  | 0, p, _ => .done p
  | k + 1, p, l =>
    (Prog.ofOut (continueLoading K f p l)).bind fun r =>
    syncP viewKind <| syncP readKind <| continueP K f k r.1 r.2

/-- Loading of a grid (dccrg.hpp:1870-2481) by process `i`: header, members of the grid and the process, `none` if false is
returned. With one call of `continue_loading_grid_data` this is `load_grid_data` (dccrg.hpp:1817-1848). -/
def loadP (e : Order) (f : File) (off : Nat) (header : Piece) (M0 : Meta) (dflt : D) (maxTag : Nat) (single : Bool)
    (i : Fin n) (ord : List Nat → List Nat) (K : CellClass D) (calls : Nat) :
    Prog n (Msg D) (Option (List Nat × Meta × Proc n D W)) :=
  syncP dupKind <| syncP openKind <|
  if header.size * header.count > intMax then .fail
  else syncP readKind <|
    (readMetaP e f (off + header.size * header.count) M0).bind fun r =>
    match r with
    | none => .done none
    | some (M, o) =>
      (Prog.ofOut (rebuild M.grid dflt maxTag i (freshProc M.grid dflt i))).bind fun p =>
      syncP readKind <|
      let total := dec e (f.get o 8)
      if 2 * total > intMax then .fail
      else syncP readKind <|
        let all := pairsOf (dec64 e (2 * total) (f.get (o + 8) (2 * total * 8)))
        if all.any (fun x => x.1 == 0) then .fail
        else
          let mine := all.filter fun x => overlapsLocal M.grid i p.owner x.1
          (loadCellsP M.grid dflt maxTag single i ord (mine.map Prod.fst) { p with remote := fun _ => none }).bind fun p =>
          if localCount M.grid p ≠ mine.length then .fail
          else (continueP K f calls p mine).bind fun p =>
            syncP closeKind <| .done (some (f.read off header.bytes, M, p))

/-! ## Processes that communicate at the same time -/

theorem lock_sync (kind : Nat) {P : Fin n → Prog n (Msg D) α} {r : Fin n → α} (h : Lock P r) :
    Lock (fun i => syncP kind (P i)) r :=
  .step (.coll kind (fun _ => some (Msg.num 0)) (fun _ => Msg.num 0) fun i _ => P i) h

theorem lock_numbers (v : Fin n → Nat) : Lock (fun i => numbersP (D := D) (v i)) (fun _ => v) :=
  .step (.coll gatherKind (fun _ => none) (fun i => Msg.num (v i)) _) (.done _)

theorem lock_max (v : Fin n → Nat) : Lock (fun i => maxP (D := D) (v i)) (fun _ => maxOver v) :=
  .step (.coll maxKind (fun _ => none) (fun i => Msg.num (v i)) _) (.done _)

theorem lock_bcast (v : Fin n → Nat) {x : Nat} (h : ∀ i, i.1 = 0 → v i = x) :
    Lock (fun i => bcastP (D := D) (v i)) (fun _ => x) := by
  refine .step (.coll bcastKind _ (fun i => Msg.num (v i)) _) ?_
  refine Lock.congr ?_ (.done _)
  intro i
  dsimp only
  congr 1
  cases n with
  | zero => exact i.elim0
  | succ m =>
    rw [List.finRange_succ]
    exact h 0 rfl

theorem lock_save {e : Order} {M : Meta} {a : SaveArgs n} {mine : Fin n → List Nat} {piece : Fin n → Nat → Option Piece}
    {ws : Fin n → List Write} (h : save e M a mine piece = .ok ws) {header : Fin n → Piece}
    (hh : ∀ i, i.1 = 0 → header i = a.header) :
    Lock (fun i => saveP (D := D) e M i a.offset (header i) (a.toWrite i) (mine i) (piece i) a.info a.ids a.offsets) ws := by
  unfold save at h
  split at h
  · cases h
  rename_i h1
  split at h
  · cases h
  rename_i h2
  split at h
  · cases h
  rename_i h3
  injection h with h
  subst h
  refine lock_sync _ ?_
  refine Lock.congr (fun i => if_neg fun hc => h2 (by rw [← hh i hc.1]; exact hc.2)) ?_
  refine Lock.bind (lock_bcast _ (x := a.header.size * a.header.count) fun i hi => by rw [hh i hi]) ?_
  refine Lock.bind (lock_sum _) ?_
  refine Lock.congr (fun i => if_neg fun hc => h1 ⟨i, hc⟩) ?_
  refine Lock.bind (lock_numbers _) ?_
  refine Lock.bind (lock_numbers _) ?_
  refine Lock.congr (fun i => if_neg fun hc => h3 ⟨i, hc⟩) ?_
  refine lock_sync _ (lock_sync _ (lock_sync _ (lock_sync _ ?_)))
  refine Lock.congr ?_ (.done _)
  intro i
  congr 3
  unfold headP headWrites
  by_cases hi : i.1 = 0
  · rw [if_pos hi, if_pos hi, hh i hi]; rfl
  · rw [if_neg hi, if_neg hi]

/-! ### Loading -/

theorem run_refines {dflt : D} {maxTag : Nat} {s s' : Sys n D W} {j : Fin n} {l : List Nat}
    (h : run g dflt maxTag s (l.map (Op.refine j)) = .ok s') :
    refinesP g l (s j) = .ok (s' j) ∧ ∀ i, i ≠ j → s' i = s i := by
  induction l generalizing s with
  | nil =>
    injection h with h
    subst h
    exact ⟨rfl, fun _ _ => rfl⟩
  | cons c l ih =>
    rw [List.map_cons, run] at h
    obtain ⟨s1, h1, h⟩ := Out.bind_inv h
    obtain ⟨x, hx, h1⟩ := Out.bind_inv h1
    injection h1 with h1
    subst h1
    obtain ⟨e1, e2⟩ := ih h
    rw [Sys.set_same] at e1
    refine ⟨?_, fun i hi => by rw [e2 i hi, Sys.set_other _ hi]⟩
    rw [refinesP, hx]
    exact e1

theorem run_allRefines {dflt : D} {maxTag : Nat} {s s' : Sys n D W} {par : Fin n → List Nat} {L : List (Fin n)}
    (hL : L.Nodup) (h : run g dflt maxTag s (L.flatMap fun i => (par i).map (Op.refine i)) = .ok s') (i : Fin n) :
    (i ∈ L → refinesP g (par i) (s i) = .ok (s' i)) ∧ (i ∉ L → s' i = s i) := by
  induction L generalizing s with
  | nil =>
    injection h with h
    subst h
    exact ⟨nofun, fun _ => rfl⟩
  | cons j L ih =>
    rw [List.nodup_cons] at hL
    rw [List.flatMap_cons, run_append] at h
    obtain ⟨s1, h1, h⟩ := Out.bind_inv h
    obtain ⟨e1, e2⟩ := run_refines h1
    obtain ⟨e3, e4⟩ := ih hL.2 h
    by_cases hi : i = j
    · subst hi
      refine ⟨fun _ => ?_, fun h => absurd List.mem_cons_self h⟩
      rw [e4 hL.1]; exact e1
    · rw [e2 i hi] at e3 e4
      refine ⟨fun hm => e3 ?_, fun hm => e4 fun h => hm (List.mem_cons_of_mem _ h)⟩
      rcases List.mem_cons.1 hm with h | h
      · exact absurd h hi
      · exact h

theorem run_allClear {dflt : D} {maxTag : Nat} {s s' : Sys n D W} {L : List (Fin n)}
    (hL : L.Nodup) (h : run g dflt maxTag s (L.map Op.clearRefined) = .ok s') (i : Fin n) :
    s' i = if i ∈ L then Dccrg.clearRefined (s i) else s i := by
  induction L generalizing s with
  | nil =>
    injection h with h
    subst h
    rfl
  | cons j L ih =>
    rw [List.nodup_cons] at hL
    rw [List.map_cons, run] at h
    obtain ⟨s1, h1, h⟩ := Out.bind_inv h
    injection h1 with h1
    subst h1
    rw [ih hL.2 h]
    by_cases hi : i = j
    · subst hi
      rw [if_neg hL.1, if_pos List.mem_cons_self, Sys.set_same]
    · rw [Sys.set_other _ hi]
      by_cases hm : i ∈ L
      · rw [if_pos hm, if_pos (List.mem_cons_of_mem _ hm)]
      · rw [if_neg hm, if_neg (by simp only [List.mem_cons, not_or]; exact ⟨hi, hm⟩)]

theorem lock_levels {dflt : D} {maxTag : Nat} (single : Bool) (par : Fin n → Nat → List Nat) (k l : Nat)
    {s s' : Sys n D W}
    (h : run g dflt maxTag s ((List.range' l k).flatMap fun l => loadLevel fun i => par i l) = .ok s') :
    Lock (fun i => levelsP g dflt maxTag single i (par i) k l (s i)) s' := by
  induction k generalizing l s with
  | zero =>
    injection h with h
    subst h
    exact .done _
  | succ k ih =>
    rw [List.range'_succ, List.flatMap_cons, run_append] at h
    obtain ⟨s4, h1, h⟩ := Out.bind_inv h
    unfold loadLevel at h1
    rw [run_append] at h1
    obtain ⟨s1, h2, h1⟩ := Out.bind_inv h1
    rw [run] at h1
    obtain ⟨s2, h3, h1⟩ := Out.bind_inv h1
    obtain ⟨r, hr, h3⟩ := Out.bind_inv h3
    injection h3 with h3
    subst h3
    have e1 := fun i => (run_allRefines (List.nodup_finRange n) h2 i).1 (List.mem_finRange i)
    have e2 := fun i => run_allClear (List.nodup_finRange n) h1 i
    refine Lock.bind (lock_ofOut e1) ?_
    refine Lock.bind (lock_stop single hr) ?_
    refine Lock.congr ?_ (ih (l + 1) h)
    intro i
    rw [e2 i, if_pos (List.mem_finRange i)]

theorem lock_loadCells {dflt : D} {maxTag : Nat} (single : Bool) {ord : Fin n → List Nat → List Nat} {s s' : Sys n D W}
    {given : Fin n → List Nat} (h : loadCells g dflt maxTag ord s given = .ok s') :
    Lock (fun i => loadCellsP g dflt maxTag single i (ord i) (given i) (s i)) s' := by
  refine Lock.bind (lock_max _) ?_
  refine lock_levels single (fun i l => ord i (cellsAndParents g (overlappingLocal g i (s i).owner (given i)) l)) _ 0 ?_
  rw [← List.range_eq_range']
  exact h

theorem lock_meta (e : Order) (f : File) (off : Nat) (M0 : Meta) :
    Lock (fun _ : Fin n => readMetaP (D := D) e f off M0) (fun _ => readMeta e f off M0) := by
  unfold readMetaP readMeta
  refine lock_sync _ ?_
  by_cases h1 : dec e (f.get off 8) ≠ endiannessCheck
  · rw [if_pos h1, if_pos h1]; exact .done _
  rw [if_neg h1, if_neg h1]
  refine lock_sync _ (lock_sync _ ?_)
  by_cases h2 : (M0.mapping.setLength (triple (dec64 e 3 (f.get (off + 8) 24)))).1 = false
  · have h3 : (M0.mapping.read e f (off + 8)).1 = false := by
      unfold Mapping.read
      simp only [if_pos h2]
    rw [if_pos h2]
    simp only [if_pos h3]
    exact .done _
  rw [if_neg h2]
  refine lock_sync _ ?_
  by_cases h3 : (M0.mapping.read e f (off + 8)).1 = false
  · simp only [if_pos h3]; exact .done _
  simp only [if_neg h3]
  refine lock_sync _ (lock_sync _ ?_)
  split
  · exact .done _
  · exact .done _

theorem lock_continue (K : CellClass D) (f : File) (k : Nat) {s s' : Sys n D W} {l : Fin n → List (Nat × Nat)}
    (h : continueAll K f k s l = .ok s') : Lock (fun i => continueP K f k (s i) (l i)) s' := by
  induction k generalizing s l with
  | zero =>
    injection h with h
    subst h
    exact .done _
  | succ k ih =>
    rw [continueAll] at h
    obtain ⟨r, hr, h⟩ := Out.bind_inv h
    refine Lock.bind (lock_ofOut (Out.collect_inv hr)) ?_
    exact lock_sync _ (lock_sync _ (ih h))

theorem lock_load {e : Order} {f : File} {off : Nat} {header : Piece} {M0 : Meta} {dflt : D} {maxTag : Nat} (single : Bool)
    {ord : Fin n → List Nat → List Nat} {K : CellClass D} {calls : Nat} {r : Option (List Nat × Meta × Sys n D W)}
    (h : load e f off header M0 dflt maxTag ord K calls = .ok r) :
    Lock (fun i => loadP e f off header M0 dflt maxTag single i (ord i) K calls)
      (fun i => r.map fun x => (x.1, x.2.1, x.2.2 i)) := by
  unfold load at h
  split at h
  · cases h
  rename_i h1
  obtain ⟨x, hx, h⟩ := Out.bind_inv h
  refine lock_sync _ (lock_sync _ ?_)
  refine Lock.congr (fun i => if_neg h1) ?_
  refine lock_sync _ ?_
  refine Lock.bind (lock_meta _ _ _ _) ?_
  unfold startLoading at hx
  cases hm : readMeta e f (off + header.size * header.count) M0 with
  | none =>
    rw [hm] at hx
    injection hx with hx
    subst hx
    injection h with h
    subst h
    exact .done _
  | some y =>
    obtain ⟨M, o⟩ := y
    rw [hm] at hx
    obtain ⟨s, hs, hx⟩ := Out.bind_inv hx
    dsimp only at hx
    split at hx
    · cases hx
    rename_i h2
    split at hx
    · cases hx
    rename_i h3
    obtain ⟨s1, hs1, hx⟩ := Out.bind_inv hx
    split at hx
    · cases hx
    rename_i h4
    injection hx with hx
    subst hx
    obtain ⟨s2, hs2, h⟩ := Out.bind_inv h
    injection h with h
    subst h
    refine Lock.bind (lock_ofOut (Out.collect_inv hs)) ?_
    refine lock_sync _ ?_
    refine Lock.congr (fun i => if_neg h2) ?_
    refine lock_sync _ ?_
    refine Lock.congr (fun i => if_neg h3) ?_
    refine Lock.bind (lock_loadCells single hs1) ?_
    refine Lock.congr (fun i => if_neg fun hc => h4 ⟨i, hc⟩) ?_
    refine Lock.bind (lock_continue K f calls hs2) ?_
    exact lock_sync _ (.done _)

end Dccrg
