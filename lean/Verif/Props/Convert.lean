import Verif.Convert
import Verif.FileSpec
import Verif.Props.Vtk
import Verif.Props.LoadGrid
/-!
# C118: programs that know the format of saved files can read them
-/
namespace Dccrg
open Cfg
variable {n : Nat} {D W T : Type} {dflt : D} {maxTag : Nat}

/-! ## Specification -/

/-- What the example program saves: a 64-bit number before the grid. -/
def timeHeader (e : Order) (t : Nat) : Piece := { named := true, count := 1, size := 8, bytes := enc e 8 t }

/-- What the example program saves of a cell: one `unsigned int`. -/
def alivePiece (e : Order) (v : Nat) : Piece := { named := true, count := 1, size := 4, bytes := enc e 4 v }

/-- Specification: the file is an unstructured grid in legacy VTK format with `points` and `conn` (numbers of points of every
cell), all cells being voxels (type 11), and one integer for every cell. -/
def IsLifeFile (file : List (List (VtkWord T))) (points : List (V3 T)) (conn : List (List Nat)) (values : List Nat) : Prop :=
  file =
    [[.text "#", .text "vtk", .text "DataFile", .text "Version", .text "2.0"],
      [.text "Game", .text "of", .text "Life", .text "data"], [.text "ASCII"], [.text "DATASET", .text "UNSTRUCTURED_GRID"]] ++
    [[.text "POINTS", .int points.length, .text "float"]] ++
    points.map (fun x => [.real (x 0), .real (x 1), .real (x 2)]) ++
    [[.text "CELLS", .int conn.length, .int (conn.map fun r => r.length + 1).sum]] ++
    conn.map (fun r => .int r.length :: r.map .int) ++
    [[.text "CELL_TYPES", .int conn.length]] ++ List.replicate conn.length [.int 11] ++
    [[.text "CELL_DATA", .int values.length], [.text "SCALARS", .text "is_alive", .text "int", .int 1],
      [.text "LOOKUP_TABLE", .text "default"]] ++ values.map (fun v => [.int v])

/-! ## Parts of files -/

/-- Items of equal size. -/
theorem holds_items {α : Type} {f : File} {k : Nat} {g : α → List Nat} :
    ∀ {l : List α} {o : Nat}, f.Holds o (l.flatMap g) → (∀ x ∈ l, (g x).length = k) →
      ∀ (i : Nat) (hi : i < l.length), f.Holds (o + k * i) (g l[i]) := by
  intro l
  induction l with
  | nil => intro o _ _ i hi; cases hi
  | cons x l ih =>
    intro o h hk i hi
    rw [List.flatMap_cons, holds_append, hk x (List.mem_cons_self ..)] at h
    cases i with
    | zero => exact h.1
    | succ i =>
      have := ih h.2 (fun y hy => hk y (List.mem_cons_of_mem _ hy)) i (by simpa using hi)
      rwa [show o + k + k * i = o + k * (i + 1) by rw [Nat.mul_succ]; omega] at this

theorem contents_list {e : Order} {M : Meta} {a : SaveArgs n} {mine : Fin n → List Nat} {piece : Fin n → Nat → Option Piece}
    (h2 : a.ids = true) (h3 : a.offsets = true) : contents (listWrites e M a mine piece) =
      enc64 e ((table M a mine piece).flatMap fun x => [x.1, x.2]) := by
  have : contents (listWrites e M a mine piece) = (List.finRange n).flatMap fun i => enc64 e (listOf M a mine piece i) := by
    unfold contents listWrites
    rw [List.flatMap_assoc]
    congr 1
    funext i
    simp
  rw [this, enc64_flatMap]
  congr 1
  unfold table
  rw [List.flatMap_assoc]
  congr 1
  funext i
  unfold listOf
  rw [h2, h3]
  rfl

/-- Data of all cells follow the list of cells. -/
theorem file_data {e : Order} {M : Meta} {a : SaveArgs n} {mine : Fin n → List Nat} {piece : Fin n → Nat → Option Piece}
    {ws : Fin n → List Write} (hn : 0 < n) (h : save e M a mine piece = .ok ws) (hh : a.header.Ok)
    (h2 : a.ids = true) (h3 : a.offsets = true)
    (hp : ∀ i c p, c ∈ cellsOf a mine i → piece i c = some p → p.Ok ∧ (p.named = true ∨ p.count = 1))
    {l : List Write} (hl : l.Perm ((List.finRange n).flatMap ws)) (f : File) :
    (f.writes l).Holds (afterInfo M a + 16 * totalCells a mine)
      ((List.finRange n).flatMap fun i => (piecesOf a mine piece i).flatMap Piece.bytes) := by
  have hch := save_chain hn h hh hp
  have hall := chain_holds f hch (hl.trans (save_perm hn h))
  obtain ⟨g1, g2, g3, g4⟩ := save_inv h
  rw [chain_append] at hch
  obtain ⟨c1, hch1, hch2⟩ := hch
  obtain ⟨p1, p2⟩ := holds_chain_append hall hch1
  have hc : contents ((List.finRange n).flatMap (dataWrites M a mine piece)) =
      (List.finRange n).flatMap fun i => (piecesOf a mine piece i).flatMap Piece.bytes := by
    unfold contents
    rw [List.flatMap_assoc]
    congr 1
    funext i
    unfold dataWrites
    have hlen : (positions M a mine piece i).length = (piecesOf a mine piece i).length := by
      unfold positions
      rw [List.length_map, displ_length]
    generalize positions M a mine piece i = ps at hlen
    generalize piecesOf a mine piece i = qs at hlen
    induction qs generalizing ps with
    | nil => cases ps <;> rfl
    | cons q qs ih =>
      cases ps with
      | nil => cases hlen
      | cons x ps =>
        rw [List.zipWith_cons_cons, List.flatMap_cons, List.flatMap_cons, ih ps (by simpa using hlen)]
  rw [hc] at p2
  rw [chain_append] at hch1
  obtain ⟨c2, hch3, hch4⟩ := hch1
  have e1 := contents_chain_length hch3
  rw [← contents_chain_length (chain_head (e := e) (M := M) (mine := mine) hn hh)] at e1
  subst e1
  have e2 := contents_chain_length hch4
  have e3 : (contents (listWrites e M a mine piece)).length = 16 * totalCells a mine := by
    rw [contents_list h2 h3, enc64_length, List.length_flatMap]
    show 8 * (List.map (fun _ => 2) _).sum = _
    rw [List.map_const', List.sum_replicate_nat, table_length g1]
    omega
  rw [e3] at e2
  rw [← e2]
  exact p2

/-! ## Theorems -/

/-- C118: from a file that was saved by any number of processes, whose writes were done in any order, a program reads the
time step, members of the grid and every existing cell exactly once with its data. -/
theorem C118_read {e : Order} {M : Meta} {p : CartPar} (hn : 0 < n) (hok : M.mapping.OK) (hM : M.Readable)
    (hk : M.geom.id = 1) {s : Sys n D W} (hs : Reachable M.grid dflt maxTag s) {mine : Fin n → List Nat}
    (hmine : ∀ i, (mine i).Nodup ∧ ∀ c, c ∈ mine i ↔ ((s i).data c).isSome = true) {alive : D → Nat}
    (ha : ∀ i c d, (s i).data c = some d → alive d < 2 ^ 32) {t : Nat} (ht : t < 2 ^ 64) {ws : Fin n → List Write}
    (hsave : save e M { offset := 0, header := timeHeader e t } mine
      (fun i c => ((s i).data c).map fun d => alivePiece e (alive d)) = .ok ws)
    {l : List Write} (hl : l.Perm ((List.finRange n).flatMap ws)) (f : File) :
    ∃ cells, dcRead e (f.writes l) p = some (t, M, cells) ∧ (cells.map Prod.fst).Nodup ∧
      ∀ c v, (c, v) ∈ cells ↔ ∃ i d, (s i).data c = some d ∧ alive d = v := by
  have hw : M.grid.WF := grid_wf hok
  obtain ⟨w, hi⟩ := hs.inv hw hn
  let a : SaveArgs n := { offset := 0, header := timeHeader e t }
  let piece : Fin n → Nat → Option Piece := fun i c => ((s i).data c).map fun d => alivePiece e (alive d)
  have hsave : save e M a mine piece = .ok ws := hsave
  have hcells' : ∀ i, cellsOf a mine i = mine i := fun i => if_pos rfl
  have hh : a.header.Ok := by
    show (enc e 8 t).length = 1 * 8
    rw [enc_length]
  have hp : ∀ i c q, c ∈ cellsOf a mine i → piece i c = some q → q.Ok ∧ (q.named = true ∨ q.count = 1) := by
    intro i c q _ h
    obtain ⟨d, -, rfl⟩ := Option.map_eq_some_iff.1 h
    refine ⟨?_, Or.inl rfl⟩
    show (enc e 4 (alive d)).length = 1 * 4
    rw [enc_length]
  obtain ⟨p1, p2, p3, -, -⟩ := file_parts hn hsave hh rfl rfl rfl hp hl f
  have p4 := file_data hn hsave hh rfl rfl hp hl f
  have hsome := (save_inv hsave).1
  obtain ⟨o, q1, q2, q3⟩ := readMeta_holds e hM (M0 := dcStart p) hk.symm (a := a) rfl p2
  have hT1 := table_cells (M := M) hsome
  have hT2 := table_length (M := M) hsome
  generalize hT : table M a mine piece = T at hT1 hT2 p3
  -- the list
  let V : List (Nat × Nat) := (List.finRange n).flatMap fun i => (mine i).filterMap fun c =>
    ((s i).data c).map fun d => (c, alive d)
  have hmem : ∀ c v, (c, v) ∈ V ↔ ∃ i d, (s i).data c = some d ∧ alive d = v := by
    intro c v
    rw [List.mem_flatMap]
    constructor
    · rintro ⟨i, -, h⟩
      obtain ⟨b, -, h⟩ := List.mem_filterMap.1 h
      obtain ⟨d, hd, h⟩ := Option.map_eq_some_iff.1 h
      injection h with h1 h2
      subst h1
      exact ⟨i, d, hd, h2⟩
    · rintro ⟨i, d, hd, rfl⟩
      exact ⟨i, List.mem_finRange i, List.mem_filterMap.2 ⟨c, ((hmine i).2 c).2 (by rw [hd]; rfl), by rw [hd]; rfl⟩⟩
  have key : ∀ (i : Fin n) (L : List Nat), (∀ c ∈ L, ((s i).data c).isSome = true) →
      (L.filterMap fun c => ((s i).data c).map fun d => (c, alive d)).map Prod.fst = L ∧
      (L.filterMap (piece i)).flatMap Piece.bytes =
        (L.filterMap fun c => ((s i).data c).map fun d => (c, alive d)).flatMap fun x => enc e 4 x.2 := by
    intro i L
    induction L with
    | nil => intro _; exact ⟨rfl, rfl⟩
    | cons c L ih =>
      intro h
      obtain ⟨d, hd⟩ := Option.isSome_iff_exists.1 (h c (List.mem_cons_self ..))
      obtain ⟨i1, i2⟩ := ih fun x hx => h x (List.mem_cons_of_mem _ hx)
      have e1 : piece i c = some (alivePiece e (alive d)) := by show Option.map _ _ = _; rw [hd]; rfl
      rw [List.filterMap_cons, List.filterMap_cons, e1, hd]
      simp only [Option.map_some, List.map_cons, List.flatMap_cons, i1, i2]
      exact ⟨trivial, rfl⟩
  have hV1 : V.map Prod.fst = T.map Prod.fst := by
    rw [hT1, List.map_flatMap]
    congr 1
    funext i
    rw [hcells']
    exact (key i (mine i) fun c hc => ((hmine i).2 c).1 hc).1
  have hV2 : ((List.finRange n).flatMap fun i => (piecesOf a mine piece i).flatMap Piece.bytes) =
      V.flatMap fun x => enc e 4 x.2 := by
    rw [List.flatMap_assoc]
    congr 1
    funext i
    unfold piecesOf
    rw [hcells']
    exact (key i (mine i) fun c hc => ((hmine i).2 c).1 hc).2
  have hnd : (V.map Prod.fst).Nodup := by
    rw [hV1, hT1]
    apply flatMap_nodup
    · exact List.nodup_finRange n
    · intro i _
      rw [hcells']; exact (hmine i).1
    · intro i _ j _ x h1 h2
      rw [hcells', (hmine _).2, hi.sys.placed] at h1 h2
      rw [h1] at h2
      injection h2
  have hlast : ∀ x ∈ V, x.1 ≤ M.grid.last := by
    intro x hx
    obtain ⟨i, d, hd, -⟩ := (hmem x.1 x.2).1 hx
    exact (hi.sys.tiled.valid _ (exist_of ((hi.sys.placed i x.1).1 (by rw [hd]; rfl)))).2
  have hfit : M.grid.last < 2 ^ 64 := by
    have h1 : M.grid.last = M.mapping.cfg.last := grid_last
    have h2 : M.mapping.cfg.last < 2 ^ 64 := hok.fits
    omega
  have hpos : ∀ x ∈ V, 1 ≤ x.1 := by
    intro x hx
    obtain ⟨i, d, hd, -⟩ := (hmem x.1 x.2).1 hx
    exact (hi.sys.tiled.valid _ (exist_of ((hi.sys.placed i x.1).1 (by rw [hd]; rfl)))).1
  have hlen : V.length = totalCells a mine := by
    rw [← hT2, ← List.length_map (f := Prod.fst) (as := V), hV1, List.length_map]
  have hcount : totalCells a mine < 2 ^ 64 := by
    have : (V.map Prod.fst).length ≤ (List.range' 1 M.grid.last).length := by
      refine hnd.length_le_of_subset fun x hx => ?_
      obtain ⟨y, hy, rfl⟩ := List.mem_map.1 hx
      have := hlast y hy
      have := hpos y hy
      rw [List.mem_range'_1]
      omega
    rw [List.length_map, List.length_range', hlen] at this
    omega
  have hA : afterHeader a = 8 := rfl
  refine ⟨V, ?_, hnd, hmem⟩
  unfold dcRead
  rw [hA] at q1
  rw [q1]
  simp only []
  rw [Holds.get q3 (enc_length ..).symm, dec_enc e (by omega),
    show (f.writes l).get 0 8 = enc e 8 t from Holds.get p1 (enc_length ..).symm, dec_enc e (by omega)]
  congr 3
  unfold dcCells
  rw [q2]
  have i1 : ∀ (k : Nat) (hk : k < V.length), dec e ((f.writes l).get (afterInfo M a + 16 * k) 8) = (V[k]).1 := by
    intro k hk
    have h64 : enc64 e (T.flatMap fun x => [x.1, x.2]) = T.flatMap fun x => enc64 e [x.1, x.2] := (enc64_flatMap e T _).symm
    rw [h64] at p3
    have hkT : k < T.length := by rw [hT2, ← hlen]; exact hk
    have h1 := holds_items p3 (k := 16) (fun x _ => by rw [enc64_length]; rfl) k hkT
    have h2 : enc64 e [(T[k]).1, (T[k]).2] = enc e 8 (T[k]).1 ++ enc64 e [(T[k]).2] := rfl
    rw [h2, holds_append] at h1
    have h3 : (V[k]).1 = (T[k]).1 := by
      have h4 : (V.map Prod.fst)[k]? = (T.map Prod.fst)[k]? := by rw [hV1]
      rw [List.getElem?_map, List.getElem?_map, List.getElem?_eq_getElem hk, List.getElem?_eq_getElem hkT] at h4
      exact Option.some.inj h4
    rw [Holds.get h1.1 (enc_length ..).symm, dec_enc e, h3]
    rw [← h3]
    have := hlast _ (List.getElem_mem hk)
    omega
  have i2 : ∀ (k : Nat) (hk : k < V.length),
      dec e ((f.writes l).get (afterInfo M a + 16 * totalCells a mine + 4 * k) 4) = (V[k]).2 := by
    intro k hk
    rw [hV2] at p4
    have h1 := holds_items p4 (k := 4) (fun x _ => enc_length ..) k hk
    rw [Holds.get h1 (enc_length ..).symm, dec_enc e]
    obtain ⟨i, d, hd, hv⟩ := (hmem (V[k]).1 (V[k]).2).1 (List.getElem_mem hk)
    have h2 := ha i _ d hd
    rw [hv] at h2
    exact h2
  apply List.ext_getElem
  · rw [List.length_map, List.length_range, hlen]
  · intro k h1 h2
    rw [List.getElem_map, List.getElem_range, i1 k h2, i2 k h2]

/-- C118: what is written for cells that were read: every cell is drawn as the box between its minimum and maximum and has its
data, if there are at most 2^29 cells. -/
theorem C118_lines (fmt : Num → T) (lo hi : Nat → V3 Num) {cells : List (Nat × Nat)} (hl : cells.length ≤ 2 ^ 29) :
    ∃ file points conn, dcLines fmt lo hi cells = .ok file ∧ IsLifeFile file points conn (cells.map Prod.snd) ∧
      Draws fmt lo hi (cells.map Prod.fst) points conn := by
  have hl' : (cells.map Prod.fst).length ≤ 2 ^ 29 := by rw [List.length_map]; exact hl
  obtain ⟨file, points, conn, h1, h2, h3, h4, h5, h6⟩ := vtkLines_spec fmt lo hi (cells.map Prod.fst) (by omega)
  refine ⟨_, points, conn, if_pos (by omega), ?_, h3, h4, fun k hk => ⟨_, h6 k hk, by rw [List.length_map, List.length_range], ?_⟩⟩
  · unfold vtkLines at h1
    rw [if_pos (by omega)] at h1
    injection h1 with h1
    unfold IsVtkFile at h2
    rw [← h1] at h2
    simp only [List.append_assoc, List.length_map, List.map_map] at h2
    have h7 := (List.append_inj h2 rfl).2
    unfold IsLifeFile
    simp only [List.append_assoc, List.length_map, List.map_map]
    congr 1
    have h8 := congrArg (· ++ ([[.text "CELL_DATA", .int cells.length], [.text "SCALARS", .text "is_alive", .text "int", .int 1],
      [.text "LOOKUP_TABLE", .text "default"]] ++ cells.map fun c => [.int c.2])) h7
    simp only [List.append_assoc] at h8
    exact h8
  · intro b hb
    refine ⟨k * 8 + b, ?_, h5 k hk b hb⟩
    rw [List.getElem?_map, List.getElem?_range hb]
    show some ((k * 8 + b) % 2 ^ 32) = _
    rw [Nat.mod_eq_of_lt (by omega)]

/-- C118: files of computers with the other byte order are skipped. -/
theorem C118_other_order {e e' : Order} (he : e' ≠ e) {M : Meta} {p : CartPar} (hn : 0 < n) {mine : Fin n → List Nat}
    {piece : Fin n → Nat → Option Piece} {t : Nat} {ws : Fin n → List Write}
    (hsave : save e M { offset := 0, header := timeHeader e t } mine piece = .ok ws)
    (hp : ∀ i c p, c ∈ mine i → piece i c = some p → p.Ok ∧ (p.named = true ∨ p.count = 1))
    {l : List Write} (hl : l.Perm ((List.finRange n).flatMap ws)) (f : File) : dcRead e' (f.writes l) p = none := by
  have hh : (timeHeader e t).Ok := by
    show (enc e 8 t).length = 1 * 8
    rw [enc_length]
  obtain ⟨p1, p2, -⟩ := file_parts hn hsave hh rfl rfl rfl (by
    intro i c p h
    rw [show cellsOf { offset := 0, header := timeHeader e t : SaveArgs n } mine i = mine i from if_pos rfl] at h
    exact hp i c p h) hl f
  unfold infoWrites at p2
  simp only [List.append_assoc] at p2
  obtain ⟨f1, -⟩ := holds_chain_append p2 (c := afterHeader { offset := 0, header := timeHeader e t : SaveArgs n } + 8)
    ⟨rfl, by rw [enc_length]; rfl⟩
  unfold dcRead readMeta
  simp only []
  have f2 : (f.writes l).Holds 8 (enc e 8 endiannessCheck) := by
    have : (f.writes l).Holds (afterHeader { offset := 0, header := timeHeader e t : SaveArgs n }) (enc e 8 endiannessCheck) := by
      simpa [contents] using f1
    exact this
  rw [Holds.get f2 (enc_length ..).symm, if_pos]
  cases e <;> cases e' <;> first | exact absurd rfl he | decide

/-- C118: of any number of processes exactly one converts each of the given files. -/
theorem C118_once {size arg : Nat} (hs : 0 < size) (ha : 1 ≤ arg) :
    ∃ rank, rank < size ∧ dcConverts size rank arg = true ∧
      ∀ rank', dcConverts size rank' arg = true → rank' = rank := by
  refine ⟨(arg - 1) % size, Nat.mod_lt _ hs, ?_, fun r h => ?_⟩
  · unfold dcConverts; simp [ha]
  · unfold dcConverts at h
    simp only [Bool.and_eq_true, beq_iff_eq] at h
    exact h.2.symm

/-! ## Witnesses -/

/-- Small grid with Cartesian geometry. -/
def lifeMeta : Meta := { tinyMeta with geom := .cartesian { start := fun _ => 0, len := fun _ => oneBits } }

theorem lifeMeta_readable : lifeMeta.Readable where
  mapping := tinyMeta_readable.mapping
  hood := by decide
  small := by
    intro d
    show 0 < 2 ^ 64 ∧ oneBits < 2 ^ 64
    decide
  settable := ⟨.cartesian { start := fun _ => 0, len := fun _ => oneBits }, by decide +kernel⟩

/-- The hypotheses of the theorems are met by the small grid with one refined cell. -/
example : ∃ (s : Sys 2 Nat Nat) (mine : Fin 2 → List Nat) (ws : Fin 2 → List Write), lifeMeta.mapping.OK ∧ lifeMeta.Readable ∧
    lifeMeta.geom.id = 1 ∧ Reachable lifeMeta.grid 0 146 s ∧
    (∀ i, (mine i).Nodup ∧ ∀ c, c ∈ mine i ↔ ((s i).data c).isSome = true) ∧
    (∀ i c d, (s i).data c = some d → d % 2 < 2 ^ 32) ∧ (1 : Nat) < 2 ^ 64 ∧
    save .little lifeMeta { offset := 0, header := timeHeader .little 1 } mine
      (fun i c => ((s i).data c).map fun d => alivePiece .little (d % 2)) = .ok ws ∧
    ∃ i c, exist (s i).owner c = true ∧ 0 < lifeMeta.grid.lvl c := by
  obtain ⟨k, s, t1, t2, t3, t4⟩ := tiny_family
  have hr : Reachable tinyG 0 146 s := t1.reachable
  have hmine : ∀ i : Fin 2, ((ids tinyG).filter fun c => (s i).has c).Nodup ∧
      ∀ c, c ∈ ((ids tinyG).filter fun c => (s i).has c) ↔ ((s i).data c).isSome = true := by
    obtain ⟨w, hi⟩ := hr.inv tiny_wf (by omega)
    intro i
    refine ⟨List.Pairwise.filter _ (show (ids tinyG).Nodup from List.nodup_range), fun c => ?_⟩
    rw [List.mem_filter]
    exact ⟨fun h => h.2, fun h => ⟨mem_ids.2 (hi.sys.tiled.valid c (exist_of ((hi.sys.placed i c).1 h))).2, h⟩⟩
  obtain ⟨ws, hws⟩ := C41_save (e := .little) (M := lifeMeta) (off := 0) (header := timeHeader .little 1)
    (K := { saved := fun d => alivePiece .little (d % 2), loaded := fun _ => alivePiece .little 0, fill := fun d _ => d }) hmine
    (by decide) (fun i => by
      have h1 : ((ids tinyG).filter fun c => (s i).has c).length ≤ 147 := by
        refine Nat.le_trans (List.length_filter_le ..) ?_
        unfold ids
        rw [List.length_range, tiny_last]
        exact Nat.le_refl _
      exact Nat.le_trans (Nat.mul_le_mul_right 2 h1) (by decide))
  exact ⟨s, _, ws, tinyM_ok, lifeMeta_readable, rfl, hr, hmine, fun i c d _ => by omega, by decide, hws, 0, 3,
    exist_of (t3 0 3 (by decide)), by decide⟩

end Dccrg
