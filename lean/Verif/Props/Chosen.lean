import Verif.Props.Interrupted
/-!
# C112: saving given cells

`given i` are cells that process `i` gives to `save_grid_data`, `mine i` are all of its cells.
-/
namespace Dccrg
open Cfg
variable {n n' : Nat} {D W : Type} {g : Cfg} {dflt : D} {maxTag : Nat} {e : Order} {M M0 : Meta}

/-- Specification: number of cells, list of cells and where their data are, and data of the cells of the list, at
position `o` of a file. -/
def HasCells (e : Order) (f : File) (o : Nat) (piece : Fin n → Nat → Option Piece) (given : Fin n → List Nat)
    (T : List (Nat × Nat)) : Prop :=
  T.map Prod.fst = (List.finRange n).flatMap given ∧ f.Holds o (enc e 8 T.length) ∧
  f.Holds (o + 8) (enc64 e (T.flatMap fun x => [x.1, x.2])) ∧
  ∀ x ∈ T, ∃ i p, x.1 ∈ given i ∧ piece i x.1 = some p ∧ f.Holds x.2 p.bytes

/-- All that is saved depends on cells only through the cells that are written. -/
theorem save_given {off : Nat} {header : Piece} {given mine : Fin n → List Nat} {piece : Fin n → Nat → Option Piece}
    (hg : ∀ i, given i = [] → mine i = []) :
    save e M { offset := off, header := header, toWrite := given } mine piece =
      save e M { offset := off, header := header } given piece := by
  have hc : ∀ i, cellsOf { offset := off, header := header, toWrite := given : SaveArgs n } mine i =
      cellsOf { offset := off, header := header : SaveArgs n } given i := by
    intro i
    show (if given i = [] then mine i else given i) = (if ([] : List Nat) = [] then given i else [])
    rw [if_pos rfl]
    split
    · rename_i h; rw [h, hg i h]
    · rfl
  have hf := funext hc
  have h1 : piecesOf { offset := off, header := header, toWrite := given : SaveArgs n } mine piece =
      piecesOf { offset := off, header := header : SaveArgs n } given piece := by
    funext i; unfold piecesOf; rw [hc i]
  have h2 : totalCells { offset := off, header := header, toWrite := given : SaveArgs n } mine =
      totalCells { offset := off, header := header : SaveArgs n } given := by
    unfold totalCells; rw [hf]
  have h3 : positions M { offset := off, header := header, toWrite := given : SaveArgs n } mine piece =
      positions M { offset := off, header := header : SaveArgs n } given piece := by
    funext i; unfold positions dataStart; rw [h1, h2]; rfl
  have h4 : listOf M { offset := off, header := header, toWrite := given : SaveArgs n } mine piece =
      listOf M { offset := off, header := header : SaveArgs n } given piece := by
    funext i; unfold listOf; rw [hf, h3]
  unfold save
  simp only [hf, h4]
  congr 2
  congr 1
  congr 1
  funext i
  unfold headWrites infoWrites dataWrites listStart
  rw [h2, h3, h1, hf]
  rfl

/-- Members, number of cells and list of cells as they are read from a file. -/
theorem read_saved (hn : 0 < n) (hM : M.Readable) (hk : M0.geom.id = M.geom.id) {a : SaveArgs n} {mine : Fin n → List Nat}
    {piece : Fin n → Nat → Option Piece} {ws : Fin n → List Write} (h : save e M a mine piece = .ok ws) (hh : a.header.Ok)
    (h1 : a.info = true) (h2 : a.ids = true) (h3 : a.offsets = true)
    (hp : ∀ i c p, c ∈ cellsOf a mine i → piece i c = some p → p.Ok ∧ (p.named = true ∨ p.count = 1))
    {l : List Write} (hl : l.Perm ((List.finRange n).flatMap ws)) (f : File)
    (hid : ∀ i, ∀ c ∈ cellsOf a mine i, c < 2 ^ 64) (hcells : 2 * totalCells a mine ≤ intMax)
    (hend : fileEnd M a mine piece < 2 ^ 64) :
    ∃ o, readMeta e (f.writes l) (afterHeader a) M0 = some (M, o) ∧ dec e ((f.writes l).get o 8) = totalCells a mine ∧
      HasCells e (f.writes l) o piece (cellsOf a mine) (table M a mine piece) ∧
      pairsOf (dec64 e (2 * totalCells a mine) ((f.writes l).get (o + 8) (2 * totalCells a mine * 8))) =
        table M a mine piece := by
  obtain ⟨p1, p2, p3, p4, p5⟩ := file_parts hn h hh h1 h2 h3 hp hl f
  have hsome := (save_inv h).1
  obtain ⟨o, q1, q2, q3⟩ := readMeta_holds e hM hk h1 p2
  have hlen := table_length (M := M) hsome
  have hfst := table_cells (M := M) hsome
  generalize table M a mine piece = T at *
  have hfl : (T.flatMap fun x => [x.1, x.2]).length = 2 * totalCells a mine := by
    rw [List.length_flatMap]
    show (List.map (fun _ => 2) T).sum = _
    rw [List.map_const', List.sum_replicate_nat, hlen, Nat.mul_comm]
  refine ⟨o, q1, ?_, ⟨hfst, by rw [hlen]; exact q3, by rw [q2]; exact p3, p4⟩, ?_⟩
  · rw [Holds.get q3 (enc_length ..).symm, dec_enc e]
    have h1 : intMax < 256 ^ 8 := by decide
    omega
  · rw [q2, Holds.get p3 (by rw [enc64_length, hfl]; omega), ← hfl, dec64_enc64, pairsOf_flatMap]
    intro x hx
    obtain ⟨y, hy, hx⟩ := List.mem_flatMap.1 hx
    simp only [List.mem_cons, List.not_mem_nil, or_false] at hx
    rcases hx with rfl | rfl
    · have : y.1 ∈ T.map Prod.fst := List.mem_map.2 ⟨y, hy, rfl⟩
      rw [hfst] at this
      obtain ⟨i, -, hi⟩ := List.mem_flatMap.1 this
      exact hid i _ hi
    · have h1 := p5 y hy
      omega

/-- C112: if every process that has cells gives some, a file has exactly the given cells in order of rank, and their data.
Nothing before the offset changes. -/
theorem C112_given_partial (hn : 0 < n) (hM : M.Readable) {off : Nat} {header : Piece} {given mine : Fin n → List Nat}
    {piece : Fin n → Nat → Option Piece} {ws : Fin n → List Write}
    (hsave : save e M { offset := off, header := header, toWrite := given } mine piece = .ok ws)
    (hg : ∀ i, given i = [] → mine i = []) (hh : header.Ok)
    (hp : ∀ i c p, c ∈ given i → piece i c = some p → p.Ok ∧ (p.named = true ∨ p.count = 1))
    {l : List Write} (hl : l.Perm ((List.finRange n).flatMap ws)) (f : File) :
    ∃ o T, HasCells e (f.writes l) o piece given T ∧ (f.writes l).Holds off header.bytes ∧
      readMeta e (f.writes l) (off + header.size * header.count) M = some (M, o) ∧
      ∀ k, k < off → f.writes l k = f k := by
  rw [save_given hg] at hsave
  have hc : cellsOf { offset := off, header := header : SaveArgs n } given = given := funext fun i => if_pos rfl
  obtain ⟨p1, p2, p3, p4, p5⟩ := file_parts hn hsave hh rfl rfl rfl (by rw [hc]; exact hp) hl f
  have hsome := (save_inv hsave).1
  obtain ⟨o, q1, q2, q3⟩ := readMeta_holds e hM (M0 := M) rfl rfl p2
  have hlen := table_length (M := M) hsome
  have hfst := table_cells (M := M) hsome
  refine ⟨o, _, ⟨by rw [hfst, hc], by rw [hlen]; exact q3, by rw [q2]; exact p3, fun x hx => ?_⟩, p1, q1,
    (C42_file_partial hn hsave hh (by rw [hc]; exact hp) hl f).2⟩
  obtain ⟨i, p, h1, h2⟩ := p4 x hx
  exact ⟨i, p, by rw [hc] at h1; exact h1, h2⟩

/-- C112: a cell that is given by a process that does not have it is not saved quietly. -/
theorem C112_others (off : Nat) (header : Piece) (given mine : Fin n → List Nat)
    {piece : Fin n → Nat → Option Piece} {i : Fin n} {c : Nat} (hc : c ∈ given i) (hp : piece i c = none) :
    save e M { offset := off, header := header, toWrite := given } mine piece = .throws := by
  unfold save
  rw [if_pos]
  refine ⟨i, c, ?_, by rw [hp]; rfl⟩
  show c ∈ if given i = [] then mine i else given i
  rw [if_neg (by intro h; rw [h] at hc; cases hc)]
  exact hc

/-- C112: if all cells are given, in any order, the grid is loaded as if they had not been given. -/
theorem C112_all_partial (hn : 0 < n) (hn' : 0 < n') (hok : M.mapping.OK) (hM : M.Readable)
    (hk : M0.geom.id = M.geom.id) {s : Sys n D W} (hs : Reachable M.grid dflt maxTag s) {given mine : Fin n → List Nat}
    (hmine : ∀ i c, c ∈ mine i ↔ ((s i).data c).isSome = true) (hgiven : ∀ i, (given i).Nodup ∧ ∀ c, c ∈ given i ↔ c ∈ mine i)
    {K : CellClass D} {off : Nat} {header header' : Piece} (hh : header.Ok) (hh' : header'.Ok)
    (hhh : header'.count = header.count ∧ header'.size = header.size)
    {ws : Fin n → List Write}
    (hsave : save e M { offset := off, header := header, toWrite := given } mine
      (fun i c => ((s i).data c).map K.saved) = .ok ws)
    {l : List Write} (hl : l.Perm ((List.finRange n).flatMap ws)) (f : File)
    {d0 : D} {calls : Nat} (hK : ∀ i c d, (s i).data c = some d → (K.saved d).Ok ∧
      ((K.saved d).named = true ∨ (K.saved d).count = 1) ∧ Feeds K calls d0 (K.saved d).bytes d)
    {maxTag' : Nat} (htag : M.grid.last ≤ maxTag')
    (hcells : 2 * totalCells { offset := off, header := header } given ≤ intMax)
    (hend : fileEnd M { offset := off, header := header } given (fun i c => ((s i).data c).map K.saved) < 2 ^ 64)
    {ord : Fin n' → List Nat → List Nat} (hord : ∀ i l x, x ∈ ord i l ↔ x ∈ l) :
    ∃ s' : Sys n' D W, load e (f.writes l) off header' M0 d0 maxTag' ord K calls = .ok (some (header.bytes, M, s')) ∧
      ∀ i j c, exist (s' j).owner c = exist (s i).owner c ∧
        ∀ d, (s i).data c = some d → (s' j).owner c = some j → (s' j).data c = some d := by
  rw [save_given fun i h => by
    rw [List.eq_nil_iff_forall_not_mem]
    intro c hc
    rw [← (hgiven i).2 c, h] at hc
    cases hc] at hsave
  obtain ⟨s', h1, -, -, h2⟩ := C41_load_partial hn hn' hok hM hk hs
    (fun i => ⟨(hgiven i).1, fun c => ((hgiven i).2 c).trans (hmine i c)⟩) hh hh' hhh hsave hl f hK htag hcells hend hord
  exact ⟨s', h1, h2⟩

/-! ## Files without some cells -/

theorem run_reachable {s s' : Sys n D W} {ops : List (Op n D W)} (h : Reachable g dflt maxTag s)
    (hops : ∀ op ∈ ops, ∀ s, op.Ok s) (hr : run g dflt maxTag s ops = .ok s') : Reachable g dflt maxTag s' := by
  induction ops generalizing s with
  | nil => injection hr with hr; rw [← hr]; exact h
  | cons op ops ih =>
    obtain ⟨s1, h1, h2⟩ := Out.bind_inv hr
    exact ih (.step op h (hops op List.mem_cons_self s) h1) (fun o ho => hops o (List.mem_cons_of_mem _ ho)) h2

theorem loadOps_ok (ord : Fin n → List Nat → List Nat) (s : Sys n D W) (given : Fin n → List Nat) :
    ∀ op ∈ loadOps g ord s given, ∀ t, op.Ok t := by
  intro op hop t
  unfold loadOps at hop
  simp only [] at hop
  obtain ⟨l, -, hop⟩ := List.mem_flatMap.1 hop
  unfold loadLevel at hop
  rcases List.mem_append.1 hop with hop | hop
  · obtain ⟨i, -, hop⟩ := List.mem_flatMap.1 hop
    obtain ⟨c, -, rfl⟩ := List.mem_map.1 hop
    trivial
  · rcases List.mem_cons.1 hop with rfl | hop
    · trivial
    · obtain ⟨i, -, rfl⟩ := List.mem_map.1 hop
      trivial

theorem subset_of_length {a b : List Nat} (ha : a.Nodup) (hb : b.Nodup) (h : ∀ x ∈ a, x ∈ b) (hl : b.length ≤ a.length) :
    ∀ x ∈ b, x ∈ a := by
  intro x hx
  apply Classical.byContradiction
  intro hn
  have := (List.nodup_cons.2 ⟨hn, ha⟩).length_le_of_subset (l₂ := b) (fun y hy => by
    rcases List.mem_cons.1 hy with rfl | hy
    · exact hx
    · exact h y hy)
  rw [List.length_cons] at this
  omega

/-- C112: a file that does not have all cells of the grid is not loaded as if it had: loading does not return on all
processes, neither with some grid nor with an error (some process aborts, see `startLoading` and C102), whatever cells are
missing. -/
theorem C112_missing (hn : 0 < n) (hn' : 0 < n') (hok : M.mapping.OK) (hM : M.Readable)
    (hk : M0.geom.id = M.geom.id) {s : Sys n D W} (hs : Reachable M.grid dflt maxTag s) {given mine : Fin n → List Nat}
    (hg : ∀ i, given i = [] → mine i = []) (hgiven : ∀ i, (given i).Nodup) {K : CellClass D}
    {off : Nat} {header header' : Piece} (hh : header.Ok)
    (hhh : header'.count = header.count ∧ header'.size = header.size)
    {ws : Fin n → List Write}
    (hsave : save e M { offset := off, header := header, toWrite := given } mine
      (fun i c => ((s i).data c).map K.saved) = .ok ws)
    {l : List Write} (hl : l.Perm ((List.finRange n).flatMap ws)) (f : File)
    (hK : ∀ i c d, (s i).data c = some d → (K.saved d).Ok ∧ ((K.saved d).named = true ∨ (K.saved d).count = 1))
    (hcells : 2 * totalCells { offset := off, header := header } given ≤ intMax)
    (hend : fileEnd M { offset := off, header := header } given (fun i c => ((s i).data c).map K.saved) < 2 ^ 64)
    {i : Fin n} {c : Nat} (hc : (s i).owner c = some i) (hmiss : c ∉ given i)
    (d0 : D) (maxTag' calls : Nat) (hcalls : 0 < calls) (ord : Fin n' → List Nat → List Nat)
    (r : Option (List Nat × Meta × Sys n' D W)) :
    load e (f.writes l) off header' M0 d0 maxTag' ord K calls ≠ .ok r := by
  intro hload
  have hw : M.grid.WF := grid_wf hok
  obtain ⟨w, hi⟩ := hs.inv hw hn
  rw [save_given hg] at hsave
  let a : SaveArgs n := { offset := off, header := header }
  have hco : cellsOf a given = given := funext fun i => if_pos rfl
  have hsome := (save_inv hsave).1
  have hown : ∀ j, ∀ x ∈ given j, w x = some j := by
    intro j x hx
    have := hsome j x (by rw [show cellsOf _ given = given from hco]; exact hx)
    rw [Option.isSome_map] at this
    exact (hi.sys.placed j x).1 this
  have hvalid : ∀ j, ∀ x ∈ given j, M.grid.Valid x := fun j x hx => hi.sys.tiled.valid x (exist_of (hown j x hx))
  have hp : ∀ i c p, c ∈ cellsOf a given i → ((s i).data c).map K.saved = some p →
      p.Ok ∧ (p.named = true ∨ p.count = 1) := by
    intro i c p _ h
    cases hd : (s i).data c with
    | none => rw [hd] at h; cases h
    | some d =>
      rw [hd] at h
      injection h with h
      rw [← h]
      exact hK i c d hd
  obtain ⟨o, r1, r2, r3, r4⟩ := read_saved (M0 := M0) hn hM hk hsave hh rfl rfl rfl hp hl f (by
    intro j x hx
    rw [show cellsOf _ given = given from hco] at hx
    have h1 : M.grid.last = M.mapping.cfg.last := grid_last
    have h2 : M.mapping.cfg.last < 2 ^ 64 := hok.fits
    have h3 := (hvalid j x hx).2
    omega) hcells hend
  obtain ⟨t1, -, -, -⟩ := r3
  rw [show cellsOf _ given = given from hco] at t1
  generalize table M { offset := off, header := header } given (fun i c => ((s i).data c).map K.saved) = T at t1 r4
  -- what loading does
  unfold load at hload
  split at hload
  · cases hload
  rw [hhh.1, hhh.2, show off + header.size * header.count = afterHeader a from rfl] at hload
  obtain ⟨x, h1, h2⟩ := Out.bind_inv hload
  unfold startLoading at h1
  rw [r1] at h1
  simp only [] at h1
  obtain ⟨s0, g1, g2⟩ := Out.bind_inv h1
  rw [r2] at g2
  split at g2
  · cases g2
  rw [r4] at g2
  split at g2
  · cases g2
  obtain ⟨s2, k1, k2⟩ := Out.bind_inv g2
  split at k2
  · cases k2
  rename_i hcount
  injection k2 with k2
  subst k2
  simp only [] at h2
  obtain ⟨s3, m1, -⟩ := Out.bind_inv h2
  -- every cell of the list is on the process
  have hdata : ∀ j, ∀ y ∈ T.filter (fun x => overlapsLocal M.grid j (s0 j).owner x.1), ((s2 j).data y.1).isSome = true := by
    obtain ⟨k, rfl⟩ : ∃ k, calls = k + 1 := ⟨calls - 1, by omega⟩
    unfold continueAll at m1
    obtain ⟨v, v1, -⟩ := Out.bind_inv m1
    intro j y hy
    have := Out.collect_inv v1 j
    unfold continueLoading at this
    split at this
    · cases this
    · rename_i hno
      cases hd : (s2 j).data y.1 with
      | none => exact absurd ⟨y, hy, by rw [hd]; rfl⟩ hno
      | some d => rfl
  have hTn : (T.map Prod.fst).Nodup := by
    rw [t1]
    apply flatMap_nodup
    · exact List.nodup_finRange n
    · intro j _; exact hgiven j
    · intro j _ k _ x h1 h2
      have e1 := hown _ x h1
      rw [hown _ x h2] at e1
      injection e1 with e1
      exact e1.symm
  have hall : ∀ j y, ((s2 j).data y).isSome = true → M.grid.Valid y → y ∈ T.map Prod.fst := by
    intro j y hy hv
    have hlen : localCount M.grid (s2 j) = ((T.filter fun x => overlapsLocal M.grid j (s0 j).owner x.1).map Prod.fst).length := by
      rw [List.length_map]
      apply Classical.byContradiction
      intro h
      exact hcount ⟨j, h⟩
    unfold localCount at hlen
    have := subset_of_length (a := (T.filter fun (x : Nat × Nat) => overlapsLocal M.grid j (s0 j).owner x.1).map Prod.fst)
      (b := (ids M.grid).filter (s2 j).has) (hTn.sublist (List.Sublist.map _ List.filter_sublist))
      (List.Pairwise.filter _ (show (ids M.grid).Nodup from List.nodup_range)) (fun z hz => by
        obtain ⟨u, u1, rfl⟩ := List.mem_map.1 hz
        have hT : u.1 ∈ T.map Prod.fst := List.mem_map.2 ⟨u, (List.mem_filter.1 u1).1, rfl⟩
        rw [t1] at hT
        obtain ⟨k, -, hk⟩ := List.mem_flatMap.1 hT
        exact List.mem_filter.2 ⟨mem_ids.2 (hvalid k _ hk).2, hdata j u u1⟩) (Nat.le_of_eq hlen) y
      (List.mem_filter.2 ⟨mem_ids.2 hv.2, hy⟩)
    obtain ⟨u, u1, u2⟩ := List.mem_map.1 this
    exact List.mem_map.2 ⟨u, (List.mem_filter.1 u1).1, u2⟩
  -- the loaded grid
  obtain ⟨w2, hi2, hs2⟩ : ∃ (w2 : Owner n'), Tiled M.grid (exist w2) ∧ ∀ j x, ((s2 j).data x).isSome = true ↔ w2 x = some j := by
    have hr0 : Reachable M.grid d0 maxTag' s0 := .init g1
    rcases loadCells_noCopies (g := M.grid) (dflt := d0) (maxTag := maxTag') (ord := ord)
        (given := fun i => (T.filter fun x => overlapsLocal M.grid i (s0 i).owner x.1).map Prod.fst) s0 with
      ⟨-, e2⟩ | ⟨-, e2, -⟩
    · rw [k1] at e2
      have hr := run_reachable hr0 (loadOps_ok ord s0 _) (show run _ _ _ _ _ = .ok s2 from e2.symm)
      obtain ⟨w2, hi2⟩ := hr.inv hw hn'
      exact ⟨w2, hi2.sys.tiled, hi2.sys.placed⟩
    · rw [k1] at e2
      injection e2 with e2
      subst e2
      obtain ⟨w2, hi2⟩ := hr0.inv hw hn'
      exact ⟨w2, hi2.sys.tiled, hi2.sys.placed⟩
  rw [hi.sys.owner] at hc
  have hcv := hi.sys.tiled.valid c (exist_of hc)
  obtain ⟨y, y1, y2⟩ := hi2.cover _ (idx_inGrid hw hcv)
  obtain ⟨j, hj⟩ := exist_iff.1 y1
  have hyT := hall j y ((hs2 j y).2 hj) (hi2.valid y y1)
  rw [t1] at hyT
  obtain ⟨k, -, hk⟩ := List.mem_flatMap.1 hyT
  have hyc := hi.sys.tiled.unique _ y c (exist_of (hown k y hk)) (exist_of hc) y2 (mem_idx c)
  subst hyc
  have := hown k y hk
  rw [hc] at this
  injection this with this
  subst this
  exact hmiss hk

/-! ## Examples -/

/-- Grid of the demo of which cell 1 has been refined, data of cells are their ids. Process 0 gives its children in
reverse order. -/
example : ∃ (s : Sys 2 Nat Nat) (mine given : Fin 2 → List Nat) (ws : Fin 2 → List Write),
    tinyMeta.mapping.OK ∧ tinyMeta.Readable ∧ Reachable tinyMeta.grid 0 146 s ∧ (samplePiece 3).Ok ∧
    (∀ i c, c ∈ mine i ↔ ((s i).data c).isSome = true) ∧ (∀ i, (given i).Nodup ∧ ∀ c, c ∈ given i ↔ c ∈ mine i) ∧
    (∀ i, given i = [] → mine i = []) ∧
    save .little tinyMeta { offset := 11, header := samplePiece 3, toWrite := given } mine
      (fun i c => ((s i).data c).map wordClass.saved) = .ok ws ∧
    (∀ i c d, (s i).data c = some d → (wordClass.saved d).Ok ∧
      ((wordClass.saved d).named = true ∨ (wordClass.saved d).count = 1) ∧
      Feeds wordClass 1 0 (wordClass.saved d).bytes d) ∧ tinyMeta.grid.last ≤ 146 ∧
    2 * totalCells { offset := 11, header := samplePiece 3 } given ≤ intMax ∧
    fileEnd tinyMeta { offset := 11, header := samplePiece 3 } given (fun i c => ((s i).data c).map wordClass.saved) < 2 ^ 64 ∧
    exist (s 0).owner 3 = true := by
  obtain ⟨s, mine, ws, h1, h2, h3, h4, h5, h6, h7, h8, h9, h10, h11, -⟩ := tiny_saved_refined
  refine ⟨s, fun i => (mine i).reverse, mine, ws, h1, h2, h3, h5, fun i c => ?_, fun i => ⟨(h4 i).1, fun c => ?_⟩, fun i hi => ?_,
    ?_, h7, h8, h9, h10, h11⟩
  · rw [List.mem_reverse, (h4 i).2]
  · rw [List.mem_reverse]
  · show (mine i).reverse = []
    rw [hi]; rfl
  · rw [save_given fun i hi => by show (mine i).reverse = []; rw [hi]; rfl]
    exact h6

theorem pair_ok : pairMeta.mapping.OK where
  pos := by rw [forall_fin3]; decide
  nonneg := by decide
  fits := by decide
  last := by decide

theorem pair_readable : pairMeta.Readable where
  mapping := by
    have h := Mapping.accepted (m0 := Mapping.init) (m1 := { len := v3 2 1 1, maxLvl := 0, lastCell := 2 })
      (m := { len := v3 2 1 1, maxLvl := 0, lastCell := 2 }) (l := v3 2 1 1) (k := 0) (by rw [forall_fin3]; decide) (by decide) rfl rfl
    exact h.1
  hood := by decide
  small := trivial
  settable := ⟨.no, rfl⟩

/-- Grid of two cells on process 0, which gives only cell 2. -/
example : ∃ (s : Sys 1 Nat Nat) (ws : Fin 1 → List Write), pairMeta.mapping.OK ∧ pairMeta.Readable ∧
    Reachable pairMeta.grid 5 10 s ∧ (samplePiece 0).Ok ∧
    save .little pairMeta { offset := 0, header := samplePiece 0, toWrite := fun _ => [2] } (fun _ => [1, 2])
      (fun i c => ((s i).data c).map wordClass.saved) = .ok ws ∧
    (∀ i c d, (s i).data c = some d → (wordClass.saved d).Ok ∧
      ((wordClass.saved d).named = true ∨ (wordClass.saved d).count = 1)) ∧
    2 * totalCells { offset := 0, header := samplePiece 0 : SaveArgs 1 } (fun _ => [2]) ≤ intMax ∧
    fileEnd pairMeta { offset := 0, header := samplePiece 0 : SaveArgs 1 } (fun _ => [2])
      (fun i c => ((s i).data c).map wordClass.saved) < 2 ^ 64 ∧ (s 0).owner 1 = some 0 := by
  have h : (match createGrid (W := Nat) pairMeta.grid 1 5 10 with
      | .ok s =>
        match save .little pairMeta { offset := 0, header := samplePiece 0, toWrite := fun _ => [2] } (fun _ => [1, 2])
          (fun i c => ((s i).data c).map wordClass.saved) with
        | .ok _ =>
          decide (fileEnd pairMeta { offset := 0, header := samplePiece 0 : SaveArgs 1 } (fun _ => [2])
            (fun i c => ((s i).data c).map wordClass.saved) < 2 ^ 64) && decide ((s 0).owner 1 = some 0)
        | _ => false
      | _ => false) = true := by decide +kernel
  split at h
  · rename_i s hs
    split at h
    · rename_i ws hws
      rw [Bool.and_eq_true, decide_eq_true_eq, decide_eq_true_eq] at h
      refine ⟨s, ws, pair_ok, pair_readable, .init hs, by unfold Piece.Ok; decide, hws, fun i c d _ => ⟨?_, Or.inl rfl⟩, by decide,
        h.1, h.2⟩
      unfold Piece.Ok wordClass
      simp
    · cases h
  · cases h

/-! ## Negations -/

/-- Number of cells in a file when process 0 gives its cell 1 and process 1 gives no cells. -/
def oneGiven : Option Nat :=
  match createGrid (W := Nat) pairMeta.grid 2 5 10 with
  | .ok s =>
    match save .little pairMeta { offset := 0, header := samplePiece 0, toWrite := fun i => if i = 0 then [1] else [] }
      (fun i => if i = 0 then [1] else [2]) (fun i c => ((s i).data c).map wordClass.saved) with
    | .ok ws =>
      match readMeta .little (File.writes (fun _ => none) ((List.finRange 2).flatMap ws)) 0 pairMeta with
      | some (_, o) => some (dec .little ((File.writes (fun _ => none) ((List.finRange 2).flatMap ws)).get o 8))
      | none => none
    | _ => none
  | _ => none

/-- C112 is false of the code if some process gives no cells: all of its cells are written. Here process 0 gives cell 1 and
process 1, which has cell 2, gives nothing. The file does not have exactly the given cells, it has two cells. -/
theorem C112_false : ∃ (s : Sys 2 Nat Nat) (ws : Fin 2 → List Write) (f : File) (M : Meta) (o : Nat),
    Reachable pairMeta.grid 5 10 s ∧
    save .little pairMeta { offset := 0, header := samplePiece 0, toWrite := fun i => if i = 0 then [1] else [] }
      (fun i => if i = 0 then [1] else [2]) (fun i c => ((s i).data c).map wordClass.saved) = .ok ws ∧
    f = File.writes (fun _ => none) ((List.finRange 2).flatMap ws) ∧ readMeta .little f 0 pairMeta = some (M, o) ∧
    dec .little (f.get o 8) = 2 ∧
    ¬ ∃ T, HasCells .little f o (fun i c => ((s i).data c).map wordClass.saved) (fun i : Fin 2 => if i = 0 then [1] else []) T := by
  have h : oneGiven = some 2 := by decide +kernel
  unfold oneGiven at h
  split at h
  · rename_i s hs
    split at h
    · rename_i ws hws
      split at h
      · rename_i M o hm
        injection h with h
        refine ⟨s, ws, _, M, o, .init hs, hws, rfl, hm, h, ?_⟩
        rintro ⟨T, h1, h2, -⟩
        have hT : T.length = 1 := by
          rw [← List.length_map (f := Prod.fst), h1]; decide
        rw [Holds.get h2 (enc_length ..).symm, hT, dec_enc .little (by decide)] at h
        cases h
      · cases h
    · cases h
  · cases h

/-- Data of cells 1 and 2 that are loaded when cell 1 has been given twice. -/
def twiceGiven : Option (Option Nat × Option Nat) :=
  match createGrid (W := Nat) pairMeta.grid 1 5 10 with
  | .ok s =>
    match save .little pairMeta { offset := 0, header := samplePiece 0, toWrite := fun _ => [1, 1] } (fun _ => [1, 2])
      (fun i c => ((s i).data c).map wordClass.saved) with
    | .ok ws =>
      match load (n := 1) (W := Nat) .little (File.writes (fun _ => none) (ws 0)) 0 (samplePiece 0) pairMeta 0 10
        (fun _ l => l) wordClass 1 with
      | .ok (some x) => some ((x.2.2 0).data 1, (x.2.2 0).data 2)
      | _ => none
    | _ => none
  | _ => none

/-- C112 is false of the code if a cell is given twice: here cell 1 is given twice and cell 2, which is not in the file, is
loaded with data of a default constructed cell. -/
theorem C112_twice_false : ∃ (s : Sys 1 Nat Nat) (ws : Fin 1 → List Write) (x : List Nat × Meta × Sys 1 Nat Nat),
    Reachable pairMeta.grid 5 10 s ∧ (s 0).owner 2 = some 0 ∧ (s 0).data 2 = some 5 ∧
    save .little pairMeta { offset := 0, header := samplePiece 0, toWrite := fun _ => [1, 1] } (fun _ => [1, 2])
      (fun i c => ((s i).data c).map wordClass.saved) = .ok ws ∧
    load .little (File.writes (fun _ => none) (ws 0)) 0 (samplePiece 0) pairMeta 0 10 (fun _ l => l) wordClass 1 =
      .ok (some x) ∧ (x.2.2 0).data 1 = some 5 ∧ (x.2.2 0).data 2 = some 0 := by
  have h : twiceGiven = some (some 5, some 0) := by decide +kernel
  unfold twiceGiven at h
  split at h
  · rename_i s hs
    split at h
    · rename_i ws hws
      split at h
      · rename_i x hx
        injection h with h
        injection h with h1 h2
        obtain ⟨s2, e1, e3, e2⟩ := createGrid_spec (n := 1) (W := Nat) (g := pairMeta.grid) (maxTag := 10)
          (by unfold Cfg.WF; rw [forall_fin3]; decide) (by omega) 5
          (fitsTags_mono (by decide) (fitsTags_last
            (createLevel0_tiled (by unfold Cfg.WF; rw [forall_fin3]; decide) (by omega)).valid))
        rw [hs] at e1
        injection e1 with e1
        subst e1
        refine ⟨s, ws, x, .init hs, ?_, ?_, hws, hx, h1, h2⟩
        · rw [e3.owner]; decide
        · rw [(e2 0).2.2.1]; decide
      · cases h
    · cases h
  · cases h

end Dccrg
