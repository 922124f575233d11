import Verif.Save
import Verif.Props.Records
/-!
# C42: regions of files do not overlap

`Chain a l b` says that writes `l` follow each other without gaps from offset `a` to offset `b`, `Write.Disjoint` that
two writes have no bytes in common (Verif/Bytes.lean). Data of cells are `Piece`s: what `get_mpi_datatype` describes.
-/
namespace Dccrg
variable {n : Nat} {e : Order} {M : Meta} {a : SaveArgs n} {mine : Fin n → List Nat}
  {piece : Fin n → Nat → Option Piece} {ws : Fin n → List Write}

theorem save_inv (h : save e M a mine piece = .ok ws) :
    (∀ i, ∀ c ∈ cellsOf a mine i, (piece i c).isSome = true) ∧ a.header.size * a.header.count ≤ intMax ∧
    (∀ i, (listOf M a mine piece i).length ≤ intMax) ∧
    ∀ i, ws i = headWrites e M a mine i ++ [(listStart M a mine i, enc64 e (listOf M a mine piece i))] ++
      dataWrites M a mine piece i := by
  unfold save at h
  split at h
  · cases h
  · split at h
    · cases h
    · split at h
      · cases h
      · rename_i h1 h2 h3
        injection h with h
        refine ⟨fun i c hc => ?_, by omega, fun i => ?_, fun i => by rw [← h]⟩
        · cases hp : piece i c with
          | none => exact absurd ⟨i, c, hc, by rw [hp]; rfl⟩ h1
          | some p => rfl
        · apply Nat.le_of_not_lt
          intro hh
          exact h3 ⟨i, hh⟩

theorem pieces_length (h : ∀ i, ∀ c ∈ cellsOf a mine i, (piece i c).isSome = true) (i : Fin n) :
    (piecesOf a mine piece i).length = (cellsOf a mine i).length := by
  unfold piecesOf
  have := h i
  generalize cellsOf a mine i = l at this
  induction l with
  | nil => rfl
  | cons c l ih =>
    obtain ⟨p, hp⟩ := Option.isSome_iff_exists.1 (this c (List.mem_cons_self ..))
    rw [List.filterMap_cons, hp]
    simp only [List.length_cons]
    rw [ih fun x hx => this x (List.mem_cons_of_mem _ hx)]

theorem positions_length (h : ∀ i, ∀ c ∈ cellsOf a mine i, (piece i c).isSome = true) (i : Fin n) :
    (positions M a mine piece i).length = (cellsOf a mine i).length := by
  unfold positions
  rw [List.length_map, displ_length, pieces_length h]

theorem zip_pairs_length {l l' : List Nat} (h : l'.length = l.length) :
    ((List.zip l l').flatMap fun x => [x.1, x.2]).length = l.length * 2 := by
  rw [List.length_flatMap]
  show (List.map (fun _ => 2) (List.zip l l')).sum = _
  rw [List.map_const', List.sum_replicate_nat, List.length_zip, h, Nat.min_self]

/-- Number of entries in the list of cells for each cell. -/
def entries (a : SaveArgs n) : Nat := (if a.ids then 1 else 0) + (if a.offsets then 1 else 0)

theorem listOf_length (h : ∀ i, ∀ c ∈ cellsOf a mine i, (piece i c).isSome = true) (i : Fin n) :
    (listOf M a mine piece i).length = (cellsOf a mine i).length * entries a := by
  have hp := positions_length (M := M) h i
  unfold listOf entries
  cases a.ids <;> cases a.offsets
  · rfl
  · simpa using hp
  · simp
  · simp only [Bool.and_self, if_true]
    exact zip_pairs_length hp

theorem sum_mul (l : List (Fin n)) (f : Fin n → Nat) (k : Nat) : (l.map fun i => f i * k).sum = (l.map f).sum * k := by
  induction l with
  | nil => simp
  | cons a l ih => rw [List.map_cons, List.sum_cons, ih, List.map_cons, List.sum_cons, Nat.add_mul]

/-- Header and information. -/
theorem chain_head (hn : 0 < n) (hh : a.header.Ok) :
    Chain a.offset (headWrites e M a mine ⟨0, hn⟩) (afterInfo M a) := by
  unfold headWrites
  rw [if_pos rfl]
  have e1 : a.offset + a.header.bytes.length = afterHeader a := by
    unfold afterHeader; rw [hh, Nat.mul_comm]
  refine ⟨rfl, ?_⟩
  simp only [e1]
  unfold afterInfo
  split
  · unfold infoWrites
    simp only [List.append_assoc]
    rw [chain_append]
    refine ⟨afterHeader a + 8, ⟨rfl, by rw [enc_length]; rfl⟩, ?_⟩
    rw [chain_append]
    refine ⟨_, C09_mapping_size e M.mapping _, ?_⟩
    rw [chain_append]
    refine ⟨_, ⟨rfl, by rw [enc_length]; rfl⟩, ?_⟩
    rw [chain_append]
    refine ⟨_, C09_topology_size M.per _, ?_⟩
    rw [chain_append]
    refine ⟨_, C09_geometry_size e M.geom _, ?_⟩
    exact ⟨rfl, by rw [enc_length]; rfl⟩
  · rfl

/-- Lists of cells. -/
theorem chain_lists (h : ∀ i, ∀ c ∈ cellsOf a mine i, (piece i c).isSome = true) :
    Chain (afterInfo M a)
      ((List.finRange n).flatMap fun i => [(listStart M a mine i, enc64 e (listOf M a mine piece i))])
      (afterInfo M a + totalCells a mine * (entries a * 8)) := by
  have hs : (fun j => if (a.ids && a.offsets) = true then (cellsOf a mine j).length * 2 * 8
      else if (a.ids || a.offsets) = true then (cellsOf a mine j).length * 8 else 0) =
      fun j => (cellsOf a mine j).length * (entries a * 8) := by
    funext j
    unfold entries
    cases a.ids <;> cases a.offsets <;> simp <;> omega
  have := chain_ranks (base := afterInfo M a) (size := fun j => (cellsOf a mine j).length * (entries a * 8))
    (f := fun i => [(listStart M a mine i, enc64 e (listOf M a mine piece i))]) (by
      intro i
      refine ⟨?_, ?_⟩
      · show listStart M a mine i = _
        unfold listStart
        rw [hs]
      · rw [enc64_length, listOf_length h]
        show _ + 8 * _ = _
        congr 1
        rw [Nat.mul_left_comm, Nat.mul_comm 8])
  unfold totalCells total
  rw [← sum_mul]
  exact this

/-- Data of cells. -/
theorem chain_data (hp : ∀ i c p, c ∈ cellsOf a mine i → piece i c = some p → p.Ok ∧ (p.named = true ∨ p.count = 1)) :
    Chain (afterInfo M a + totalCells a mine * (entries a * 8)) ((List.finRange n).flatMap (dataWrites M a mine piece))
      (afterInfo M a + totalCells a mine * (entries a * 8) + total fun i => displEnd (piecesOf a mine piece i)) := by
  apply chain_ranks
  intro i
  have hd : dataStart M a mine piece i = afterInfo M a + totalCells a mine * (entries a * 8) +
      before i (fun j => displEnd (piecesOf a mine piece j)) := by
    unfold dataStart entries
    generalize totalCells a mine = t
    cases a.ids <;> cases a.offsets <;> simp <;> omega
  unfold dataWrites positions
  rw [← hd]
  have := chain_displ (l := piecesOf a mine piece i) (by
    intro p hq
    unfold piecesOf at hq
    obtain ⟨c, h1, h2⟩ := List.mem_filterMap.1 hq
    exact hp i c p h1 h2) 0 (dataStart M a mine piece i)
  rwa [Nat.zero_add] at this

theorem perm_split {α β : Type} (l : List α) (f g h : α → List β) :
    (l.flatMap fun i => f i ++ g i ++ h i).Perm (l.flatMap f ++ l.flatMap g ++ l.flatMap h) := by
  have two : ∀ (f g : α → List β), (l.flatMap fun i => f i ++ g i).Perm (l.flatMap f ++ l.flatMap g) := by
    intro f g
    induction l with
    | nil => exact List.Perm.refl _
    | cons x l ih =>
      simp only [List.flatMap_cons, List.append_assoc]
      refine List.Perm.append_left _ ((List.Perm.append_left _ ih).trans ?_)
      rw [← List.append_assoc, ← List.append_assoc]
      exact List.Perm.append_right _ List.perm_append_comm
  exact (two _ h).trans (List.Perm.append_right _ (two f g))

theorem flatMap_head (hn : 0 < n) (f : Fin n → List Write) (h : ∀ i, i.1 ≠ 0 → f i = []) :
    (List.finRange n).flatMap f = f ⟨0, hn⟩ := by
  match n, hn with
  | n + 1, _ =>
    rw [List.finRange_succ, List.flatMap_cons]
    have : (List.map Fin.succ (List.finRange n)).flatMap f = [] := by
      rw [List.flatMap_eq_nil_iff]
      intro i hi
      obtain ⟨j, -, rfl⟩ := List.mem_map.1 hi
      exact h _ (by simp)
    rw [this, List.append_nil]
    rfl

/-- Lists of cells of all processes. -/
def listWrites (e : Order) (M : Meta) (a : SaveArgs n) (mine : Fin n → List Nat) (piece : Fin n → Nat → Option Piece) :
    List Write :=
  (List.finRange n).flatMap fun i => [(listStart M a mine i, enc64 e (listOf M a mine piece i))]

theorem save_perm (hn : 0 < n) (h : save e M a mine piece = .ok ws) :
    ((List.finRange n).flatMap ws).Perm (headWrites e M a mine ⟨0, hn⟩ ++ listWrites e M a mine piece ++
      (List.finRange n).flatMap (dataWrites M a mine piece)) := by
  obtain ⟨h1, h2, h3, h4⟩ := save_inv h
  have : (List.finRange n).flatMap ws = (List.finRange n).flatMap fun i => headWrites e M a mine i ++
      [(listStart M a mine i, enc64 e (listOf M a mine piece i))] ++ dataWrites M a mine piece i := by
    congr 1; funext i; exact h4 i
  rw [this]
  refine (perm_split _ _ _ _).trans ?_
  rw [flatMap_head hn (headWrites e M a mine) fun i hi => if_neg hi]
  exact List.Perm.refl _

/-- Where writes end. -/
def fileEnd (M : Meta) (a : SaveArgs n) (mine : Fin n → List Nat) (piece : Fin n → Nat → Option Piece) : Nat :=
  afterInfo M a + totalCells a mine * (entries a * 8) + total fun i => displEnd (piecesOf a mine piece i)

theorem save_chain (hn : 0 < n) (h : save e M a mine piece = .ok ws) (hh : a.header.Ok)
    (hp : ∀ i c p, c ∈ cellsOf a mine i → piece i c = some p → p.Ok ∧ (p.named = true ∨ p.count = 1)) :
    Chain a.offset (headWrites e M a mine ⟨0, hn⟩ ++ listWrites e M a mine piece ++
      (List.finRange n).flatMap (dataWrites M a mine piece)) (fileEnd M a mine piece) := by
  rw [chain_append]
  refine ⟨_, ?_, chain_data hp⟩
  rw [chain_append]
  exact ⟨_, chain_head hn hh, chain_lists (save_inv h).1⟩

/-- C42: everything that processes write, arranged by position in the file: header, information of the grid, lists of
cells of each process and data of cells of each process, follows each other without gaps from the given offset, provided
that datatypes of data of cells are named or count is 1. -/
theorem C42_regions_partial (hn : 0 < n) (h : save e M a mine piece = .ok ws) (hh : a.header.Ok)
    (hp : ∀ i c p, c ∈ cellsOf a mine i → piece i c = some p → p.Ok ∧ (p.named = true ∨ p.count = 1)) :
    ∃ head lists data : List Write, ((List.finRange n).flatMap ws).Perm (head ++ lists ++ data) ∧
      (∃ b, Chain a.offset (head ++ lists ++ data) b) ∧
      head.head? = some (a.offset, a.header.bytes) ∧
      lists.map Prod.snd = (List.finRange n).map (fun i => enc64 e (listOf M a mine piece i)) ∧
      data.map Prod.snd = (List.finRange n).flatMap fun i => (piecesOf a mine piece i).map Piece.bytes := by
  refine ⟨_, _, _, save_perm hn h, ⟨_, save_chain hn h hh hp⟩, ?_, ?_, ?_⟩
  · unfold headWrites
    rw [if_pos rfl]
    rfl
  · unfold listWrites
    rw [List.map_flatMap]
    exact List.map_eq_flatMap.symm
  · rw [List.map_flatMap]
    congr 1
    funext i
    unfold dataWrites
    have : (positions M a mine piece i).length = (piecesOf a mine piece i).length := by
      unfold positions; rw [List.length_map, displ_length]
    generalize positions M a mine piece i = l at this
    generalize piecesOf a mine piece i = l' at this
    induction l generalizing l' with
    | nil =>
      cases l' with
      | nil => rfl
      | cons => cases this
    | cons x l ih =>
      cases l' with
      | nil => cases this
      | cons p l' =>
        rw [List.zipWith_cons_cons, List.map_cons, List.map_cons, ih l' (by simpa using this)]

/-- C42: no byte is written twice. -/
theorem C42_disjoint_partial (hn : 0 < n) (h : save e M a mine piece = .ok ws) (hh : a.header.Ok)
    (hp : ∀ i c p, c ∈ cellsOf a mine i → piece i c = some p → p.Ok ∧ (p.named = true ∨ p.count = 1)) :
    ((List.finRange n).flatMap ws).Pairwise Write.Disjoint := by
  obtain ⟨x, y, z, h1, ⟨b, h2⟩, -⟩ := C42_regions_partial hn h hh hp
  exact (h1.pairwise_iff fun h => Write.Disjoint.symm h).2 (chain_disjoint h2)

/-- Specification of which cells a process writes: those given by the user or all of its cells if none were given. -/
def SaveArgs.Asked (a : SaveArgs n) (mine : Fin n → List Nat) (i : Fin n) (l : List Nat) : Prop :=
  (a.toWrite i = [] → l = mine i) ∧ (a.toWrite i ≠ [] → l = a.toWrite i)

/-- C42: the offset stored in the list of cells for each cell is where data of the cell are written. -/
theorem C42_offsets (h : save e M a mine piece = .ok ws) (h1 : a.ids = true) (h2 : a.offsets = true) (i : Fin n) :
    ∃ (start : Nat) (l : List (Nat × Nat × Piece)), a.Asked mine i (l.map Prod.fst) ∧
      (∀ x ∈ l, piece i x.1 = some x.2.2 ∧ (x.2.1, x.2.2.bytes) ∈ ws i) ∧
      (start, enc64 e (l.flatMap fun x => [x.1, x.2.1])) ∈ ws i := by
  obtain ⟨h3, -, -, h4⟩ := save_inv h
  have hl := positions_length (M := M) h3 i
  have hl2 : (positions M a mine piece i).length = (piecesOf a mine piece i).length := by
    rw [hl, pieces_length h3]
  have hlist : listOf M a mine piece i =
      (List.zip (cellsOf a mine i) (positions M a mine piece i)).flatMap fun x => [x.1, x.2] := by
    unfold listOf; rw [h1, h2]; rfl
  have key : ∀ (cs ps : List Nat), (∀ c ∈ cs, (piece i c).isSome = true) → ps.length = cs.length →
      ∃ l : List (Nat × Nat × Piece), l.map Prod.fst = cs ∧
      (∀ x ∈ l, piece i x.1 = some x.2.2 ∧
        (x.2.1, x.2.2.bytes) ∈ List.zipWith (fun d p => (d, Piece.bytes p)) ps (cs.filterMap (piece i))) ∧
      (l.flatMap fun x => [x.1, x.2.1]) = (List.zip cs ps).flatMap fun x => [x.1, x.2] := by
    intro cs
    induction cs with
    | nil => intro ps _ _; exact ⟨[], rfl, nofun, by simp⟩
    | cons c cs ih =>
      intro ps hc hps
      cases ps with
      | nil => cases hps
      | cons p ps =>
        obtain ⟨l, l1, l2, l3⟩ := ih ps (fun x hx => hc x (List.mem_cons_of_mem _ hx)) (by simpa using hps)
        obtain ⟨q, hq⟩ := Option.isSome_iff_exists.1 (hc c (List.mem_cons_self ..))
        refine ⟨(c, p, q) :: l, by simp [l1], ?_, by simp [l3]⟩
        intro x hx
        rw [List.filterMap_cons, hq]
        simp only [List.zipWith_cons_cons]
        rcases List.mem_cons.1 hx with rfl | hx
        · exact ⟨hq, List.mem_cons_self ..⟩
        · exact ⟨(l2 x hx).1, List.mem_cons_of_mem _ (l2 x hx).2⟩
  obtain ⟨l, l1, l2, l3⟩ := key (cellsOf a mine i) (positions M a mine piece i) (h3 i) hl
  refine ⟨listStart M a mine i, l, ?_, fun x hx => ⟨(l2 x hx).1, ?_⟩, ?_⟩
  · rw [l1]
    exact ⟨fun h => if_pos h, fun h => if_neg h⟩
  · rw [h4]
    exact List.mem_append_right _ (l2 x hx).2
  · rw [h4, l3, ← hlist]
    exact List.mem_append_left _ (List.mem_append_right _ (List.mem_singleton.2 rfl))

/-- C42: the file after saving, whatever order writes of different processes happen in. -/
theorem C42_file_partial (hn : 0 < n) (h : save e M a mine piece = .ok ws) (hh : a.header.Ok)
    (hp : ∀ i c p, c ∈ cellsOf a mine i → piece i c = some p → p.Ok ∧ (p.named = true ∨ p.count = 1))
    {l : List Write} (hl : l.Perm ((List.finRange n).flatMap ws)) (f : File) :
    (∀ i, ∀ w ∈ ws i, (f.writes l).Holds w.1 w.2) ∧ ∀ k, k < a.offset → f.writes l k = f k := by
  obtain ⟨x, y, z, h1, ⟨b, h2⟩, -⟩ := C42_regions_partial hn h hh hp
  refine ⟨fun i w hw => writes_holds f ?_ w (hl.mem_iff.2 (List.mem_flatMap.2 ⟨i, List.mem_finRange i, hw⟩)),
    fun k hk => writes_outside f h2 (hl.trans h1) (Or.inl hk)⟩
  exact (hl.pairwise_iff fun h => Write.Disjoint.symm h).2 (C42_disjoint_partial hn h hh hp)

/-- Grid of two cells on two processes, of which the first has no data of known size. -/
def sampleMeta : Meta :=
  { mapping := Mapping.init, hood := 1, per := fun _ => true, geom := .no }

def samplePiece (k : Nat) : Piece := { named := true, count := k, size := 2, bytes := List.replicate (k * 2) 7 }

example : ∃ ws, save .little sampleMeta { offset := 5, header := samplePiece 3 : SaveArgs 2 }
    (fun i => if i = 0 then [1, 3] else [2]) (fun _ c => some (samplePiece c)) = .ok ws ∧
    (samplePiece 3).Ok ∧ ∀ c, (samplePiece c).Ok ∧ (samplePiece c).named = true :=
  ⟨_, by unfold save; rw [if_neg (by decide), if_neg (by decide), if_neg (by decide)],
    by unfold Piece.Ok; decide, fun c => ⟨by unfold Piece.Ok samplePiece; simp, rfl⟩⟩

/-- C42 is false of the code for datatypes that are not named when count is more than 1: here data of both cells are
written to the same bytes. -/
theorem C42_false : ∃ (ws : Fin 1 → List Write) (p : Piece), p.Ok ∧ p.named = false ∧ p.count = 2 ∧
    save .little sampleMeta { offset := 0, header := samplePiece 0 : SaveArgs 1 } (fun _ => [1, 2]) (fun _ _ => some p) =
      .ok ws ∧
    ¬ ((List.finRange 1).flatMap ws).Pairwise Write.Disjoint := by
  refine ⟨_, { named := false, count := 2, size := 1, bytes := [7, 8] }, rfl, rfl, rfl,
    by unfold save; rw [if_neg (by decide), if_neg (by decide), if_neg (by decide)], ?_⟩
  intro h
  rw [List.finRange_succ, List.flatMap_cons, List.pairwise_append] at h
  have hd := (List.pairwise_append.1 h.1).2.1
  have hw : dataWrites sampleMeta { offset := 0, header := samplePiece 0 : SaveArgs 1 } (fun _ => [1, 2])
      (fun _ _ => some { named := false, count := 2, size := 1, bytes := [7, 8] }) 0 =
      [(87, [7, 8]), (88, [7, 8])] := by decide
  rw [hw] at hd
  have := (List.pairwise_cons.1 hd).1 _ (List.mem_cons_self ..)
  rcases this with h | h | h | h
  · exact absurd h (by decide)
  · exact absurd h (by decide)
  · cases h
  · cases h

end Dccrg
