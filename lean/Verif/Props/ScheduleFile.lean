import Verif.SchedFile
import Verif.Props.Schedule
import Verif.Props.LoadGrid
/-!
# C101: saving and loading with every timing of processes

`saveP` and `loadP` are the programs of one process for saving and loading a grid, `save` and `load` describe all processes
at once. `EndsWith` says that processes end with given results whatever their timing, and never wait forever for each other.
-/
namespace Dccrg
variable {n n' : Nat} {D W : Type}

/-- C101: saving ends on all processes whatever their timing, and each writes what `save` says. Only the header given to
process 0 matters. -/
theorem C101_save {e : Order} {M : Meta} {a : SaveArgs n} {mine : Fin n → List Nat} {piece : Fin n → Nat → Option Piece}
    {ws : Fin n → List Write} (h : save e M a mine piece = .ok ws) {header : Fin n → Piece}
    (hh : ∀ i, i.1 = 0 → header i = a.header) :
    EndsWith (fun i => saveP (D := D) e M i a.offset (header i) (a.toWrite i) (mine i) (piece i) a.info a.ids a.offsets)
      ws :=
  (lock_save h hh).schedule

/-- C101: loading ends on all processes whatever their timing, with the result of `load`: `none` if false is returned. -/
theorem C101_load {e : Order} {f : File} {off : Nat} {header : Piece} {M0 : Meta} {dflt : D} {maxTag : Nat} (single : Bool)
    {ord : Fin n → List Nat → List Nat} {K : CellClass D} {calls : Nat} {r : Option (List Nat × Meta × Sys n D W)}
    (h : load e f off header M0 dflt maxTag ord K calls = .ok r) :
    EndsWith (fun i => loadP e f off header M0 dflt maxTag single i (ord i) K calls)
      (fun i => r.map fun x => (x.1, x.2.1, x.2.2 i)) :=
  (lock_load single h).schedule

theorem mem_le_sum {l : List Nat} {x : Nat} (h : x ∈ l) : x ≤ l.sum := by
  induction l with
  | nil => cases h
  | cons a l ih =>
    rw [List.sum_cons]
    rcases List.mem_cons.1 h with h | h
    · omega
    · have := ih h
      omega

theorem fileWrite_other (f : File) {w : Write} {k : Nat} (h : k < w.1 ∨ w.1 + w.2.length ≤ k) : f.write w k = f k := by
  unfold File.write
  split
  · rw [List.getElem?_eq_none (by omega)]
  · rfl

theorem fileWrites_other (f : File) {l : List Write} {k : Nat} (h : ∀ w ∈ l, k < w.1 ∨ w.1 + w.2.length ≤ k) :
    f.writes l k = f k := by
  induction l generalizing f with
  | nil => rfl
  | cons w l ih =>
    show (f.write w).writes l k = f k
    rw [ih _ fun x hx => h x (List.mem_cons_of_mem _ hx), fileWrite_other f (h w List.mem_cons_self)]

/-- Order of writes that have no bytes in common doesn't matter. -/
theorem writes_order (f : File) {l l' : List Write} (h : l.Pairwise Write.Disjoint) (hp : l'.Perm l) :
    f.writes l' = f.writes l := by
  have h' : l'.Pairwise Write.Disjoint := (hp.pairwise_iff fun h => Write.Disjoint.symm h).2 h
  funext k
  by_cases hk : ∃ w ∈ l, w.1 ≤ k ∧ k < w.1 + w.2.length
  · obtain ⟨w, hw, h1, h2⟩ := hk
    have e1 := writes_holds f h w hw (k - w.1) (by omega)
    have e2 := writes_holds f h' w (hp.mem_iff.2 hw) (k - w.1) (by omega)
    rw [show w.1 + (k - w.1) = k by omega] at e1 e2
    rw [e1, e2]
  · have : ∀ w ∈ l, k < w.1 ∨ w.1 + w.2.length ≤ k := by
      intro w hw
      apply Classical.byContradiction
      intro hc
      exact hk ⟨w, hw, by omega, by omega⟩
    rw [fileWrites_other f this, fileWrites_other f fun w hw => this w (hp.mem_iff.1 hw)]

/-- C101: the file after saving is the same whatever the order in which writes of processes happen. -/
theorem C101_file_partial {e : Order} {M : Meta} {a : SaveArgs n} {mine : Fin n → List Nat} {piece : Fin n → Nat → Option Piece}
    {ws : Fin n → List Write} (hn : 0 < n) (h : save e M a mine piece = .ok ws) (hh : a.header.Ok)
    (hp : ∀ i c p, c ∈ cellsOf a mine i → piece i c = some p → p.Ok ∧ (p.named = true ∨ p.count = 1))
    {l : List Write} (hl : l.Perm ((List.finRange n).flatMap ws)) (f : File) :
    f.writes l = f.writes ((List.finRange n).flatMap ws) :=
  writes_order f (C42_disjoint_partial hn h hh hp) hl

/-- C101: a grid that is saved by any number of processes and loaded by any number of processes, at their own pace both
times: saving ends, loading ends whatever the order in which processes wrote and were loaded, with the same grid `s'`, whose
cells and data are those of the saved grid. -/
theorem C101_restart_partial {e : Order} {M M0 : Meta} (hn : 0 < n) (hn' : 0 < n') (hok : M.mapping.OK) (hM : M.Readable)
    (hk : M0.geom.id = M.geom.id) {dflt : D} {maxTag : Nat} {s : Sys n D W} (hs : Reachable M.grid dflt maxTag s)
    {mine : Fin n → List Nat}
    (hmine : ∀ i, (mine i).Nodup ∧ ∀ c, c ∈ mine i ↔ ((s i).data c).isSome = true) {K : CellClass D}
    {off : Nat} {header header' : Piece} (hh : header.Ok) (hh' : header'.Ok)
    (hhh : header'.count = header.count ∧ header'.size = header.size) (hi : header.size * header.count ≤ intMax)
    (f : File) {d0 : D} {calls : Nat} (hK : ∀ i c d, (s i).data c = some d → (K.saved d).Ok ∧
      ((K.saved d).named = true ∨ (K.saved d).count = 1) ∧ Feeds K calls d0 (K.saved d).bytes d)
    {maxTag' : Nat} (htag : M.grid.last ≤ maxTag')
    (hcells : 2 * totalCells { offset := off, header := header } mine ≤ intMax)
    (hend : fileEnd M { offset := off, header := header } mine (fun i c => ((s i).data c).map K.saved) < 2 ^ 64)
    {ord : Fin n' → List Nat → List Nat} (hord : ∀ i l x, x ∈ ord i l ↔ x ∈ l)
    {headers : Fin n → Piece} (hhs : ∀ i, i.1 = 0 → headers i = header) (single : Bool) :
    ∃ (ws : Fin n → List Write) (s' : Sys n' D W),
      EndsWith (fun i => saveP (D := D) e M i off (headers i) [] (mine i) (fun c => ((s i).data c).map K.saved)
        true true true) ws ∧
      (∀ l : List Write, l.Perm ((List.finRange n).flatMap ws) →
        EndsWith (fun i => loadP e (f.writes l) off header' M0 d0 maxTag' single i (ord i) K calls)
          (fun i => some (header.bytes, M, s' i))) ∧
      ∀ i j c, exist (s' j).owner c = exist (s i).owner c ∧
        ∀ d, (s i).data c = some d → (s' j).owner c = some j → (s' j).data c = some d := by
  have hlen : ∀ i, (mine i).length * 2 ≤ intMax := by
    intro i
    have h1 : (mine i).length ≤ totalCells { offset := off, header := header : SaveArgs n } mine := by
      have e : (cellsOf { offset := off, header := header : SaveArgs n } mine i).length = (mine i).length := by
        rw [show cellsOf { offset := off, header := header : SaveArgs n } mine i = mine i from if_pos rfl]
      rw [← e]
      exact mem_le_sum (List.mem_map.2 ⟨i, List.mem_finRange i, rfl⟩)
    omega
  obtain ⟨ws, hws⟩ := C41_save (e := e) (M := M) hmine (K := K) (off := off) hi hlen
  obtain ⟨s', h1, -, -, h2⟩ := C41_load_partial hn hn' hok hM hk hs hmine hh hh' hhh hws (List.Perm.refl _) f hK htag hcells
    hend hord
  have hdis : ((List.finRange n).flatMap ws).Pairwise Write.Disjoint := by
    refine C42_disjoint_partial hn hws hh ?_
    intro i c p _ hp
    obtain ⟨d, hd, rfl⟩ := Option.map_eq_some_iff.1 hp
    exact ⟨(hK i c d hd).1, (hK i c d hd).2.1⟩
  refine ⟨ws, s', C101_save hws hhs, fun l hl => ?_, h2⟩
  rw [writes_order f hdis hl]
  exact C101_load single h1

/-- The hypotheses of C101_restart_partial, C101_save and C101_file_partial are met by a grid with refined cells on two processes, saved
with a header and loaded with three processes. -/
example : ∃ (ws : Fin 2 → List Write) (s : Sys 2 Nat Nat) (s' : Sys 3 Nat Nat) (mine : Fin 2 → List Nat),
    EndsWith (fun i => saveP (D := Nat) .little tinyMeta i 11 (samplePiece 3) [] (mine i)
      (fun c => ((s i).data c).map wordClass.saved) true true true) ws ∧
    EndsWith (fun i => loadP .little (File.writes (fun _ => none) ((List.finRange 2).flatMap ws)) 11 (samplePiece 3) tinyMeta
      0 146 true i (fun l => l) wordClass 1) (fun i => some ((samplePiece 3).bytes, tinyMeta, s' i)) := by
  obtain ⟨k, t, t1, -⟩ := tiny_family
  obtain ⟨s, mine, ws, h1, h2, h3, h4, h5, h6, h7, h8, h9, h10, -⟩ := tiny_saved t1.reachable
  obtain ⟨ws, s', e1, e2, -⟩ := C101_restart_partial (n' := 3) (W := Nat) (M0 := tinyMeta) (e := .little) (off := 11) (by omega) (by omega) h1 h2 rfl h3 h4
    h5 h5 ⟨rfl, rfl⟩ (by decide) (fun _ => none) h7 h8 h9 h10 (ord := fun _ l => l) (fun _ _ _ => Iff.rfl)
    (headers := fun _ => samplePiece 3) (fun _ _ => rfl) true
  exact ⟨ws, s, s', mine, e1, e2 _ (List.Perm.refl _)⟩

/-- Data of two bytes which are not of a named datatype. -/
def pairPiece (a b : Nat) : Piece := { named := false, count := 2, size := 1, bytes := [a, b] }

/-- C101 is false of the code for datatypes that are not named when count is more than 1: a byte of the file depends on
which of two processes writes last. -/
theorem C101_false : ∃ (ws : Fin 2 → List Write) (k : Nat), (pairPiece 7 8).Ok ∧
    save .little sampleMeta { offset := 0, header := samplePiece 0 : SaveArgs 2 } (fun i => [i.1 + 1])
      (fun _ _ => some (pairPiece 7 8)) = .ok ws ∧
    EndsWith (fun i => saveP (D := Nat) .little sampleMeta i 0 (samplePiece 0) [] [i.1 + 1] (fun _ => some (pairPiece 7 8))
      true true true) ws ∧
    File.writes (fun _ => none) (ws 0 ++ ws 1) k = some 7 ∧ File.writes (fun _ => none) (ws 1 ++ ws 0) k = some 8 := by
  obtain ⟨ws, hs⟩ : ∃ ws, save .little sampleMeta { offset := 0, header := samplePiece 0 : SaveArgs 2 } (fun i => [i.1 + 1])
      (fun _ _ => some (pairPiece 7 8)) = .ok ws :=
    ⟨_, by unfold save; rw [if_neg (by decide), if_neg (by decide), if_neg (by decide)]⟩
  refine ⟨ws, 88, rfl, hs, C101_save hs fun _ _ => rfl, ?_⟩
  have h := (save_inv hs).2.2.2
  rw [h 0, h 1]
  decide

end Dccrg
