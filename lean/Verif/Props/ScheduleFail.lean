import Verif.SchedStuck
import Verif.Props.ScheduleFile
import Verif.Props.Interrupted
/-!
# C102: failures of one process are not hidden from others

`NoneReturns P p`: process `p` fails and no process returns from programs `P`, whatever their timing.
-/
namespace Dccrg
variable {n : Nat} {D W : Type}

/-- Process `p` fails and no process ends with a result: all executions are finite, none of them has a process that ended
with a result, and as long as `p` has not failed some process can continue. -/
def NoneReturns {V α : Type} (P : Fin n → Prog n V α) (p : Fin n) : Prop :=
  ∃ K, ∀ k b, World.Run k (World.init P) b → k ≤ K ∧ (∀ q a, b.prog q ≠ .done a) ∧
    (b.prog p ≠ .fail → ∃ q c, World.Step false q b c)

theorem break_sync {α : Type} {p : Fin n} (kind : Nat) {P : Fin n → Prog n (Msg D) α} (h : Break p P) :
    Break p (fun i => syncP kind (P i)) :=
  .step (.coll kind (fun _ => some (Msg.num 0)) (fun _ => Msg.num 0) fun i _ => P i) h

theorem meet_sync {α : Type} (kind : Nat) {P Q : Fin n → Prog n (Msg D) α} (h : Meet P Q) :
    Meet (fun i => syncP kind (P i)) Q :=
  .step (.coll kind (fun _ => some (Msg.num 0)) (fun _ => Msg.num 0) fun i _ => P i) h

theorem alone_sync {α : Type} (kind : Nat) {P : Prog n (Msg D) α} {a : α} (h : P.Alone a) : (syncP kind P).Alone a :=
  .coll (fun _ => Msg.num 0) (fun _ => rfl) h

theorem break_all {V α : Type} (p : Fin n) : Break p (fun _ : Fin n => (.fail : Prog n V α)) :=
  .stop rfl fun _ => Or.inl rfl

section
variable {e : Order} {M : Meta} {offset : Nat} {header : Fin n → Piece} {toWrite mine : Fin n → List Nat}
  {piece : Fin n → Nat → Option Piece} {info ids offsets : Bool}

/-- C102: if one of the cells to be saved by process `p` is not a local cell of it then saving returns on no process. -/
theorem C102_cells {p : Fin n} (hh : ∀ i : Fin n, i.1 = 0 → (header i).size * (header i).count ≤ intMax) {c : Nat}
    (hc : c ∈ if toWrite p = [] then mine p else toWrite p) (hp : piece p c = none) :
    NoneReturns (fun i => saveP (D := D) e M i offset (header i) (toWrite i) (mine i) (piece i) info ids offsets) p := by
  refine Break.schedule (break_sync _ ?_)
  refine Break.congr (fun i => if_neg fun hc => ?_) ?_
  · have := hh i hc.1
    omega
  have hz : ∃ x, ∀ i : Fin n, i.1 = 0 → (header i).size * (header i).count = x :=
    ⟨(header ⟨0, by have := p.2; omega⟩).size * (header ⟨0, by have := p.2; omega⟩).count, fun i hi => by
      rw [show i = ⟨0, by have := p.2; omega⟩ from Fin.ext hi]⟩
  obtain ⟨x, hx⟩ := hz
  refine Break.after (lock_bcast _ hx) ?_
  refine Break.after (lock_sum _) ?_
  refine .stop (if_pos ⟨c, hc, by rw [hp]; rfl⟩) fun q => ?_
  by_cases hq : ∃ c ∈ (if toWrite q = [] then mine q else toWrite q), (piece q c).isNone = true
  · exact Or.inl (if_pos hq)
  · right
    rw [if_neg hq]
    apply Prog.Needs.bind
    rfl

end

/-- The hypotheses of C102_cells are met. -/
example : NoneReturns (fun i : Fin 2 => saveP (D := Nat) .little sampleMeta i 0 (samplePiece 3) (if i = 0 then [] else [2, 1])
      [i.1 + 1] (fun c => if c = i.1 + 1 then some (samplePiece 1) else none) true true true) 1 :=
  C102_cells (p := (1 : Fin 2)) (c := 1) (by decide) (by decide) (by decide)

section
variable {e : Order} {f : File} {off : Nat} {header : Piece} {M0 : Meta} {dflt : D} {maxTag : Nat} {single : Bool}
  {ord : Fin n → List Nat → List Nat} {K : CellClass D} {calls : Nat}

/-- C102: if one of the ids in the file is zero, for example because it was never written, then all processes abort and
loading returns on none of them. -/
theorem C102_load {M : Meta} {o : Nat} {s : Sys n D W} (p : Fin n) (h1 : header.size * header.count ≤ intMax)
    (hm : readMeta e f (off + header.size * header.count) M0 = some (M, o)) (hs : createGrid M.grid n dflt maxTag = .ok s)
    (h2 : 2 * dec e (f.get o 8) ≤ intMax)
    (h : ∃ x ∈ pairsOf (dec64 e (2 * dec e (f.get o 8)) (f.get (o + 8) (2 * dec e (f.get o 8) * 8))), x.1 = 0) :
    NoneReturns (fun i => loadP (W := W) e f off header M0 dflt maxTag single i (ord i) K calls) p := by
  refine Break.schedule (break_sync _ (break_sync _ ?_))
  refine Break.congr (fun i => if_neg (by omega)) ?_
  refine break_sync _ ?_
  refine Break.after (lock_meta _ _ _ _) ?_
  rw [hm]
  refine Break.after (lock_ofOut (Out.collect_inv hs)) ?_
  refine break_sync _ ?_
  refine Break.congr (fun i => if_neg (by omega)) ?_
  refine break_sync _ ?_
  refine Break.congr (fun i => if_pos ?_) (break_all p)
  obtain ⟨x, hx, h0⟩ := h
  exact List.any_eq_true.2 ⟨x, hx, beq_iff_eq.2 h0⟩

/-- What processes do after cells of the file have been created. -/
theorem meet_load {M : Meta} {o : Nat} {s s' : Sys n D W} (h1 : header.size * header.count ≤ intMax)
    (hm : readMeta e f (off + header.size * header.count) M0 = some (M, o)) (hs : createGrid M.grid n dflt maxTag = .ok s)
    (h2 : 2 * dec e (f.get o 8) ≤ intMax) {all : List (Nat × Nat)}
    (hall : all = pairsOf (dec64 e (2 * dec e (f.get o 8)) (f.get (o + 8) (2 * dec e (f.get o 8) * 8))))
    (h3 : all.any (fun x => x.1 == 0) = false) {mine : Fin n → List (Nat × Nat)}
    (hmine : mine = fun i => all.filter fun x => overlapsLocal M.grid i (s i).owner x.1)
    (hl : loadCells M.grid dflt maxTag ord (noCopies s) (fun i => (mine i).map Prod.fst) = .ok s') :
    Meet (fun i => loadP (W := W) e f off header M0 dflt maxTag single i (ord i) K calls)
      (fun i => if localCount M.grid (s' i) ≠ (mine i).length then .fail
        else (continueP K f calls (s' i) (mine i)).bind fun p =>
          syncP closeKind <| .done (some (f.read off header.bytes, M, p))) := by
  subst hall hmine
  refine meet_sync _ (meet_sync _ ?_)
  refine Meet.congr (fun i => if_neg (by omega)) ?_
  refine meet_sync _ ?_
  refine Meet.after (lock_meta _ _ _ _) ?_
  rw [hm]
  refine Meet.after (lock_ofOut (Out.collect_inv hs)) ?_
  refine meet_sync _ ?_
  refine Meet.congr (fun i => if_neg (by omega)) ?_
  refine meet_sync _ ?_
  refine Meet.congr (fun i => if_neg (by rw [h3]; exact Bool.false_ne_true)) ?_
  exact Meet.after (lock_loadCells single hl) (.refl _)

end

/-- File in which only cell 2 of a grid of two cells has been saved. -/
def halfFile : File :=
  match createGrid (W := Nat) pairMeta.grid 1 5 10 with
  | .ok s =>
    match save .little pairMeta { offset := 0, header := samplePiece 0, toWrite := fun _ => [2] } (fun _ => [1, 2])
      (fun i c => ((s i).data c).map wordClass.saved) with
    | .ok ws => File.writes (fun _ => none) (ws 0)
    | _ => fun _ => none
  | _ => fun _ => none

/-- Loading of the file until cells have been created: whether process 0 fails and process 1 does not, and what process 1
has at the end. -/
def halfTest : Option (Option Nat × Option (Fin 2)) :=
  match readMeta .little halfFile 0 pairMeta with
  | some (M, o) =>
    match createGrid (D := Nat) (W := Nat) M.grid 2 0 10 with
    | .ok s =>
      let all := pairsOf (dec64 .little (2 * dec .little (halfFile.get o 8)) (halfFile.get (o + 8) (2 * dec .little (halfFile.get o 8) * 8)))
      let mine := fun i => all.filter fun x => overlapsLocal M.grid i (s i).owner x.1
      if 2 * dec .little (halfFile.get o 8) ≤ intMax ∧ all.any (fun x => x.1 == 0) = false then
        match loadCells M.grid 0 10 (fun _ l => l) (noCopies s) fun i => (mine i).map Prod.fst with
        | .ok s' =>
          if localCount M.grid (s' 0) ≠ (mine 0).length ∧ localCount M.grid (s' 1) = (mine 1).length then
            match continueLoading wordClass halfFile (s' 1) (mine 1) with
            | .ok r => some (r.1.data 2, r.1.owner 1)
            | _ => none
          else none
        | _ => none
      else none
    | _ => none
  | none => none

/-- C102 is false of the code: a file in which only some cells were saved is loaded by two processes. Process 0 aborts
because one of its cells is not in the file, after its last communication with process 1, on which loading returns as if
it had succeeded. -/
theorem C102_false : ∃ (k : Nat) (b : World 2 (Msg Nat) (Option (List Nat × Meta × Proc 2 Nat Nat)))
    (x : List Nat × Meta × Proc 2 Nat Nat),
    World.Run k (World.init fun i => loadP .little halfFile 0 (samplePiece 0) pairMeta 0 10 true i (fun l => l) wordClass 1) b ∧
    b.prog 0 = .fail ∧ b.prog 1 = .done (some x) ∧ x.2.2.data 2 = some 5 ∧ x.2.2.owner 1 = some 0 := by
  have h : halfTest = some (some 5, some 0) := by decide +kernel
  unfold halfTest at h
  split at h
  · rename_i M o hm
    split at h
    · rename_i s hs
      dsimp only at h
      split at h
      · rename_i h2
        split at h
        · rename_i s' hl
          split at h
          · rename_i h3
            split at h
            · rename_i r hr
              injection h with h
              injection h with h4 h5
              have hmeet := meet_load (n := 2) (W := Nat) (off := 0) (header := samplePiece 0) (single := true) (K := wordClass)
                (calls := 1) (by decide) hm hs h2.1 rfl h2.2 rfl hl
              obtain ⟨k, b, h6, h7, h8⟩ := hmeet.alone (q := 1) (r := some (halfFile.read 0 (samplePiece 0).bytes, M, r.1)) (by
                rw [if_neg (fun h => h h3.2), continueP, hr]
                exact alone_sync _ (alone_sync _ (alone_sync _ (.done _))))
              refine ⟨k, b, _, h6, ?_, h7, h4, h5⟩
              rw [h8 0 (by decide)]
              exact if_pos h3.1
            · cases h
          · cases h
        · cases h
      · cases h
    · cases h
  · cases h

/-- File of a grid of two cells whose saving stopped before ids of cells were written. -/
def emptyListFile : File :=
  File.writes (fun _ => none) (headWrites .little pairMeta { offset := 0, header := samplePiece 0 : SaveArgs 1 } (fun _ => [1, 2]) 0)

/-- The hypotheses of C102_load are met. -/
example : ∃ (M : Meta) (o : Nat) (s : Sys 2 Nat Nat), readMeta .little emptyListFile 0 pairMeta = some (M, o) ∧
    createGrid M.grid 2 0 10 = .ok s ∧ 2 * dec .little (emptyListFile.get o 8) ≤ intMax ∧
    ∃ x ∈ pairsOf (dec64 .little (2 * dec .little (emptyListFile.get o 8))
      (emptyListFile.get (o + 8) (2 * dec .little (emptyListFile.get o 8) * 8))), x.1 = 0 := by
  have h : (match readMeta .little emptyListFile 0 pairMeta with
      | some (M, o) =>
        match createGrid (D := Nat) (W := Nat) M.grid 2 0 10 with
        | .ok _ => decide (2 * dec .little (emptyListFile.get o 8) ≤ intMax) &&
            (pairsOf (dec64 .little (2 * dec .little (emptyListFile.get o 8))
              (emptyListFile.get (o + 8) (2 * dec .little (emptyListFile.get o 8) * 8)))).any fun x => x.1 == 0
        | _ => false
      | none => false) = true := by decide +kernel
  split at h
  · rename_i M o hm
    split at h
    · rename_i s hs
      rw [Bool.and_eq_true, List.any_eq_true] at h
      obtain ⟨h1, x, h2, h3⟩ := h
      exact ⟨M, o, s, hm, hs, of_decide_eq_true h1, x, h2, beq_iff_eq.1 h3⟩
    · cases h
  · cases h

end Dccrg
