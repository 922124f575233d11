import Verif.Props.Loaded
import Verif.Props.LoadGrid
/-!
# C114: restarting any number of times

Lives of grids: initialization, operations, copying, and saving to a file that is loaded by another program with any number of processes.
`save` is defined in Verif/Save.lean, `load` in Verif/LoadGrid.lean and `noCopies` in Verif/LoadBare.lean.
-/
namespace Dccrg
open Cfg
variable {n n' : Nat} {D W : Type} {M : Meta} {dflt : D} {maxTag : Nat} {s s' : Sys n D W}

/-- How a grid of `n` processes is saved, and loaded by `n'` processes. -/
structure Restart (n n' : Nat) (D : Type) where
  /-- byte order of the computer -/
  e : Order
  /-- geometry of the grid into which the file is loaded -/
  M0 : Meta
  /-- datatypes of cells -/
  K : CellClass D
  /-- offset of the grid in the file -/
  off : Nat
  /-- header when saving -/
  header : Piece
  /-- header when loading -/
  header' : Piece
  /-- contents of the file before saving -/
  f : File
  /-- order of local cells when saving -/
  mine : Fin n → List Nat
  /-- value of new cells when loading -/
  d0 : D
  /-- number of calls to `continue_loading_grid_data` -/
  calls : Nat
  /-- maximum tag of messages when loading -/
  maxTag : Nat
  /-- orders in which cells are refined when loading -/
  ord : Fin n' → List Nat → List Nat

/-- Arguments are as the documentation requires and the file is not too large, see C41. -/
structure Restart.Fits (r : Restart n n' D) (M : Meta) (s : Sys n D W) : Prop where
  procs : 0 < n'
  geom : r.M0.geom.id = M.geom.id
  mine : ∀ i, (r.mine i).Nodup ∧ ∀ c, c ∈ r.mine i ↔ ((s i).data c).isSome = true
  header : r.header.Ok ∧ r.header'.Ok ∧ r.header'.count = r.header.count ∧ r.header'.size = r.header.size
  cells : ∀ i c d, (s i).data c = some d → (r.K.saved d).Ok ∧
    ((r.K.saved d).named = true ∨ (r.K.saved d).count = 1) ∧ Feeds r.K r.calls r.d0 (r.K.saved d).bytes d
  tags : M.grid.last ≤ r.maxTag
  count : 2 * totalCells { offset := r.off, header := r.header } r.mine ≤ intMax
  fileEnd : fileEnd M { offset := r.off, header := r.header } r.mine (fun i c => ((s i).data c).map r.K.saved) < 2 ^ 64
  ord : ∀ i l x, x ∈ r.ord i l ↔ x ∈ l

/-- Grid `s'` is loaded from the file to which `s` is saved, processes write in any order. -/
def Restart.Gives (r : Restart n n' D) (M : Meta) (s : Sys n D W) (s' : Sys n' D W) : Prop :=
  ∃ (ws : Fin n → List Write) (l : List Write) (h : List Nat),
    save r.e M { offset := r.off, header := r.header } r.mine (fun i c => ((s i).data c).map r.K.saved) = .ok ws ∧
    l.Perm ((List.finRange n).flatMap ws) ∧
    load r.e (r.f.writes l) r.off r.header' r.M0 r.d0 r.maxTag r.ord r.K r.calls = .ok (some (h, M, s'))

/-- Grids that have been initialized and then operated on, copied and restarted any number of times in any order. -/
inductive Life (M : Meta) {W : Type} : (n : Nat) → {D : Type} → D → Nat → Sys n D W → Prop
  | start {n : Nat} {D : Type} {dflt : D} {maxTag : Nat} {s : Sys n D W} : 0 < n → createGrid M.grid n dflt maxTag = .ok s →
      Life M n dflt maxTag s
  | step {n : Nat} {D : Type} {dflt : D} {maxTag : Nat} {s s' : Sys n D W} (op : Op n D W) : Life M n dflt maxTag s → op.Ok s →
      step M.grid dflt maxTag s op = .ok s' → Life M n dflt maxTag s'
  | copy {n : Nat} {D D0 : Type} {dflt : D} {dflt0 : D0} {maxTag : Nat} {s : Sys n D0 W} : Life M n dflt0 maxTag s →
      Life M n dflt maxTag (copyGrid M.grid dflt s)
  | restart {n n' : Nat} {D : Type} {dflt : D} {maxTag : Nat} {s : Sys n D W} {s' : Sys n' D W} (r : Restart n n' D) :
      Life M n dflt maxTag s → r.Fits M s → r.Gives M s s' → Life M n' r.d0 r.maxTag s'

/-- State `s` is one that could be reached without loading, except that copies of remote neighbors may be missing. -/
def Almost (g : Cfg) (dflt : D) (maxTag : Nat) (s : Sys n D W) : Prop :=
  ∃ s0, Reachable g dflt maxTag s0 ∧ (s = s0 ∨ Bare g dflt s0 ∧ s = noCopies s0)

theorem Almost.inv {g : Cfg} (hw : g.WF) (hn : 0 < n) (h : Almost g dflt maxTag s) : ∃ w, Inv g w s := by
  obtain ⟨s0, hr, hcase⟩ := h
  obtain ⟨w, hi⟩ := hr.inv hw hn
  rcases hcase with e | ⟨-, e⟩
  · rw [e]; exact ⟨w, hi⟩
  · rw [e]; exact ⟨w, hi.noCopies⟩

/-- Restarting works and keeps cells and their data. -/
theorem Almost.restart (hok : M.mapping.OK) (hM : M.Readable) (hn : 0 < n) (h : Almost M.grid dflt maxTag s)
    {r : Restart n n' D} (hr : r.Fits M s) {ws : Fin n → List Write}
    (hsave : save r.e M { offset := r.off, header := r.header } r.mine (fun i c => ((s i).data c).map r.K.saved) = .ok ws)
    {l : List Write} (hl : l.Perm ((List.finRange n).flatMap ws)) :
    ∃ s' : Sys n' D W,
      load r.e (r.f.writes l) r.off r.header' r.M0 r.d0 r.maxTag r.ord r.K r.calls = .ok (some (r.header.bytes, M, s')) ∧
      Almost M.grid r.d0 r.maxTag s' ∧ ∀ i j c, exist (s' j).owner c = exist (s i).owner c ∧
        ∀ d, (s i).data c = some d → (s' j).owner c = some j → (s' j).data c = some d := by
  obtain ⟨s0, h0, hcase⟩ := h
  have hd : ∀ i, (s i).data = (s0 i).data := by
    intro i
    rcases hcase with e | ⟨-, e⟩ <;> rw [e] <;> rfl
  have ho : ∀ i, (s i).owner = (s0 i).owner := by
    intro i
    rcases hcase with e | ⟨-, e⟩ <;> rw [e] <;> rfl
  have h1 := hr.mine
  have h2 := hr.cells
  have h3 := hr.fileEnd
  simp only [hd] at h1 h2 h3 hsave
  obtain ⟨s', e1, e2, e3, e4⟩ := C41_load_partial (W := W) hn hr.procs hok hM hr.geom h0 h1 hr.header.1 hr.header.2.1 hr.header.2.2
    hsave hl r.f h2 hr.tags hr.count h3 hr.ord
  refine ⟨s', e1, ?_, fun i j c => by rw [hd, ho]; exact e4 i j c⟩
  by_cases hlv : ∃ i c, exist (s0 i).owner c = true ∧ 0 < M.grid.lvl c
  · exact ⟨s', e2 hlv, Or.inl rfl⟩
  · obtain ⟨s'', f1, f2, f3⟩ := e3 (fun i c hc => Classical.byContradiction fun h => hlv ⟨i, c, hc, by omega⟩)
    exact ⟨s'', f1, Or.inr ⟨f2, f3⟩⟩

/-- C114: however many times a grid is restarted and whatever is done in between, it is in a state that could be reached
without restarting, except that copies of remote neighbors may be missing if no cell has been refined since, see C81. -/
theorem C114_states_partial (hok : M.mapping.OK) (hM : M.Readable) (h : Life M n dflt maxTag s) :
    0 < n ∧ Almost M.grid dflt maxTag s := by
  have hw : M.grid.WF := grid_wf hok
  induction h with
  | start hn hs => exact ⟨hn, _, .init hs, Or.inl rfl⟩
  | @step n D dflt maxTag s s' op _ ho h1 ih =>
    obtain ⟨hn, s0, hr, hcase⟩ := ih
    refine ⟨hn, ?_⟩
    rcases hcase with e | ⟨hb, e⟩
    · subst e
      exact ⟨s', .step op hr ho h1, Or.inl rfl⟩
    · subst e
      have ho0 : op.Ok s0 := by cases op <;> exact ho
      rcases step_bare hw hr hb h1 with h | ⟨s2, h, hb2, e, -⟩ | ⟨e, -⟩
      · exact ⟨s', .step op hr ho0 h, Or.inl rfl⟩
      · exact ⟨s2, .step op hr ho0 h, Or.inr ⟨hb2, e⟩⟩
      · exact ⟨s0, hr, Or.inr ⟨hb, e⟩⟩
  | @copy n D D0 dflt dflt0 maxTag s _ ih =>
    obtain ⟨hn, s0, hr, hcase⟩ := ih
    have e : copyGrid M.grid dflt s = copyGrid M.grid dflt s0 := by
      rcases hcase with e | ⟨-, e⟩ <;> rw [e] <;> rfl
    exact ⟨hn, _, .copy hr, Or.inl e⟩
  | restart r _ hf hg ih =>
    obtain ⟨hn, ha⟩ := ih
    obtain ⟨ws, l, h, h1, h2, h3⟩ := hg
    obtain ⟨s', e1, e2, -⟩ := ha.restart hok hM hn hf h1 h2
    rw [h3] at e1
    injection e1 with e1
    injection e1 with e1
    injection e1 with _ e1
    injection e1 with _ e1
    subst e1
    exact ⟨hf.procs, e2⟩

/-- Everything that can be reached without restarting. -/
theorem Reachable.life (hn : 0 < n) (h : Reachable M.grid dflt maxTag s) : Life M n dflt maxTag s := by
  induction h with
  | init h => exact .start hn h
  | step op _ ho h1 ih => exact .step op ih ho h1
  | copy _ ih => exact .copy ih

/-- C114: every operation succeeds if tags are large enough. -/
theorem C114_operations (hok : M.mapping.OK) (hM : M.Readable) (h : Life M n dflt maxTag s) (hm : M.grid.last ≤ maxTag)
    (op : Op n D W) (ho : op.Ok s) (hk : op.Known M.grid s) :
    ∃ s', step M.grid dflt maxTag s op = .ok s' ∧ Life M n dflt maxTag s' := by
  obtain ⟨hn, ha⟩ := C114_states_partial hok hM h
  obtain ⟨w, hi⟩ := ha.inv (grid_wf hok) hn
  obtain ⟨s', h1⟩ := step_ok (grid_wf hok) hn dflt hi hm op ho hk
  exact ⟨s', h1, .step op h ho h1⟩

/-- C114: and so does every further restart, in whichever order processes write. -/
theorem C114_restart_partial (hok : M.mapping.OK) (hM : M.Readable) (h : Life M n dflt maxTag s) {r : Restart n n' D} (hr : r.Fits M s)
    {ws : Fin n → List Write}
    (hsave : save r.e M { offset := r.off, header := r.header } r.mine (fun i c => ((s i).data c).map r.K.saved) = .ok ws)
    {l : List Write} (hl : l.Perm ((List.finRange n).flatMap ws)) :
    ∃ s' : Sys n' D W,
      load r.e (r.f.writes l) r.off r.header' r.M0 r.d0 r.maxTag r.ord r.K r.calls = .ok (some (r.header.bytes, M, s')) ∧
      Life M n' r.d0 r.maxTag s' := by
  obtain ⟨hn, ha⟩ := C114_states_partial hok hM h
  obtain ⟨s', e1, -⟩ := ha.restart hok hM hn hr hsave hl
  exact ⟨s', e1, .restart r h hr ⟨ws, l, _, hsave, hl, e1⟩⟩

/-- Restarts one after another. -/
inductive Restarts (M : Meta) {D W : Type} : {n n' : Nat} → Sys n D W → Sys n' D W → Prop
  | refl {n : Nat} (s : Sys n D W) : Restarts M s s
  | step {n n' n'' : Nat} {s : Sys n D W} {s' : Sys n' D W} {s'' : Sys n'' D W} (r : Restart n' n'' D) :
      Restarts M s s' → r.Fits M s' → r.Gives M s' s'' → Restarts M s s''

/-- C114: after any number of restarts the grid has the same cells with the same data. -/
theorem C114_kept_partial (hok : M.mapping.OK) (hM : M.Readable) (h : Life M n dflt maxTag s) {s' : Sys n' D W}
    (hs : Restarts M s s') : (∀ i j c, exist (s' j).owner c = exist (s i).owner c) ∧
      (∀ i j c, (s i).owner c = some i → (s' j).owner c = some j → (s' j).data c = (s i).data c) ∧
      ∃ dflt' maxTag', Life M n' dflt' maxTag' s' := by
  induction hs with
  | refl =>
    obtain ⟨hn, ha⟩ := C114_states_partial hok hM h
    obtain ⟨w, hi⟩ := ha.inv (grid_wf hok) hn
    refine ⟨fun i j c => by rw [hi.sys.owner, hi.sys.owner], fun i j c h1 h2 => ?_, _, _, h⟩
    rw [hi.sys.owner] at h1 h2
    rw [h1] at h2
    injection h2 with h2
    rw [h2]
  | @step n1 n2 s s1 s2 r _ hf hg ih =>
    obtain ⟨a1, a2, d1, m1, hl1⟩ := ih h
    obtain ⟨hn, ha⟩ := C114_states_partial hok hM h
    obtain ⟨hn1, ha1⟩ := C114_states_partial hok hM hl1
    obtain ⟨w, hi⟩ := ha.inv (grid_wf hok) hn
    obtain ⟨w1, hi1⟩ := ha1.inv (grid_wf hok) hn1
    obtain ⟨ws, l, h', h1, h2, h3⟩ := hg
    obtain ⟨s', e1, e2, e3⟩ := ha1.restart hok hM hn1 hf h1 h2
    rw [h3] at e1
    injection e1 with e1
    injection e1 with e1
    injection e1 with _ e1
    injection e1 with _ e1
    subst e1
    refine ⟨fun i j c => ((e3 ⟨0, hn1⟩ j c).1).trans (a1 i _ c), fun i j c b1 b2 => ?_, _, _,
      .restart r hl1 hf ⟨ws, l, h', h1, h2, h3⟩⟩
    have hx : exist w1 c = true := by
      rw [← hi1.sys.owner ⟨0, hn1⟩, a1 i]
      exact exist_of b1
    obtain ⟨p, hp⟩ := Option.isSome_iff_exists.1 hx
    have hp' : (s1 p).owner c = some p := by rw [hi1.sys.owner]; exact hp
    obtain ⟨d, hd⟩ := Option.isSome_iff_exists.1 ((hi1.sys.placed p c).2 hp)
    rw [← a2 i p c b1 hp', (e3 p j c).2 d hd b2, hd]

/-- Saving and loading of the demo. -/
def tinyRestart {n n' : Nat} (mine : Fin n → List Nat) : Restart n n' Nat where
  e := .little
  M0 := tinyMeta
  K := wordClass
  off := 11
  header := samplePiece 3
  header' := samplePiece 3
  f := fun _ => none
  mine := mine
  d0 := 0
  calls := 1
  maxTag := 146
  ord := fun _ l => l

/-- The demo with cell 1 refined is loaded by three processes. -/
theorem tiny_restart : ∃ (s : Sys 2 Nat Nat) (mine : Fin 2 → List Nat) (s' : Sys 3 Nat Nat), tinyMeta.mapping.OK ∧
    tinyMeta.Readable ∧ Life tinyMeta 2 0 146 s ∧ (tinyRestart (n' := 3) mine).Fits tinyMeta s ∧
    (tinyRestart mine).Gives tinyMeta s s' ∧ exist (s 0).owner 3 = true ∧ (s 0).data 3 = some 3 := by
  obtain ⟨s, mine, ws, h1, h2, h3, h4, h5, h6, h7, h8, h9, h10, h11, h12⟩ := tiny_saved_refined
  have hf : (tinyRestart (n' := 3) mine).Fits tinyMeta s :=
    ⟨by omega, rfl, h4, ⟨h5, h5, rfl, rfl⟩, h7, h8, h9, h10, fun _ _ _ => Iff.rfl⟩
  have hl := Reachable.life (M := tinyMeta) (by omega) h3
  obtain ⟨s', e1, -⟩ := C114_restart_partial h1 h2 hl hf (ws := ws) h6 (.refl _)
  exact ⟨s, mine, s', h1, h2, hl, hf, ⟨ws, _, _, h6, .refl _, e1⟩, h11, h12⟩

/-- The restarted grid is a life, and restarts of it keep cells. -/
example : ∃ (s : Sys 2 Nat Nat) (s' : Sys 3 Nat Nat), tinyMeta.mapping.OK ∧ tinyMeta.Readable ∧ Life tinyMeta 2 0 146 s ∧
    Life tinyMeta 3 0 146 s' ∧ Restarts tinyMeta s s' ∧ exist (s 0).owner 3 = true ∧ exist (s' 2).owner 3 = true ∧
    tinyMeta.grid.last ≤ 146 := by
  obtain ⟨s, mine, s', h1, h2, h3, h4, h5, h6, -⟩ := tiny_restart
  have hr := Restarts.step _ (.refl s) h4 h5
  exact ⟨s, s', h1, h2, h3, .restart _ h3 h4 h5, hr, h6, by rw [(C114_kept_partial h1 h2 h3 hr).1 0 2 3]; exact h6, h4.tags⟩

end Dccrg
