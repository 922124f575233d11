import Verif.LoadStored
import Verif.Progress
import Verif.Props.Halo
import Verif.Props.Stored
/-!
# C81: a loaded grid can be used like any other grid

`loadStored` (Verif/LoadStored.lean) is loading of a grid with what processes store during it, `Loaded g d t s σ m b` are
grids whose loading has been started, and anything made of them by operations. Flag `m` tells whether iterators
of the default neighborhood have been made.
-/
namespace Dccrg
open Cfg
variable {n n' : Nat} {D W : Type} {g : Cfg} {dflt : D} {maxTag : Nat} {s s' : Sys n D W} {σ : Fin n → Store n} {m b : Bool}

/-- C81: the file is that of C41. What is loaded is what C41 says, and the grid with what is stored by processes is a loaded
one. Iterators have been made if and only if some cell of the saved grid is of refinement level above 0; otherwise a process has data of its own cells only. -/
theorem C81_loaded {e : Order} {M M0 : Meta} (hn : 0 < n) (hn' : 0 < n') (hok : M.mapping.OK) (hM : M.Readable)
    (hk : M0.geom.id = M.geom.id) {s : Sys n D W} (hs : Reachable M.grid dflt maxTag s) {mine : Fin n → List Nat}
    (hmine : ∀ i, (mine i).Nodup ∧ ∀ c, c ∈ mine i ↔ ((s i).data c).isSome = true) {K : CellClass D}
    {off : Nat} {header header' : Piece} (hh : header.Ok) (hh' : header'.Ok)
    (hhh : header'.count = header.count ∧ header'.size = header.size)
    {ws : Fin n → List Write}
    (hsave : save e M { offset := off, header := header } mine (fun i c => ((s i).data c).map K.saved) = .ok ws)
    {l : List Write} (hl : l.Perm ((List.finRange n).flatMap ws)) (f : File)
    {d0 : D} {calls : Nat} (hK : ∀ i c d, (s i).data c = some d → (K.saved d).Ok ∧
      ((K.saved d).named = true ∨ (K.saved d).count = 1) ∧ Feeds K calls d0 (K.saved d).bytes d)
    {maxTag' : Nat} (htag : M.grid.last ≤ maxTag')
    (hcells : 2 * totalCells { offset := off, header := header } mine ≤ intMax)
    (hend : fileEnd M { offset := off, header := header } mine (fun i c => ((s i).data c).map K.saved) < 2 ^ 64)
    {ord : Fin n' → List Nat → List Nat} (hord : ∀ i l x, x ∈ ord i l ↔ x ∈ l) :
    ∃ (s' : Sys n' D W) (σ : Fin n' → Store n') (m : Bool),
      loadStored e (f.writes l) off header' M0 d0 maxTag' ord K calls = .ok (some (header.bytes, M, s', σ)) ∧
      load e (f.writes l) off header' M0 d0 maxTag' ord K calls = .ok (some (header.bytes, M, s')) ∧
      Loaded M.grid d0 maxTag' s' σ m true ∧ (m = true ↔ ∃ i c, exist (s i).owner c = true ∧ 0 < M.grid.lvl c) ∧
      (m = false → ∀ i c, access (s' i) c = (s' i).data c) := by
  obtain ⟨s', s2, l', h1, h2, h3, h4, -, -, h6, h7⟩ :=
    load_saved (W := W) hn hn' hok hM hk hs hmine hh hh' hhh hsave hl f hK htag hcells hend hord
  have hw : M.grid.WF := grid_wf hok
  obtain ⟨σ, m, e1, e2, e3⟩ := startLoadingStored_ok hn' hw h1
  have e4 : m = true ↔ ∃ i c, exist (s i).owner c = true ∧ 0 < M.grid.lvl c := by
    rw [e3]
    constructor
    · rintro ⟨j, x, x1, x2⟩
      exact ⟨⟨0, hn⟩, x.1, (h3 _ _).2 ⟨j, x, x1, rfl⟩, x2⟩
    · rintro ⟨i, c, c1, c2⟩
      obtain ⟨j, x, x1, x2⟩ := (h3 i c).1 c1
      exact ⟨j, x, x1, by rw [x2]; exact c2⟩
  refine ⟨s', σ, m, ?_, h4, e2.continued hw hn' h2, e4, fun hm i c => ?_⟩
  · have h5 : header'.size * header'.count = header.size * header.count := by rw [hhh.1, hhh.2]
    unfold load at h4
    unfold loadStored
    split at h4
    · cases h4
    · rename_i hb
      rw [if_neg hb, h5, e1, Out.bind_ok]
      simp only []
      rw [h2, Out.bind_ok]
      rw [h5, h1, Out.bind_ok] at h4
      simp only [] at h4
      rw [h2, Out.bind_ok] at h4
      injection h4 with h4
      injection h4 with h4
      injection h4 with h4
      rw [h4]
  · obtain ⟨s'', -, e6, e5⟩ := h6 (fun i c hc => by
      by_cases h0 : M.grid.lvl c = 0
      · exact h0
      · have := e4.2 ⟨i, c, hc, by omega⟩
        rw [hm] at this; cases this)
    rw [e5]
    unfold access noCopies
    cases hd : (s'' i).data c with
    | some d => rfl
    | none => simp only [e6.refined, e6.unrefined]

/-- C81: whatever has been done with a loaded grid, every operation can be done if tags are large enough, and it gives again
such a grid. -/
theorem C81_operations (hw : g.WF) (hn : 0 < n) (h : Loaded g dflt maxTag s σ m b) (hm : g.last ≤ maxTag) (op : Op n D W)
    (ho : op.Ok s) (hk : op.Known g s) :
    ∃ s' σ', stepStored g dflt maxTag s σ op = .ok (s', σ') ∧ Loaded g dflt maxTag s' σ' (op.makes m) (op.makes b) := by
  obtain ⟨s0, hr, hcase, -⟩ := h.spec hw hn
  obtain ⟨w, hi⟩ := hr.inv hw hn
  have hi' : Inv g w s := by
    rcases hcase with e | ⟨-, -, e⟩
    · rw [e]; exact hi
    · rw [e]; exact hi.noCopies
  obtain ⟨s', h1⟩ := step_ok hw hn dflt hi' hm op ho hk
  obtain ⟨σ', h2, h3⟩ := h.progress hw hn ho h1
  exact ⟨s', σ', h2, h3⟩

/-- C81: lists of neighbors, cells on process boundaries and cells to send and receive are up to date in every loaded
grid. -/
theorem C81_lists (hw : g.WF) (h : Loaded g dflt maxTag s σ m b) (i : Fin n) (id : Int) (sorted : Bool) :
    (∀ c, storedOf (s i) (σ i) c id = .ok (getNeighborsOf g (s i) c id) ∧
      storedTo (s i) (σ i) c id = .ok (getNeighborsTo g (s i) c id)) ∧
    storedLocal (s i) (σ i) id sorted = .ok (getLocalBoundary g i (s i) id sorted) ∧
    storedRemote (s i) (σ i) id sorted = .ok (getRemoteBoundary g i (s i) id sorted) ∧
    ∀ H, hoodFor g (s i) id = some H → storedSends (σ i) id =
      .ok (sendList g H i (s i).owner (s i).has, recvList g H i (s i).owner (s i).has) := by
  have hn : 0 < n := by have := i.2; omega
  obtain ⟨s0, hr, hcase, -, hc⟩ := h.spec hw hn
  obtain ⟨w, hg⟩ := hr.good hw i
  have ho := hg.owner
  suffices hS : (∀ c, storedOf (s0 i) (σ i) c id = .ok (getNeighborsOf g (s0 i) c id) ∧
      storedTo (s0 i) (σ i) c id = .ok (getNeighborsTo g (s0 i) c id)) ∧
    storedLocal (s0 i) (σ i) id sorted = .ok (getLocalBoundary g i (s0 i) id sorted) ∧
    storedRemote (s0 i) (σ i) id sorted = .ok (getRemoteBoundary g i (s0 i) id sorted) ∧
    ∀ H, hoodFor g (s0 i) id = some H → storedSends (σ i) id =
      .ok (sendList g H i (s0 i).owner (s0 i).has, recvList g H i (s0 i).owner (s0 i).has) by
    rcases hcase with e | ⟨-, -, e⟩ <;> rw [e] <;> exact hS
  refine ⟨fun c => ⟨storedOf_eq hw hg (by rw [← ho]; exact (hc i).of) (by rw [← ho]; exact (hc i).userOf) c id,
    storedTo_eq hw hg (by rw [← ho]; exact (hc i).to) (by rw [← ho]; exact (hc i).userTo) c id⟩, ?_⟩
  unfold storedLocal storedRemote getLocalBoundary getRemoteBoundary storedSends hoodFor
  by_cases e : id = defaultId
  · rw [if_pos e, if_pos e, if_pos e, if_pos e, (hc i).loc, (hc i).rem, (hc i).send, (hc i).recv]
    refine ⟨rfl, rfl, fun H hH => ?_⟩
    injection hH with hH
    rw [hH]
  · rw [if_neg e, if_neg e, if_neg e, if_neg e]
    cases hl : (s0 i).hoods.lookup id with
    | none => exact ⟨rfl, rfl, nofun⟩
    | some H =>
      rw [if_pos (by rfl), if_pos (by rfl), Out.at_some (b := localBoundaryH g H i (s0 i).owner (s0 i).has) (by rw [(hc i).userLoc]; simp [hl]),
        Out.at_some (b := dedup (remoteBoundaryH g H i (s0 i).owner (s0 i).has)) (by rw [(hc i).userRem]; simp [hl])]
      refine ⟨rfl, rfl, fun H' hH => ?_⟩
      injection hH with hH
      subst hH
      rw [Out.at_some (b := sendList g H i (s0 i).owner (s0 i).has) (by rw [(hc i).userSend]; simp [hl]), Out.bind_ok,
        Out.at_some (b := recvList g H i (s0 i).owner (s0 i).has) (by rw [(hc i).userRecv]; simp [hl]), Out.bind_ok]

/-- C81, what holds: if the grid has been refined, unrefined, load balanced or copied since its loading was started, during
loading if some loaded cell is of refinement level above 0, then it is in a state which could be reached without
loading, so that everything proved for those holds, and iterators of the default neighborhood are up to date. -/
theorem C81_complete_partial (hw : g.WF) (hn : 0 < n) (h : Loaded g dflt maxTag s σ true b) :
    Reachable g dflt maxTag s ∧ ∀ i, ∃ k, storedPtr (σ i) defaultId = .ok k ∧ storedAll (σ i) defaultId = .ok k.all ∧
      updatePointers g i (s i) defaultId = .ok k := by
  obtain ⟨s0, hr, hcase, -, hc⟩ := h.spec hw hn
  rcases hcase with e | ⟨e, -⟩
  · subst e
    refine ⟨hr, fun i => ⟨_, ?_, ?_, (hc i).ptr.1 rfl⟩⟩
    · unfold storedPtr; rw [if_pos rfl]
    · unfold storedAll; rw [if_pos rfl]
  · cases e

/-- C81: otherwise there is no cell in any range of cells of the default neighborhood, whatever cells the process has. -/
theorem C81_no_iterators (hw : g.WF) (h : Loaded g dflt maxTag s σ false b) (i : Fin n) :
    ∃ k, storedPtr (σ i) defaultId = .ok k ∧ ∀ r, range k.cells r = [] := by
  have hn : 0 < n := by have := i.2; omega
  obtain ⟨s0, hr, hcase, -, hc⟩ := h.spec hw hn
  refine ⟨Cache.none, ?_, fun r => ?_⟩
  · unfold storedPtr
    rw [if_pos rfl, (hc i).ptr.2 _ rfl]
  · unfold range Cache.none
    simp

/-- C81: iterators of neighborhoods of users and data of cells are as in a grid that has not been loaded. -/
theorem C81_user_iterators (hw : g.WF) (h : Loaded g dflt maxTag s σ m true) (i : Fin n) (id : Int) (hid : id ≠ defaultId)
    (hs : (hoodFor g (s i) id).isSome = true) :
    ∃ k, storedPtr (σ i) id = .ok k ∧ storedAll (σ i) id = .ok k.all ∧ updatePointers g i (s i) id = .ok k := by
  have hn : 0 < n := by have := i.2; omega
  obtain ⟨s0, hr, hcase, -, hc⟩ := h.spec hw hn
  unfold hoodFor at hs
  rw [if_neg hid] at hs
  have hs0 : s = s0 := by
    rcases hcase with e | ⟨-, h1, e⟩
    · exact e
    · rw [e, show (noCopies s0 i).hoods = [] from h1.hoods i] at hs
      cases hs
  subst hs0
  obtain ⟨k, hk⟩ := Option.isSome_iff_exists.1 ((hc i).made rfl id hs)
  obtain ⟨-, h2, h3⟩ := (hc i).userPtr id k hk
  unfold storedPtr storedAll
  rw [if_neg hid, if_neg hid]
  exact ⟨k, Out.at_some hk, Out.at_some h3, h2⟩

/-- C81: `stop_refining` and `balance_load` make a loaded grid complete, an update of the default neighborhood and the addition
of a neighborhood only make the copies of remote neighbors. -/
theorem C81_repair (hw : g.WF) (hn : 0 < n) (h : Loaded g dflt maxTag s σ m b) {op : Op n D W} (ho : op.Ok s)
    {σ' : Fin n → Store n} (hs : stepStored g dflt maxTag s σ op = .ok (s', σ')) :
    ((∃ z, op = .stop z) ∨ (∃ z, op = .balance z) → Loaded g dflt maxTag s' σ' true true) ∧
    (op = .update defaultId → Reachable g dflt maxTag s') ∧
    (∀ id items, op = .addHood id items → (∃ i, id ≠ defaultId ∧ (s i).hoods.lookup id = none ∧
      items.all (itemOk g) = true) → Reachable g dflt maxTag s') := by
  have hst := Loaded.step op h ho hs
  have hrep : ¬ (op.keeps g s) → (∀ i c v, op ≠ .write i c v) → Reachable g dflt maxTag s' := by
    intro hk hwr
    obtain ⟨s0, hr, hcase, -, -⟩ := h.spec hw hn
    obtain ⟨s1, h1, h2⟩ := Out.bind_inv hs
    obtain ⟨σ1, -, h3⟩ := Out.bind_inv h2
    injection h3 with h3
    injection h3 with h3 h4
    subst h3
    rcases hcase with e | ⟨-, hb, e⟩
    · subst e; exact .step op hr ho h1
    · subst e
      have ho0 : op.Ok s0 := by cases op <;> exact ho
      rcases step_bare hw hr hb h1 with h | ⟨s2, -, -, -, h⟩ | ⟨-, i, c, v, e⟩
      · exact .step op hr ho0 h
      · refine absurd ?_ hk
        cases op <;> exact h
      · exact absurd e (hwr i c v)
  refine ⟨?_, ?_, ?_⟩
  · rintro (⟨z, rfl⟩ | ⟨z, rfl⟩) <;> exact hst
  · rintro rfl
    exact hrep id (fun _ _ _ => nofun)
  · rintro id items rfl ⟨i, e1, e2, e3⟩
    refine hrep (fun hk => ?_) (fun _ _ _ => nofun)
    rcases hk i with h | h | h
    · exact e1 h
    · rw [e2] at h; cases h
    · rw [e3] at h; cases h

/-! ## Example -/

/-- C81 is false of the code: the demo grid without refined cells is saved and loaded by two processes. Process 0 has cell 1, whose
neighbor is cell 2 of the other process, but there is no copy of cell 2, and no cell is visited by loops over
`local_cells()` or other cells. -/
theorem C81_false : ∃ (f : File) (h : List Nat) (M : Meta) (s : Sys 2 Nat Nat) (σ : Fin 2 → Store 2),
    loadStored .little f 11 (samplePiece 3) tinyMeta 0 146 (fun _ l => l) wordClass 1 = .ok (some (h, M, s, σ)) ∧
    M = tinyMeta ∧ (s 0).owner 1 = some 0 ∧ access (s 0) 1 = some 1 ∧ (s 0).owner 2 = some 1 ∧
    NbrOf tinyG (s 0) defaultId 1 2 ∧ access (s 0) 2 = none ∧
    ∃ k, storedPtr (σ 0) defaultId = .ok k ∧ range k.cells k.loc = [] ∧ range k.cells k.all = [] := by
  obtain ⟨t, t1, t2, t3, -, -, -, t4, t5⟩ := tiny_init
  obtain ⟨s, mine, ws, h1, h2, h3, h4, h5, h6, h7, h8, h9, h10, h11, h12⟩ := tiny_saved t2
  obtain ⟨s', σ, m, e1, e2, e3, e4, e5⟩ := C81_loaded (W := Nat) (n' := 2) (M0 := tinyMeta) (by omega) (by omega) h1 h2 rfl h3
    h4 h5 h5 ⟨rfl, rfl⟩ h6 (List.Perm.refl _) (fun _ => none) h7 h8 h9 h10 (ord := fun _ l => l) (fun _ _ _ => Iff.rfl)
  obtain ⟨s2, e6, -, -, e7⟩ := C41_load_partial (W := Nat) (n' := 2) (M0 := tinyMeta) (by omega) (by omega) h1 h2 rfl h3
    h4 h5 h5 ⟨rfl, rfl⟩ h6 (List.Perm.refl _) (fun _ => none) h7 h8 h9 h10 (ord := fun _ l => l) (fun _ _ _ => Iff.rfl)
  rw [e2] at e6
  injection e6 with e6
  injection e6 with e6
  injection e6 with e6 e8
  injection e8 with e8 e9
  subst e9
  have hm : m = false := by
    cases m with
    | false => rfl
    | true =>
      obtain ⟨i, c, c1, c2⟩ := e4.1 rfl
      rw [h11, t3.sys.owner, createLevel0_exist (by omega)] at c1
      have := (lvl_level0 (g := tinyG) c1.1 c1.2).2
      have c2 : 0 < tinyG.lvl c := c2
      omega
  subst hm
  have hw : tinyMeta.grid.WF := tiny_wf
  have ho := e3.owners hw (by omega) rfl
  have ho1 : (s' 0).owner 1 = some 0 := by rw [ho]; exact t4
  have ho2 : (s' 0).owner 2 = some 1 := by rw [ho]; exact t5
  obtain ⟨w, hi⟩ := e3.inv hw (by omega)
  have hw' : w = (createLevel0 2 2).2 := by rw [← hi.sys.owner 0, ho]; rfl
  have hd0 : (s 0).data 1 = some 1 := by
    have := (t3.sys.placed 0 1).2 t4
    obtain ⟨v, hv⟩ := Option.isSome_iff_exists.1 this
    rw [h12, hv]; rfl
  have hd2 : (s' 0).data 2 = none := by
    apply Option.not_isSome_iff_eq_none.1
    rw [hi.sys.placed, hw', t5]
    decide
  obtain ⟨k, k1, k2⟩ := C81_no_iterators hw e3 0
  have hacc : access (s' 0) 2 = none := by
    rw [e5 rfl, hd2]
  refine ⟨_, _, _, s', σ, e1, rfl, ho1, ?_, ho2, ?_, hacc, k, k1, k2 _, k2 _⟩
  · unfold access
    rw [(e7 0 0 1).2 1 hd0 ho1]
  · exact (hi.nbrOf_iff hw (H := hoodOf tinyG) rfl (by rw [hw']; exact exist_of t4)).2
      ⟨by rw [hw']; exact exist_of t5, tiny_linked.1⟩

/-- The demo grid with refined cells is saved and loaded by three processes, it is complete, and
`stop_refining` is called. -/
example : ∃ (f : File) (h : List Nat) (s s1 : Sys 3 Nat Nat) (σ σ1 : Fin 3 → Store 3),
    loadStored .little f 11 (samplePiece 3) tinyMeta 0 146 (fun _ l => l) wordClass 1 = .ok (some (h, tinyMeta, s, σ)) ∧
    Loaded tinyG 0 146 s σ true true ∧ (∀ i, exist (s i).owner 3 = true) ∧
    stepStored tinyG 0 146 s σ (.stop true) = .ok (s1, σ1) := by
  obtain ⟨k, t, t1, -, t3, -⟩ := tiny_family
  obtain ⟨s, mine, ws, h1, h2, h3, h4, h5, h6, h7, h8, h9, h10, h11, h12⟩ := tiny_saved t1.reachable
  obtain ⟨s', σ, m, e1, e2, e3, e4, e5⟩ := C81_loaded (W := Nat) (n' := 3) (M0 := tinyMeta) (by omega) (by omega) h1 h2 rfl h3
    h4 h5 h5 ⟨rfl, rfl⟩ h6 (List.Perm.refl _) (fun _ => none) h7 h8 h9 h10 (ord := fun _ l => l) (fun _ _ _ => Iff.rfl)
  obtain ⟨s2, e6, -, -, e7⟩ := C41_load_partial (W := Nat) (n' := 3) (M0 := tinyMeta) (by omega) (by omega) h1 h2 rfl h3
    h4 h5 h5 ⟨rfl, rfl⟩ h6 (List.Perm.refl _) (fun _ => none) h7 h8 h9 h10 (ord := fun _ l => l) (fun _ _ _ => Iff.rfl)
  rw [e2] at e6
  injection e6 with e6
  injection e6 with e6
  injection e6 with e6 e8
  injection e8 with e8 e9
  subst e9
  have h3' : ∀ i, exist (s i).owner 3 = true := fun i => by rw [h11]; exact exist_of (t3 i 3 (by decide))
  have hm : m = true := e4.2 ⟨0, 3, h3' 0, by decide⟩
  subst hm
  obtain ⟨s1, σ1, f1, -⟩ := C81_operations tiny_wf (by omega) e3 h8 (.stop true) trivial trivial
  exact ⟨_, _, s', s1, σ, σ1, e1, e3, fun i => by rw [(e7 0 i 3).1]; exact h3' 0, f1⟩

end Dccrg
