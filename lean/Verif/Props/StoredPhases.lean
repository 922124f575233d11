import Verif.StoredPhases
import Verif.Props.Stored
import Verif.Props.Reached
/-!
# C107: what processes have stored when load is balanced in phases

As C80, after histories in which load is also balanced in phases with calls in between (`Storing`), and what can be read
between phases.
-/
namespace Dccrg
open Cfg
variable {n : Nat} {D W : Type} {g : Cfg} {w : Owner n} {s s' t : Sys n D W} {dflt : D} {maxTag : Nat} {k : Calls}
  {b0 b1 : Fin n → Balancing n D W} {z : Fin n → Moves n} {σ σ' : Fin n → Store n} {b : Bool}

/-! ## Requests to pin cells and weights don't matter -/

section
variable {i : Fin n} {p q p' q' : Proc n D W} {τ : Store n} {a : Option Cache}

theorem Alike.fresh (h : Alike p q) (hf : Fresh g maxTag i p) : Fresh g maxTag i q := by
  rw [h]; exact ⟨hf.tags, hf.copies⟩

theorem Alike.good (h : Alike p q) (hg : Good g w maxTag i p) : Good g w maxTag i q := by
  have hf := h.fresh hg.fresh
  rw [h] at hf ⊢
  exact ⟨hg.owner, hg.tiled, hg.balanced, hg.placed, hg.items, hg.keys, hg.noDefault, hf⟩

theorem Alike.coherent (h : Alike p q) (hc : Coherent g i p τ b a) : Coherent g i q τ b a := by
  rw [h]
  exact ⟨hc.six, hc.of, hc.to, hc.userOf, hc.userTo, hc.loc, hc.rem, hc.userLoc, hc.userRem, hc.send, hc.recv, hc.userSend,
    hc.userRecv, hc.ptr, hc.userPtr, hc.made⟩

theorem Alike.storeAfter {op : Op n D W} (h : Alike p q) (h' : Alike p' q') :
    storeAfter g maxTag op i q q' τ = Dccrg.storeAfter g maxTag op i p p' τ := by
  rw [h, h']
  cases op <;> rfl

end

/-- The same operation from a state in which processes have requests for their own cells only. -/
theorem Loose.related (hn : 0 < n) (hl : Loose g w s) {op : Op n D W} (ho : op.Ok s) (hs : Dccrg.step g dflt maxTag s op = .ok s') :
    ∃ sc tc : Sys n D W, Inv g w sc ∧ (∀ i, Alike (s i) (sc i)) ∧ op.Ok sc ∧ Dccrg.step g dflt maxTag sc op = .ok tc ∧
      ∀ i, Alike (tc i) (s' i) := by
  by_cases hb : ∃ z, op = .balance z
  · obtain ⟨z, rfl⟩ := hb
    have hz := hl.moves hn ho
    obtain ⟨t', h1, h2, -, h3⟩ := tidied hl.clean hl.pins ⟨0, hn⟩
    refine ⟨t', s', h1, h2, fun i => by rw [h1.sys.owner]; exact hz, ?_, fun i => .refl _⟩
    rw [← hs]
    show balanceLoad g dflt maxTag z t' = balanceLoad g dflt maxTag z s
    unfold balanceLoad
    rw [show (fun i => initBalance g dflt t' z i) = fun i => initBalance g dflt s z i from funext (h3 dflt z)]
  · obtain ⟨tc, h1, h2⟩ := (step_alike (fun z e => hb ⟨z, e⟩) fun i => (rfl :
      Alike (s i) (withNotes (s i) (s i).req (fun _ => none) (fun _ => none)))).inv hs
    refine ⟨_, tc, hl.clean, fun i => rfl, ?_, h1, fun i => (h2 i).symm⟩
    cases op with
    | balance z => exact absurd ⟨z, rfl⟩ hb
    | _ => trivial

/-- Between phases processes know owners of cells and neighborhoods as before. -/
theorem Loose.between (hw : g.WF) (hn : 0 < n) (hl : Loose g w s) (ho : (Op.balance z : Op n D W).Ok s)
    (h1 : startBalance g dflt maxTag z s = .ok b0) {P : Op n D W → Prop} (h2 : Meanwhile g dflt maxTag P b0 k b1) (i : Fin n) :
    (inside b1 i).owner = (s i).owner ∧ (inside b1 i).hoods = (s i).hoods ∧ (b1 i).send = (b0 i).send ∧
      (b1 i).recv = (b0 i).recv := by
  have hz := hl.moves hn ho
  obtain ⟨t', f1, f0, -, f3⟩ := tidied hl.clean hl.pins ⟨0, hn⟩
  have e : startBalance g dflt maxTag z t' = .ok b0 := by
    rw [← h1]
    unfold startBalance
    rw [show (fun i => initBalance g dflt t' z i) = fun i => initBalance g dflt s z i from funext (f3 dflt z)]
  have hmid := meanwhile_midway hw hz f1.sys e h2
  refine ⟨(hmid.proc i).owner.trans ?_, (hmid.proc i).hoods.trans (startBalance_inv h1 i).2.2.2.2.2, hmid.send i, hmid.recv i⟩
  exact (hl.core.owner i).symm

/-- Load balancing in phases doesn't change neighborhoods. -/
theorem Loose.phases_hoods (hw : g.WF) (hn : 0 < n) (hl : Loose g w s) (ho : (Op.balance z : Op n D W).Ok s)
    (h1 : startBalance g dflt maxTag z s = .ok b0) {P : Op n D W → Prop} (h2 : Meanwhile g dflt maxTag P b0 k b1)
    (h3 : finishBalance g dflt maxTag b1 = .ok t) (i : Fin n) : (t i).hoods = (s i).hoods := by
  have hz := hl.moves hn ho
  obtain ⟨t', f1, f0, -, f3⟩ := tidied hl.clean hl.pins ⟨0, hn⟩
  have e : startBalance g dflt maxTag z t' = .ok b0 := by
    rw [← h1]
    unfold startBalance
    rw [show (fun i => initBalance g dflt t' z i) = fun i => initBalance g dflt s z i from funext (f3 dflt z)]
  obtain ⟨t0, e1, e2, -⟩ := overlapped_inv hw hn f1 hz e h2 h3
  rw [e2 i]
  show (t0 i).hoods = _
  rw [(balanceLoad_sound hw hz f1.sys e1 i).hoods, f0 i]

/-- Names of neighborhoods and copies of cells of other processes. -/
theorem Reached.hoods_fresh (hw : g.WF) (h : Reached g dflt maxTag s) (i : Fin n) :
    HoodIds (s i).hoods ∧ Fresh g maxTag i (s i) := by
  have hn : 0 < n := by have := i.2; omega
  induction h generalizing i with
  | init h => exact ⟨(Reachable.init h).hoodIds hw i, (Reachable.init h).fresh hw i⟩
  | copy hr ih => exact ⟨(ih i).1, (ih i).2.copied _⟩
  | step op hr ho hs ih =>
    obtain ⟨w, hl⟩ := hr.loose hw hn
    obtain ⟨sc, tc, h1, h2, h3, h4, h5⟩ := hl.related hn ho hs
    have e1 : ∀ i, HoodIds (sc i).hoods := fun i => by rw [h2 i]; exact (ih i).1
    have e2 := inv_hoodIds hw h1 e1 h3 h4 i
    refine ⟨by rw [h5 i]; exact e2, (h5 i).fresh (inv_fresh hw h1 (fun i => (h2 i).fresh (ih i).2) h4 i)⟩
  | phases z hr ho h1 h2 h3 ih =>
    obtain ⟨w, hl⟩ := hr.loose hw hn
    have hz := hl.moves hn ho
    have hc := Out.collect_inv h3 i
    split at hc
    · cases hc
    · refine ⟨?_, fresh_rebuild hc⟩
      rw [hl.phases_hoods hw hn ho h1 h2 h3]
      exact (ih i).1

/-- What the functions that store lists rely on. -/
theorem Reached.good (hw : g.WF) (h : Reached g dflt maxTag s) (i : Fin n) : ∃ w, Good g w maxTag i (s i) := by
  obtain ⟨w, hl⟩ := h.loose hw (by have := i.2; omega)
  obtain ⟨h1, h2⟩ := h.hoods_fresh hw i
  exact ⟨w, hl.core.owner i, hl.core.tiled, hl.core.balanced, hl.core.placed i, hl.core.hoods i, h1.1, h1.2, h2⟩

theorem Reached.storeAfter_ok (hw : g.WF) (h : Reached g dflt maxTag s) {op : Op n D W} (ho : op.Ok s)
    (hs : Dccrg.step g dflt maxTag s op = .ok s') {i : Fin n} {τ : Store n} (hc : Coherent g i (s i) τ b) :
    ∃ τ', storeAfter g maxTag op i (s i) (s' i) τ = .ok τ' ∧ Coherent g i (s' i) τ' (op.makes b) := by
  have hn : 0 < n := by have := i.2; omega
  obtain ⟨w, hl⟩ := h.loose hw hn
  obtain ⟨sc, tc, h1, h2, h3, h4, h5⟩ := hl.related hn ho hs
  obtain ⟨w1, hg⟩ := h.good hw i
  obtain ⟨w2, hg'⟩ := (Reached.step op h ho hs).good hw i
  obtain ⟨τ', e1, e2⟩ := inv_storeAfter hw h1 h3 h4 ((h2 i).good hg) ((h5 i).symm.good hg') ((h2 i).coherent hc)
  rw [ite_self] at e2
  exact ⟨τ', by rw [← e1]; exact (h2 i).symm.storeAfter (h5 i), (h5 i).coherent e2⟩

theorem Reached.closeStore_ok (hw : g.WF) (h : Reached g dflt maxTag s) (ho : (Op.balance z : Op n D W).Ok s)
    (h1 : startBalance g dflt maxTag z s = .ok b0) (h2 : Meanwhile g dflt maxTag (fun _ => True) b0 k b1)
    (h3 : finishBalance g dflt maxTag b1 = .ok t) {i : Fin n} {τ : Store n} (hc : Coherent g i (s i) τ b) :
    ∃ τ', closeStore g maxTag i (t i) (openStore (b0 i) τ) = .ok τ' ∧ Coherent g i (t i) τ' true := by
  have hn : 0 < n := by have := i.2; omega
  obtain ⟨w, hl⟩ := h.loose hw hn
  obtain ⟨w1, hg⟩ := (Reached.phases z h ho h1 h2 h3).good hw i
  have hk := hc.keyed
  rw [← hl.phases_hoods hw hn ho h1 h2 h3] at hk
  exact rebuildStore_ok hw hg ⟨hk.userOf, hk.userTo, fun _ _ => rfl, fun _ _ => rfl, fun _ _ => rfl, fun _ _ => rfl, hk.userPtr⟩

/-- What is stored is up to date. -/
theorem Storing.coherent (hw : g.WF) (h : Storing g dflt maxTag s σ b) :
    Reached g dflt maxTag s ∧ ∀ i, Coherent g i (s i) (σ i) b := by
  induction h with
  | init hs hc =>
    obtain ⟨h1, h2⟩ := (WithStore.init hs hc).coherent hw
    exact ⟨h1.reached, h2⟩
  | step op hst ho hs ih =>
    obtain ⟨hr, hc⟩ := ih
    obtain ⟨s1, h1, h2⟩ := Out.bind_inv hs
    obtain ⟨σ1, h3, h4⟩ := Out.bind_inv h2
    injection h4 with h4
    injection h4 with h4 h5
    subst h4; subst h5
    refine ⟨.step op hr ho h1, fun i => ?_⟩
    obtain ⟨σ2, e1, e2⟩ := hr.storeAfter_ok hw ho h1 (hc i)
    rw [Out.collect_inv h3 i] at e1
    injection e1 with e1
    rw [e1]; exact e2
  | @copy D D0 dflt dflt0 maxTag s σ σ' b hst hs ih =>
    obtain ⟨hr, hc⟩ := ih
    have hr' : Reached g dflt maxTag (copyGrid g dflt s) := .copy hr
    refine ⟨hr', fun i => ?_⟩
    obtain ⟨w, hg⟩ := hr'.good hw i
    obtain ⟨σ2, e1, e2⟩ := copyStore_ok hw (hc i) (dflt := dflt) hg
    rw [Out.collect_inv hs i] at e1
    injection e1 with e1
    rw [e1]; exact e2
  | phases z _ ho h1 h2 h3 hs ih =>
    obtain ⟨hr, hc⟩ := ih
    refine ⟨.phases z hr ho h1 h2 h3, fun i => ?_⟩
    obtain ⟨σ2, e1, e2⟩ := hr.closeStore_ok hw ho h1 h2 h3 (hc i)
    rw [Out.collect_inv hs i] at e1
    injection e1 with e1
    rw [e1]; exact e2

theorem Storing.step_ok (hw : g.WF) (h : Storing g dflt maxTag s σ b) (op : Op n D W) (ho : op.Ok s)
    (hs : Dccrg.step g dflt maxTag s op = .ok s') : ∃ σ', stepStored g dflt maxTag s σ op = .ok (s', σ') := by
  obtain ⟨hr, hc⟩ := h.coherent hw
  obtain ⟨σ', e1, -⟩ := Out.collect_all (f := fun i => storeAfter g maxTag op i (s i) (s' i) (σ i)) (P := fun _ _ => True)
    (fun i => by
      obtain ⟨σ2, e1, -⟩ := hr.storeAfter_ok hw ho hs (hc i)
      exact ⟨σ2, e1, trivial⟩)
  refine ⟨σ', ?_⟩
  unfold stepStored
  rw [hs, Out.bind_ok, e1, Out.bind_ok]

theorem Storing.phases_ok (hw : g.WF) (h : Storing g dflt maxTag s σ b) (ho : (Op.balance z : Op n D W).Ok s)
    (h1 : startBalance g dflt maxTag z s = .ok b0) (h2 : Meanwhile g dflt maxTag (fun _ => True) b0 k b1)
    (h3 : finishBalance g dflt maxTag b1 = .ok t) :
    ∃ σ', (Out.collect fun i => closeStore g maxTag i (t i) (openStore (b0 i) (σ i))) = .ok σ' := by
  obtain ⟨hr, hc⟩ := h.coherent hw
  obtain ⟨σ', e1, -⟩ := Out.collect_all (f := fun i => closeStore g maxTag i (t i) (openStore (b0 i) (σ i)))
    (P := fun _ _ => True) (fun i => by
      obtain ⟨σ2, e1, -⟩ := hr.closeStore_ok hw ho h1 h2 h3 (hc i)
      exact ⟨σ2, e1, trivial⟩)
  exact ⟨σ', e1⟩

theorem Reached.storing (hw : g.WF) (h : Reached g dflt maxTag s) : ∃ σ b, Storing g dflt maxTag s σ b := by
  induction h with
  | @init D dflt maxTag s h =>
    have hr : Reachable g dflt maxTag s := .init h
    obtain ⟨σ, e1, -⟩ := Out.collect_all (f := fun i => initStore g maxTag i (s i)) (P := fun _ _ => True) (fun i => by
      have hn : 0 < n := by have := i.2; omega
      obtain ⟨w, hg⟩ := hr.good hw i
      have hM : maxTag ≤ max maxTag g.last := Nat.le_max_left _ _
      have hM' : g.last ≤ max maxTag g.last := Nat.le_max_right _ _
      obtain ⟨s', h1, h2, h3⟩ := createGrid_spec (W := W) hw hn dflt
        (fitsTags_mono hM' (fitsTags_last (createLevel0_tiled hw hn).valid))
      rw [createGrid_mono hM h] at h1
      injection h1 with h1
      subst h1
      obtain ⟨σ', e1, -⟩ := initStore_ok hw hg (h3 i).2.1
      exact ⟨σ', e1, trivial⟩)
    exact ⟨σ, true, .init h e1⟩
  | step op hr ho hs ih =>
    obtain ⟨σ, b, hst⟩ := ih
    obtain ⟨σ', e⟩ := hst.step_ok hw op ho hs
    exact ⟨σ', _, .step op hst ho e⟩
  | @copy D D0 dflt dflt0 maxTag s hr ih =>
    obtain ⟨σ, b, hst⟩ := ih
    obtain ⟨-, hc⟩ := hst.coherent hw
    have hr' : Reached g dflt maxTag (copyGrid g dflt s) := .copy hr
    obtain ⟨σ', e1, -⟩ := Out.collect_all (f := fun i => copyStore g (copyProc g dflt i (s i)) (σ i)) (P := fun _ _ => True)
      (fun i => by
        obtain ⟨w, hg⟩ := hr'.good hw i
        obtain ⟨σ2, e1, -⟩ := copyStore_ok hw (hc i) (dflt := dflt) hg
        exact ⟨σ2, e1, trivial⟩)
    exact ⟨σ', false, .copy hst e1⟩
  | phases z hr ho h1 h2 h3 ih =>
    obtain ⟨σ, b, hst⟩ := ih
    obtain ⟨σ', e⟩ := hst.phases_ok hw ho h1 h2 h3
    exact ⟨σ', true, .phases z hst ho h1 h2 h3 e⟩

/-! ## Properties -/

/-- C107: whatever is done with a grid, also when load is balanced in phases, storing does not fail. -/
theorem C107_histories (hw : g.WF) :
    (Reached g dflt maxTag s ↔ ∃ σ b, Storing g dflt maxTag s σ b) ∧
    (Storing g dflt maxTag s σ b → ∀ op : Op n D W, op.Ok s → step g dflt maxTag s op = .ok s' →
      ∃ σ', stepStored g dflt maxTag s σ op = .ok (s', σ')) ∧
    (Storing g dflt maxTag s σ b → (Op.balance z : Op n D W).Ok s → startBalance g dflt maxTag z s = .ok b0 →
      Meanwhile g dflt maxTag (fun _ => True) b0 k b1 → finishBalance g dflt maxTag b1 = .ok t →
      ∃ σ', (Out.collect fun i => closeStore g maxTag i (t i) (openStore (b0 i) (σ i))) = .ok σ') :=
  ⟨⟨fun h => h.storing hw, fun ⟨σ, b, h⟩ => (h.coherent hw).1⟩, fun h => h.step_ok hw, fun h => h.phases_ok hw⟩

/-- C107: what functions of the grid read is what would be calculated now, and lists of cells to send and receive of different
processes agree. -/
theorem C107_lists (hw : g.WF) (h : Storing g dflt maxTag s σ b) (i : Fin n) (id : Int) :
    (∀ c, storedOf (s i) (σ i) c id = .ok (getNeighborsOf g (s i) c id) ∧
      storedTo (s i) (σ i) c id = .ok (getNeighborsTo g (s i) c id) ∧
      storedFaces g (σ i) c = faceNeighbors g (exist (s i).owner) c) ∧
    (∀ sorted, storedLocal (s i) (σ i) id sorted = .ok (getLocalBoundary g i (s i) id sorted) ∧
      storedRemote (s i) (σ i) id sorted = .ok (getRemoteBoundary g i (s i) id sorted)) ∧
    (∀ H, hoodFor g (s i) id = some H → storedSends (σ i) id =
      .ok (sendList g H i (s i).owner (s i).has, recvList g H i (s i).owner (s i).has)) ∧
    (hoodFor g (s i) id = none → storedSends (σ i) id = .throws) ∧
    ∀ j a c, storedSends (σ i) id = .ok a → storedSends (σ j) id = .ok c → a.1 j = c.2 i ∧ a.2 j = c.1 i := by
  obtain ⟨hr, hc⟩ := h.coherent hw
  obtain ⟨w, hg⟩ := hr.good hw i
  obtain ⟨w', hl⟩ := hr.loose hw (by have := i.2; omega)
  have h1 := stored_lists hw hl.clean (fun i => Alike.coherent (q := withNotes (s i) (s i).req (fun _ => none)
    (fun _ => none)) rfl (hc i)) i id
  exact ⟨fun c => ⟨((hc i).neighbors hw hg c id).1, ((hc i).neighbors hw hg c id).2, (hc i).faces hw hg c⟩,
    fun sorted => (hc i).boundaries id sorted, h1⟩

/-- C107: iterators that exist are not out of date, and they exist for every neighborhood unless the grid is a copy of another
one since whose construction cells have neither been refined or unrefined nor load balanced. -/
theorem C107_iterators (hw : g.WF) (h : Storing g dflt maxTag s σ b) (i : Fin n) (id : Int) :
    (∀ k, storedPtr (σ i) id = .ok k →
      (hoodFor g (s i) id).isSome = true ∧ updatePointers g i (s i) id = .ok k ∧ storedAll (σ i) id = .ok k.all) ∧
    ((hoodFor g (s i) id).isSome = true → b = true ∨ id = defaultId → ∃ k, storedPtr (σ i) id = .ok k) := by
  obtain ⟨hr, hc⟩ := h.coherent hw
  refine ⟨fun k hk => (hc i).no_stale id hk, fun h1 h2 => ?_⟩
  obtain ⟨k, hk, -⟩ := (hc i).iterators id h1 h2
  exact ⟨k, hk⟩

/-- C107: between phases neighbors are those before load balancing, which requests made then are about. Cells to send and
receive are those that move between processes, there are no cells on process boundaries, and functions which return them
throw for other neighborhoods than the default one. -/
theorem C107_between (hw : g.WF) (h : Storing g dflt maxTag s σ b) (ho : (Op.balance z : Op n D W).Ok s)
    (h1 : startBalance g dflt maxTag z s = .ok b0) (h2 : Meanwhile g dflt maxTag (fun _ => True) b0 k b1) (i : Fin n) (id : Int) :
    (∀ c, storedOf (inside b1 i) (openStore (b0 i) (σ i)) c id = .ok (getNeighborsOf g (s i) c id) ∧
      storedTo (inside b1 i) (openStore (b0 i) (σ i)) c id = .ok (getNeighborsTo g (s i) c id) ∧
      storedFaces g (openStore (b0 i) (σ i)) c = faceNeighbors g (exist (s i).owner) c) ∧
    (inside b1 i).owner = (s i).owner ∧
    storedMoves (openStore (b0 i) (σ i)) = ((b1 i).send, (b1 i).recv) ∧
    (∀ sorted, storedLocal (inside b1 i) (openStore (b0 i) (σ i)) id sorted =
        (if id = defaultId ∨ hoodFor g (s i) id = none then .ok [] else .throws) ∧
      storedRemote (inside b1 i) (openStore (b0 i) (σ i)) id sorted =
        (if id = defaultId ∨ hoodFor g (s i) id = none then .ok [] else .throws)) := by
  have hn : 0 < n := by have := i.2; omega
  obtain ⟨hr, hc⟩ := h.coherent hw
  obtain ⟨w, hg⟩ := hr.good hw i
  obtain ⟨w', hl⟩ := hr.loose hw hn
  obtain ⟨e1, e2, e3, e4⟩ := hl.between hw hn ho h1 h2 i
  refine ⟨fun c => ⟨?_, ?_, ?_⟩, e1, by rw [e3, e4]; rfl, fun sorted => ?_⟩
  · rw [← ((hc i).neighbors hw hg c id).1]
    unfold storedOf
    rw [e1, e2]; rfl
  · rw [← ((hc i).neighbors hw hg c id).2]
    unfold storedTo
    rw [e1, e2]; rfl
  · exact (hc i).faces hw hg c
  · unfold storedLocal storedRemote hoodFor
    rw [e2]
    by_cases hd : id = defaultId
    · simp only [hd, if_true, true_or]
      cases sorted <;> exact ⟨rfl, rfl⟩
    · simp only [hd, if_false, false_or]
      cases hh : (s i).hoods.lookup id with
      | none => simp
      | some H => exact ⟨rfl, rfl⟩

/-! ## Examples -/

theorem WithStore.storing (h : WithStore g dflt maxTag s σ b) : Storing g dflt maxTag s σ b := by
  induction h with
  | init h1 h2 => exact .init h1 h2
  | step op _ ho hs ih => exact .step op ih ho hs
  | copy _ h ih => exact .copy ih h

/-- A grid with neighborhood 5 whose load is being balanced and where refinement of cell 1 has been requested meanwhile. -/
example : ∃ (s t : Sys 2 Nat Nat) (σ σ' : Fin 2 → Store 2) (b0 b1 : Fin 2 → Balancing 2 Nat Nat) (k : Calls), tinyG.WF ∧
    Storing tinyG 0 146 s σ true ∧ (Op.balance stay : Op 2 Nat Nat).Ok s ∧ startBalance tinyG 0 146 stay s = .ok b0 ∧
    Meanwhile tinyG 0 146 (fun _ => True) b0 k b1 ∧ finishBalance tinyG 0 146 b1 = .ok t ∧ Storing tinyG 0 146 t σ' true ∧
    storedLocal (inside b1 0) (openStore (b0 0) (σ 0)) 5 true = .throws ∧
    storedLocal (inside b1 0) (openStore (b0 0) (σ 0)) defaultId true = .ok [] ∧
    (∃ l, storedLocal (s 0) (σ 0) 5 true = .ok l) ∧ (∃ l, storedLocal (t 0) (σ' 0) 5 true = .ok l) := by
  obtain ⟨s, σ, h1, h2⟩ := tiny_hood
  have hst := h1.storing
  obtain ⟨hr, -⟩ := hst.coherent tiny_wf
  have ho : (Op.balance stay : Op 2 Nat Nat).Ok s := fun i => stay_ok _
  obtain ⟨b0, e2, e3⟩ := (C105_returns tiny_wf (by omega) hr (by decide)).2 stay ho
  obtain ⟨f1, -, -⟩ := e3 _ _ .start
  obtain ⟨s2, f2⟩ := f1 (.refine 0 1) 0 rfl
  have hm := Meanwhile.call (P := fun _ => True) (.refine 0 1) 0 (.start (b := b0)) rfl trivial f2
  obtain ⟨-, -, t, f3⟩ := e3 _ _ hm
  obtain ⟨σ', f4⟩ := hst.phases_ok tiny_wf ho e2 hm f3
  have hst' := Storing.phases stay hst ho e2 hm f3 f4
  have hb := C107_between tiny_wf hst ho e2 hm 0
  refine ⟨s, t, σ, σ', b0, _, _, tiny_wf, hst, ho, e2, hm, f3, hst', ?_, ?_, ⟨_, ((C107_lists tiny_wf hst 0 5).2.1 true).1⟩,
    ⟨_, ((C107_lists tiny_wf hst' 0 5).2.1 true).1⟩⟩
  · refine ((hb 5).2.2.2 true).1.trans (if_neg ?_)
    rintro (e | e)
    · exact absurd e (by decide)
    · unfold hoodFor at e
      rw [if_neg (by decide), h2 0] at e
      cases e
  · exact ((hb defaultId).2.2.2 true).1.trans (if_pos (Or.inl rfl))

/-- A grid whose load has been balanced in phases twice, in between cells have been refined. -/
example : ∃ (s : Sys 2 Nat Nat) (σ : Fin 2 → Store 2) (b : Bool), Storing tinyG 0 146 s σ b ∧
    ∀ i, exist (s i).owner 3 = true := by
  obtain ⟨k, s, res, h1, -, -, -, -, -, h2⟩ := tiny_past
  obtain ⟨σ, b, h⟩ := h1.reached.storing tiny_wf
  exact ⟨s, σ, b, h, h2⟩

end Dccrg
