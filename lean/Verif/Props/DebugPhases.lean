import Verif.DebugPhases
import Verif.Props.Debug
import Verif.Props.StoredPhases
/-!
# C108: checks of debug builds when load is balanced in phases

After histories in which load is balanced in phases checks fail in one case only: a process has requested a pin of a cell
that belongs to another process when load balancing starts.
-/
namespace Dccrg
open Cfg
variable {n : Nat} {D W : Type} {g : Cfg} {w : Owner n} {s s' t : Sys n D W} {dflt : D} {maxTag : Nat} {k : Calls}
  {b0 b1 : Fin n → Balancing n D W} {z : Fin n → Moves n} {σ σ' : Fin n → Store n} {b : Bool}

/-- Every process has requested pins of its own cells only. -/
def OwnPins (s : Sys n D W) : Prop := ∀ i c, ((s i).newPins c).isSome = true → (s i).owner c = some i

/-! ## Proofs -/

theorem Alike.storeAfterD {i : Fin n} {p q p' q' : Proc n D W} {τ : Store n} {op : Op n D W} (h : Alike p q) (h' : Alike p' q') :
    storeAfterD g maxTag op i q q' τ = Dccrg.storeAfterD g maxTag op i p p' τ := by
  rw [h, h']
  cases op <;> rfl

theorem Loose.newPins (hl : Loose g w s) : dbgNewPins g s w = true ↔ OwnPins s := by
  unfold dbgNewPins OwnPins
  rw [decide_eq_true_eq]
  constructor
  · intro h i c hc
    rw [hl.core.owner]
    refine h i c ?_ hc
    rw [mem_ids]
    have hv : g.Valid c := by
      refine hl.core.tiled.valid c ?_
      cases he : exist w c with
      | true => rfl
      | false => rw [hl.pins i c he] at hc; cases hc
    exact hv.2
  · intro h i c _ hc
    have := h i c hc
    rwa [hl.core.owner] at this

theorem Loose.initBalanceD (hw : g.WF) (hl : Loose g w s) (hz : MovesOk w z) (hc : ∀ i, Coherent g i (s i) (σ i) b) (i : Fin n) :
    (OwnPins s → Dccrg.initBalanceD g dflt s σ z i = initBalance g dflt s z i) ∧
    (¬ OwnPins s → Dccrg.initBalanceD g dflt s σ z i = .throws) := by
  have hs := hl.core
  have hk := (hc i).knows (hs.owner i)
  unfold Dccrg.initBalanceD
  rw [dbgInfo_true hw hs.tiled hs.balanced (hs.owner i) (hs.placed i) hk.six hk.loc hk.rem, Out.check_true, hs.owner i]
  constructor
  · intro ho
    rw [if_neg]
    rintro (h | h | h | h)
    · rw [dbgData_true (hs.owner i) (hs.placed i)] at h; cases h
    · rw [hl.newPins.2 ho] at h; cases h
    · rw [dbgOnce_true (hz.recv i)] at h; cases h
    · rw [dbgOnce_true (hz.send i)] at h; cases h
  · intro ho
    rw [if_pos]
    refine Or.inr (Or.inl ?_)
    cases h : dbgNewPins g s w with
    | false => rfl
    | true => exact absurd (hl.newPins.1 h) ho

/-- Checks of moving cells succeed. -/
theorem Started.dbgMoves (hz : MovesOk w z) (h : Started g w dflt s z b0) (h1 : ∀ i, (b1 i).send = (b0 i).send)
    (h2 : ∀ i, (b1 i).recv = (b0 i).recv) : Dccrg.dbgMoves b1 w = true ∧ dbgSelf (fun p => (b1 p).send) (fun p => (b1 p).recv) = true := by
  constructor
  · unfold Dccrg.dbgMoves
    rw [decide_eq_true_eq]
    refine ⟨fun p q p' q' c e1 e2 => ?_, fun p q p' q' c e1 e2 => ?_, fun p q c e1 => ?_⟩
    · rw [h1] at e1 e2
      exact (Goes.unique hz ((h.send p q c).1 e1) ((h.send p' q' c).1 e2)).1
    · rw [h2] at e1 e2
      exact (Goes.unique hz ((h.recv q p c).1 e1) ((h.recv q' p' c).1 e2)).2
    · rw [h1] at e1
      exact ((h.send p q c).1 e1).2.1
  · unfold dbgSelf
    rw [decide_eq_true_eq]
    intro i
    constructor
    · rw [List.eq_nil_iff_forall_not_mem]
      intro x hx
      have hx : x ∈ (b1 i).send i := hx
      rw [h1] at hx
      exact ((h.send i i x).1 hx).1 rfl
    · rw [List.eq_nil_iff_forall_not_mem]
      intro x hx
      have hx : x ∈ (b1 i).recv i := hx
      rw [h2] at hx
      exact ((h.recv i i x).1 hx).1 rfl

theorem Started.finishBalanceD (hz : MovesOk w z) (h : Started g w dflt s z b0) (h1 : ∀ i, (b1 i).send = (b0 i).send)
    (h2 : ∀ i, (b1 i).recv = (b0 i).recv) (h3 : ∀ i, (b1 i).proc.owner = w) (h4 : ∀ i, (b1 i).proc.pins = pinned w s) :
    Dccrg.finishBalanceD g dflt maxTag b1 = finishBalance g dflt maxTag b1 := by
  refine finishBalanceD_eq (w := w) (w' := newHome w (pinned w s) z) h3 (h.dbgMoves hz h1 h2).1
    (movedOwner_eq hz fun p q c => ?_) (fun i c q hq => ?_)
  · rw [h2, h.recv]
  · rw [h4] at hq
    unfold newHome
    cases hc : w c with
    | none => unfold pinned at hq; rw [hc] at hq; cases hq
    | some p => simp only []; rw [hq]

/-- What load balancing starts with. -/
theorem Loose.started (hn : 0 < n) (hl : Loose g w s) (hz : MovesOk w z) (dflt : D) :
    ∃ t' b0, Inv g w t' ∧ (∀ i, Alike (s i) (t' i)) ∧ (∀ i, updatePins s i = pinned w t') ∧
      (∀ i, initBalance g dflt t' z i = .ok (b0 i)) ∧ (∀ i, initBalance g dflt s z i = .ok (b0 i)) ∧
      Started g w dflt t' z b0 ∧ ∀ i, (b0 i).proc.owner = w ∧ (b0 i).proc.pins = pinned w t' := by
  obtain ⟨t', f1, f2, f4, f3⟩ := tidied hl.clean hl.pins ⟨0, hn⟩
  obtain ⟨b0, e1, e2⟩ := initBalance_spec dflt hz f1.sys
  have hp : ∀ i, updatePins s i = pinned w t' := by
    intro i
    rw [f4]
    funext c
    unfold updatePins
    rw [show (s i).pins c = (s ⟨0, hn⟩).pins c from hl.core.pinsAgree _ _ _]
  have e3 : ∀ i, initBalance g dflt s z i = .ok (b0 i) := fun i => (f3 dflt z i).symm.trans (e1 i)
  refine ⟨t', b0, f1, f2, hp, e1, e3, e2, fun i => ?_⟩
  have h := e3 i
  unfold initBalance at h
  simp only [] at h
  split at h
  · cases h
  · injection h with h
    rw [← h]
    exact ⟨hl.core.owner i, hp i⟩

theorem Out.collect_throws {α : Type} (hn : 0 < n) {f : Fin n → Out α} (h : ∀ i, f i = .throws) :
    Out.collect f = .throws := by
  unfold Out.collect
  rw [dif_neg, if_neg, if_neg]
  · rintro ⟨i, e⟩; rw [h i] at e; cases e
  · rintro ⟨i, e⟩; rw [h i] at e; cases e
  · intro e
    have := e ⟨0, hn⟩
    rw [h] at this; cases this

theorem Loose.startBalanceD (hw : g.WF) (hn : 0 < n) (hl : Loose g w s) (hz : MovesOk w z)
    (hc : ∀ i, Coherent g i (s i) (σ i) b) :
    (OwnPins s → Dccrg.startBalanceD g dflt maxTag z s σ = startBalance g dflt maxTag z s) ∧
    (¬ OwnPins s → Dccrg.startBalanceD g dflt maxTag z s σ = .throws) := by
  unfold Dccrg.startBalanceD
  constructor
  · intro ho
    rw [show (fun i => Dccrg.initBalanceD g dflt s σ z i) = fun i => initBalance g dflt s z i from
      funext fun i => (hl.initBalanceD hw hz hc i).1 ho]
    obtain ⟨t', b0, -, -, -, -, e, h, -⟩ := hl.started hn hz dflt
    unfold startBalance
    rw [Out.collect_ok e, Out.bind_ok, Out.bind_ok]
    split
    · rfl
    · rw [if_neg]
      rintro ⟨i, e⟩
      rw [hl.core.owner, (h.dbgMoves hz (b1 := b0) (fun _ => rfl) fun _ => rfl).1] at e
      cases e
  · intro ho
    rw [Out.collect_throws hn fun i => (hl.initBalanceD hw hz hc i).2 ho]
    rfl

theorem Loose.balanceLoadD (hw : g.WF) (hn : 0 < n) (hl : Loose g w s) (hz : MovesOk w z)
    (hc : ∀ i, Coherent g i (s i) (σ i) b) :
    (OwnPins s → Dccrg.balanceLoadD g dflt maxTag z s σ = balanceLoad g dflt maxTag z s) ∧
    (¬ OwnPins s → Dccrg.balanceLoadD g dflt maxTag z s σ = .throws) := by
  unfold Dccrg.balanceLoadD
  constructor
  · intro ho
    rw [show (fun i => Dccrg.initBalanceD g dflt s σ z i) = fun i => initBalance g dflt s z i from
      funext fun i => (hl.initBalanceD hw hz hc i).1 ho]
    obtain ⟨t', b0, -, -, -, -, e, h, h'⟩ := hl.started hn hz dflt
    have hm := h.dbgMoves hz (b1 := b0) (fun _ => rfl) fun _ => rfl
    unfold balanceLoad
    rw [Out.collect_ok e, Out.bind_ok, Out.bind_ok, if_neg, if_neg]
    · unfold continueBalance
      cases htr : transfer maxTag (fun p => (b0 p).send) (fun q => (b0 q).recv) (fun p => (b0 p).proc.data)
        (fun p => (b0 p).proc.data) with
      | throws => rfl
      | hangs => rfl
      | undef => rfl
      | ok d =>
        rw [Out.bind_ok]
        simp only [Out.bind_ok]
        exact h.finishBalanceD hz (fun i => rfl) (fun i => rfl) (fun i => (h' i).1) fun i => (h' i).2
    · rw [hm.2]; simp
    · rintro ⟨i, e⟩
      rw [hl.core.owner, hm.1] at e
      cases e
  · intro ho
    rw [Out.collect_throws hn fun i => (hl.initBalanceD hw hz hc i).2 ho]
    rfl

/-- What is known between phases. -/
theorem Loose.mid (hw : g.WF) (hn : 0 < n) (hl : Loose g w s) (hz : MovesOk w z)
    (h1 : startBalance g dflt maxTag z s = .ok b0) {P : Op n D W → Prop} (h2 : Meanwhile g dflt maxTag P b0 k b1) :
    ∃ t', Inv g w t' ∧ Started g w dflt t' z b0 ∧ Midway g w b0 k b1 ∧ Asks g w (inside b1) ∧
      ∀ i, (b1 i).proc.pins = pinned w t' := by
  obtain ⟨t', b', f1, f2, f3, f4, f5, f6, f7⟩ := hl.started hn hz dflt
  have e : startBalance g dflt maxTag z t' = .ok b0 := by
    rw [← h1]
    unfold startBalance
    rw [show (fun i => initBalance g dflt t' z i) = fun i => initBalance g dflt s z i from
      funext fun i => (f4 i).trans (f5 i).symm]
  have hmid := meanwhile_midway hw hz f1.sys e h2
  refine ⟨t', f1, (startBalance_started hz f1.sys e).1, hmid, hmid.asks (Started.asks hz f1.sys e), fun i => ?_⟩
  rw [(hmid.proc i).pins, (startBalance_inv h1 i).2.1, f3]

/-- Calls of one process check something only in `unpin_local_cells`, which looks at owners and data of cells. -/
theorem Asks.stepD (hw : g.WF) (ha : Asks g w s) {op : Op n D W} {i : Fin n} (ho : op.caller = some i) :
    Dccrg.stepD g dflt maxTag s σ op = step g dflt maxTag s op := by
  cases op with
  | unpinLocal i =>
    show (if dbgLocal g i (s i) then _ else _) = _
    rw [if_pos]
    unfold dbgLocal
    rw [List.all_eq_true, ha.owner]
    intro c hc
    have hc := (mem_cellsIn ha.tiled).1 hc
    rw [getChild_leaf hw ha.tiled hc]
    by_cases e : w c = some i
    · rw [show (s i).has c = true from ha.own i c e]; simp
    · have : (w c != some i) = true := by simpa using e
      rw [this]; rfl
  | stop _ => cases ho
  | balance _ => cases ho
  | update _ => cases ho
  | _ => rfl

/-- Storing what has changed and verifying it doesn't throw. -/
theorem Storing.verified (hw : g.WF) (hn : 0 < n) (h : Storing g dflt maxTag s σ b) {op : Op n D W} (ho : op.Ok s)
    (hd : stepD g dflt maxTag s σ op = Dccrg.step g dflt maxTag s op) :
    stepStoredD g dflt maxTag s σ op = stepStored g dflt maxTag s σ op := by
  obtain ⟨hr, hc⟩ := h.coherent hw
  unfold stepStoredD stepStored
  rw [hd]
  cases hs : Dccrg.step g dflt maxTag s op with
  | throws => rfl
  | hangs => rfl
  | undef => rfl
  | ok s' =>
    have hr' : Reached g dflt maxTag s' := .step op hr ho hs
    obtain ⟨w, hl⟩ := hr.loose hw hn
    obtain ⟨w', hl'⟩ := hr'.loose hw hn
    obtain ⟨sc, tc, h1, h2, h3, h4, h5⟩ := hl.related hn ho hs
    have e : (fun i => storeAfterD g maxTag op i (s i) (s' i) (σ i)) =
        fun i => storeAfter g maxTag op i (s i) (s' i) (σ i) := by
      funext i
      obtain ⟨w1, hg⟩ := hr.good hw i
      obtain ⟨w2, hg'⟩ := hr'.good hw i
      rw [(h2 i).symm.storeAfterD (h5 i), (h2 i).symm.storeAfter (h5 i)]
      exact inv_storeAfterD hw h1 h3 h4 ((h2 i).good hg) ((h5 i).symm.good hg') (Or.inl rfl) ((h2 i).coherent (hc i))
    rw [Out.bind_ok, Out.bind_ok, e]
    obtain ⟨σ', e1, e2⟩ := Out.collect_all fun i => hr.storeAfter_ok hw ho hs (hc i)
    rw [e1, Out.bind_ok, Out.bind_ok]
    have : (if op.verifies g s then dbgAll g s' σ' else .ok true) = .ok true := by
      split
      · exact dbgAll_true (w := w') hw hn (fun i => hr'.good hw i) hl'.core.owner (Or.inl rfl) e2
      · rfl
    rw [this, Out.check_true]

theorem Executed.ownPins (hw : g.WF) (ht : Tiled g (exist w)) {R U : Nat → Prop} (hp : Plan g (exist w) R U)
    {res : Fin n → Proc n D W × List Nat} (h : ∀ i, Executed g w (newOwner g w R U) R U dflt s i (res i).1 (res i).2)
    (hs : ∀ i c, w c ≠ some i → (s i).newPins c = none) : OwnPins (fun i => (res i).1) := by
  intro i c hc
  have hc : ((res i).1.newPins c).isSome = true := hc
  show (res i).1.owner c = some i
  rw [(h i).owner]
  apply Classical.byContradiction
  intro hne
  have hx : (res i).1.newPins c = none := by
    by_cases hn : New g R c
    · rw [((h i).pinsNew c hn).2]
      rw [newOwner_new hw ht hp hn] at hne
      exact hs i _ hne
    by_cases he : exist w c = true ∧ ¬ R c ∧ ¬ Fam g U c
    · obtain ⟨h1, h2, h3⟩ := he
      rw [((h i).pinsSame c h1 h2 h3).2]
      rw [newOwner_same hw ht hp h1 h2 h3] at hne
      exact hs i _ hne
    · exact ((h i).pinsOther c hn he).2
  rw [hx] at hc
  cases hc

theorem Meanwhile.weaken {P Q : Op n D W → Prop} (h : Meanwhile g dflt maxTag P b0 k b1) (hP : ∀ op, P op → Q op) :
    Meanwhile g dflt maxTag Q b0 k b1 := by
  induction h with
  | start => exact .start
  | move m _ hr ih => exact .move m ih hr
  | call op i _ ho h hs ih => exact .call op i ih ho (hP op h) hs

/-! ## Properties -/

/-- C108: no check fails in operations other than load balancing. -/
theorem C108_operations (hw : g.WF) (hn : 0 < n) (h : Storing g dflt maxTag s σ b) {op : Op n D W} (ho : op.Ok s)
    (hb : ∀ z, op ≠ .balance z) : stepStoredD g dflt maxTag s σ op = stepStored g dflt maxTag s σ op := by
  obtain ⟨hr, hc⟩ := h.coherent hw
  obtain ⟨w, hl⟩ := hr.loose hw hn
  exact h.verified hw hn ho (stepD_core hw hn hl.core hl.req hl.clean.hoods (fun i => hr.good hw i) hc hb)

/-- C108: balance_load and initialize_balance_load throw if a process has requested a pin of a cell of another process, and
otherwise no check fails. -/
theorem C108_balance_partial (hw : g.WF) (hn : 0 < n) (h : Storing g dflt maxTag s σ b) (ho : (Op.balance z : Op n D W).Ok s) :
    (OwnPins s → stepStoredD g dflt maxTag s σ (.balance z) = stepStored g dflt maxTag s σ (.balance z) ∧
      startBalanceD g dflt maxTag z s σ = startBalance g dflt maxTag z s) ∧
    (¬ OwnPins s → stepStoredD g dflt maxTag s σ (.balance z) = .throws ∧ startBalanceD g dflt maxTag z s σ = .throws) := by
  obtain ⟨hr, hc⟩ := h.coherent hw
  obtain ⟨w, hl⟩ := hr.loose hw hn
  have hz := hl.moves hn ho
  have h1 := hl.balanceLoadD (dflt := dflt) (maxTag := maxTag) hw hn hz hc
  have h2 := hl.startBalanceD (dflt := dflt) (maxTag := maxTag) hw hn hz hc
  refine ⟨fun hp => ⟨h.verified hw hn ho (h1.1 hp), h2.1 hp⟩, fun hp => ⟨?_, h2.2 hp⟩⟩
  unfold stepStoredD
  rw [show stepD g dflt maxTag s σ (.balance z) = .throws from h1.2 hp]
  rfl

/-- C108: no check fails after load balancing has started. -/
theorem C108_phases (hw : g.WF) (hn : 0 < n) (h : Storing g dflt maxTag s σ b) (ho : (Op.balance z : Op n D W).Ok s)
    (h1 : startBalance g dflt maxTag z s = .ok b0) (h2 : Meanwhile g dflt maxTag (fun _ => True) b0 k b1) :
    (∀ m, runPhaseD maxTag b1 (.move m) = runPhase maxTag b1 (.move m)) ∧
    (∀ (op : Op n D W) i, op.caller = some i →
      stepD g dflt maxTag (inside b1) (fun i => openStore (b0 i) (σ i)) op = step g dflt maxTag (inside b1) op) ∧
    finishStoredD g dflt maxTag b1 (fun i => openStore (b0 i) (σ i)) =
      finishStored g dflt maxTag b1 (fun i => openStore (b0 i) (σ i)) := by
  obtain ⟨hr, hc⟩ := h.coherent hw
  obtain ⟨w, hl⟩ := hr.loose hw hn
  have hz := hl.moves hn ho
  obtain ⟨t', f1, f2, f3, f4, f5⟩ := hl.mid hw hn hz h1 h2
  have hm := f2.dbgMoves hz f3.send f3.recv
  refine ⟨fun m => ?_, fun op i hi => f4.stepD hw hi, ?_⟩
  · show (if dbgSelf (fun p => (b1 p).send) (fun p => (b1 p).recv) = false then _ else _) = _
    rw [hm.2, if_neg (by simp)]
  · unfold finishStoredD finishStored
    rw [f2.finishBalanceD hz f3.send f3.recv (fun i => (f3.proc i).owner) f5]
    cases h3 : finishBalance g dflt maxTag b1 with
    | throws => rfl
    | hangs => rfl
    | undef => rfl
    | ok t =>
      have hr' : Reached g dflt maxTag t := .phases z hr ho h1 h2 h3
      obtain ⟨w', hl'⟩ := hr'.loose hw hn
      rw [Out.bind_ok, Out.bind_ok, show (fun i => rebuildStoreD g maxTag false i (t i) { openStore (b0 i) (σ i) with
          send := fun _ => []
          recv := fun _ => [] }) = fun i => closeStore g maxTag i (t i) (openStore (b0 i) (σ i)) from funext fun i => by
        obtain ⟨w1, hg⟩ := hr.good hw i
        obtain ⟨w2, hg'⟩ := hr'.good hw i
        have hk := (hc i).keyed
        have hlev : dbgLevels g (σ i).ptr = true := (hc i).levels' hw hg (Or.inl rfl)
        rw [← hl.phases_hoods hw hn ho h1 h2 h3] at hk
        exact rebuildStoreD_eq (σ := { openStore (b0 i) (σ i) with send := fun _ => [], recv := fun _ => [] }) hw hg' ⟨hk.userOf, hk.userTo, fun _ _ => rfl, fun _ _ => rfl, fun _ _ => rfl, fun _ _ => rfl,
          hk.userPtr⟩ hlev false]
      obtain ⟨σ', e1, e2⟩ := Out.collect_all fun i => hr.closeStore_ok hw ho h1 h2 h3 (hc i)
      rw [e1, Out.bind_ok, Out.bind_ok, dbgAll_true (w := w') hw hn (fun i => hr'.good hw i) hl'.core.owner (Or.inl rfl) e2,
        Out.check_true]

/-- C108: pins of cells of other processes are requested only by processes that request a pin between phases of load balancing. -/
theorem C108_own (hw : g.WF) (hn : 0 < n) (h : Reached g dflt maxTag s) :
    (∀ op : Op n D W, op.Ok s → OwnPins s → Dccrg.step g dflt maxTag s op = .ok s' → OwnPins s') ∧
    (∀ {D' : Type} (dflt' : D'), OwnPins s → OwnPins (copyGrid g dflt' s)) ∧
    (∀ {z k b0 b1}, (Op.balance z : Op n D W).Ok s → startBalance g dflt maxTag z s = .ok b0 →
      Meanwhile g dflt maxTag (fun op => ∀ c, op.NoPin c) b0 k b1 → finishBalance g dflt maxTag b1 = .ok t → OwnPins t) := by
  obtain ⟨w, hl⟩ := h.loose hw hn
  refine ⟨fun op ho hp hs => ?_, fun dflt' hp => hp, fun {z k b0 b1} ho h1 h2 h3 => ?_⟩
  · by_cases hq : op.Quiet
    · intro i c hc
      have e : (s' i).owner = (s i).owner := (step_quiet op hq hs i).1
      rw [e]
      apply Classical.byContradiction
      intro hne
      have hx : (s i).newPins c = none := by
        cases hx : (s i).newPins c with
        | none => rfl
        | some v => exact absurd (hp i c (by rw [hx]; rfl)) hne
      rw [quiet_newPins hq hs hne hx] at hc
      cases hc
    · cases op with
      | stop sorted =>
        obtain ⟨res, e1, e2⟩ := Out.bind_inv hs
        injection e2 with e2
        subst e2
        have e3 := (stopRefining_sound hw hl.core hl.req e1).1
        have ht := hl.core.tiled
        have hnone : ∀ i c, w c ≠ some i → (s i).newPins c = none := by
          intro i c hne
          cases hx : (s i).newPins c with
          | none => rfl
          | some v => exact absurd ((hl.core.owner i ▸ hp i c (by rw [hx]; rfl) : w c = some i)) hne
        exact Executed.ownPins hw ht e3.plan e3.exec hnone
      | balance z =>
        obtain ⟨w', hi', -⟩ := hl.balance hw hn ho hs
        intro i c hc
        rw [hi'.sys.owner]
        apply Classical.byContradiction
        intro hne
        rw [hi'.sys.newPins i c hne] at hc
        cases hc
      | _ => exact absurd trivial hq
  · intro i c hc
    obtain ⟨t', f1, f2, f4, f3⟩ := tidied hl.clean hl.pins ⟨0, hn⟩
    have e : startBalance g dflt maxTag z t' = .ok b0 := by
      rw [← h1]
      unfold startBalance
      rw [show (fun i => initBalance g dflt t' z i) = fun i => initBalance g dflt s z i from funext (f3 dflt z)]
    obtain ⟨t0, -, e2, -⟩ := overlapped_inv hw hn f1 (hl.moves hn ho) e h2 h3
    rw [e2 i] at hc
    have hc : ((b1 i).proc.newPins c).isSome = true := hc
    have hm : Meanwhile g dflt maxTag (Op.NoPin c) b0 k b1 := h2.weaken fun op h => h c
    rw [hm.newPins i, (startBalance_inv h1 i).2.2.1] at hc
    cases hc

/-- C108: a grid whose load can be balanced in release builds and not in debug builds. Process 0 had requested a pin of its cell
1 while cell 1 was moving to process 1. -/
theorem C108_false : ∃ (t u : Sys 2 Nat Nat) (σ σ' : Fin 2 → Store 2) (b : Bool), tinyG.WF ∧ Storing tinyG 0 146 t σ b ∧
    (Op.balance stay : Op 2 Nat Nat).Ok t ∧ stepStored tinyG 0 146 t σ (.balance stay) = .ok (u, σ') ∧
    stepStoredD tinyG 0 146 t σ (.balance stay) = .throws := by
  obtain ⟨s, s2, t, b, b1, h1, h2, h3, h4, h5, h6, h7, h8, h9, -⟩ := tiny_pin_leaving
  have hm : Meanwhile tinyG 0 146 (fun _ => True) b _ (putInside b1 s2) :=
    .call (.pin 0 1 0) 0 (.move (fun _ _ _ v _ => v) .start h4) rfl trivial h6
  have hr : Reached tinyG 0 146 t := .phases move1 h1.reached h2 h3 hm h7
  obtain ⟨σ, b', hst⟩ := hr.storing tiny_wf
  have ho : (Op.balance stay : Op 2 Nat Nat).Ok t := fun i => stay_ok _
  obtain ⟨u, e1⟩ := (C105_returns tiny_wf (by omega) hr (by decide)).1 (.balance stay) ho trivial
  obtain ⟨σ', e2⟩ := hst.step_ok tiny_wf _ ho e1
  refine ⟨t, u, σ, σ', b', tiny_wf, hst, ho, e2, ((C108_balance_partial tiny_wf (by omega) hst ho).2 fun hp => ?_).1⟩
  have := hp 0 1 (by rw [h9]; rfl)
  rw [h8] at this
  cases this

/-! ## Examples -/

/-- Load balancing in phases with requests to refine in between in debug builds. -/
example : ∃ (s t : Sys 2 Nat Nat) (σ σ' : Fin 2 → Store 2) (b0 b1 : Fin 2 → Balancing 2 Nat Nat) (k : Calls), tinyG.WF ∧
    Storing tinyG 0 146 s σ true ∧ (Op.balance stay : Op 2 Nat Nat).Ok s ∧ OwnPins s ∧
    startBalanceD tinyG 0 146 stay s σ = .ok b0 ∧ Meanwhile tinyG 0 146 (fun op => ∀ c, op.NoPin c) b0 k b1 ∧
    finishStoredD tinyG 0 146 b1 (fun i => openStore (b0 i) (σ i)) = .ok (t, σ') ∧ OwnPins t := by
  obtain ⟨s, σ, h1, h2⟩ := tiny_hood
  have hst := h1.storing
  obtain ⟨hr', -⟩ := h1.coherent tiny_wf
  obtain ⟨hr, -⟩ := hst.coherent tiny_wf
  have hp : OwnPins s := by
    obtain ⟨w, hi⟩ := hr'.inv tiny_wf (by omega)
    intro i c hc
    rw [hi.sys.owner]
    apply Classical.byContradiction
    intro hne
    rw [hi.sys.newPins i c hne] at hc
    cases hc
  have ho : (Op.balance stay : Op 2 Nat Nat).Ok s := fun i => stay_ok _
  obtain ⟨b0, e2, e3⟩ := (C105_returns tiny_wf (by omega) hr (by decide)).2 stay ho
  obtain ⟨f1, -, -⟩ := e3 _ _ .start
  obtain ⟨s2, f2⟩ := f1 (.refine 0 1) 0 rfl
  have hm := Meanwhile.call (P := fun op => ∀ c, op.NoPin c) (.refine 0 1) 0 (.start (b := b0)) rfl (fun _ => trivial) f2
  have hm' := hm.weaken (Q := fun _ => True) fun _ _ => trivial
  obtain ⟨-, -, t, f3⟩ := e3 _ _ hm'
  obtain ⟨σ', f4⟩ := hst.phases_ok tiny_wf ho e2 hm' f3
  refine ⟨s, t, σ, σ', b0, _, _, tiny_wf, hst, ho, hp, ((C108_balance_partial tiny_wf (by omega) hst ho).1 hp).2.trans e2, hm, ?_,
    (C108_own tiny_wf (by omega) hr (s' := s)).2.2 ho e2 hm f3⟩
  rw [(C108_phases tiny_wf (by omega) hst ho e2 hm').2.2]
  unfold finishStored
  rw [f3, Out.bind_ok, f4, Out.bind_ok]

end Dccrg
