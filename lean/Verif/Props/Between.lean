import Verif.Between
import Verif.Props.Phases
import Verif.Props.Refine
import Verif.Debug
/-!
# C103, C104: calls while load is being balanced

* `Overlapped g dflt maxTag k s`: load was balanced by `initialize_balance_load`, any number of `continue_balance_load` and
  `finish_balance_load` and any process could call any functions for one process in between, after that any functions
  except for `stop_refining` and load balancing were called and the state of all processes is `s`. Calls `k` returned true
  between start of load balancing and now (Verif/Between.lean);
* the rest is as in Verif/Props/Refine.lean.
-/
namespace Dccrg
open Cfg
variable {n : Nat} {D W : Type} {g : Cfg} {w : Owner n} {s s' t : Sys n D W} {dflt : D} {maxTag : Nat}
  {z : Fin n → Moves n} {k : Calls} {b b1 : Fin n → Balancing n D W} {sorted : Bool} {res : Fin n → Proc n D W × List Nat}

/-! ## Proofs -/

/-- State after `initialize_balance_load`. -/
theorem startBalance_inv (h : startBalance g dflt maxTag z s = .ok b) (i : Fin n) :
    (b i).proc.owner = (s i).owner ∧ (b i).proc.pins = updatePins s i ∧ (b i).proc.newPins = (fun _ => none) ∧
    (b i).proc.weights = (fun _ => none) ∧ (b i).proc.req = ⟨[], [], [], []⟩ ∧ (b i).proc.hoods = (s i).hoods := by
  unfold startBalance at h
  obtain ⟨b', h1, h2⟩ := Out.bind_inv h
  split at h2
  · cases h2
  · injection h2 with h2
    subst h2
    have := Out.collect_inv h1 i
    unfold initBalance at this
    simp only at this
    split at this
    · cases this
    · injection this with this
      rw [← this]
      exact ⟨rfl, rfl, rfl, rfl, rfl, rfl⟩

/-- It is what `Started` tells. -/
theorem startBalance_started (hz : MovesOk w z) (hs : SysOk g w s) (h : startBalance g dflt maxTag z s = .ok b) :
    Started g w dflt s z b ∧ ¬ tagsOver maxTag b := by
  obtain ⟨b', i1, i2⟩ := initBalance_spec dflt hz hs
  unfold startBalance at h
  rw [Out.collect_ok i1, Out.bind_ok] at h
  split at h
  · cases h
  · next ht =>
    injection h with h
    subst h
    exact ⟨i2, ht⟩

theorem Started.asks (hz : MovesOk w z) (hs : SysOk g w s) (h : startBalance g dflt maxTag z s = .ok b) :
    Asks g w (inside b) := by
  obtain ⟨h1, -⟩ := startBalance_started hz hs h
  refine ⟨fun i => (startBalance_inv h i).1.trans (hs.owner i), hs.tiled, hs.balanced, fun i c hc => ?_, fun i c hc => ?_⟩
  · show ((b i).proc.data c).isSome = true
    rw [h1.keeps i c hc]
    exact (hs.placed i c).2 hc
  · by_cases e1 : w c = some i
    · exact exist_of e1
    · by_cases e2 : ∃ p, Goes w (pinned w s) z p i c
      · obtain ⟨p, hp⟩ := e2
        exact exist_of hp.2.1
      · have : (b i).proc.data c = none := h1.other i c e1 fun p hp => e2 ⟨p, hp⟩
        rw [show ((inside b) i).data c = (b i).proc.data c from rfl, this] at hc
        cases hc

/-- Everything that is known before `finish_balance_load`. -/
theorem meanwhile_midway (hw : g.WF) (hz : MovesOk w z) (hs : SysOk g w s) (h : startBalance g dflt maxTag z s = .ok b)
    {P : Op n D W → Prop} (hm : Meanwhile g dflt maxTag P b k b1) : Midway g w b k b1 := by
  obtain ⟨h1, -⟩ := startBalance_started hz hs h
  refine hm.midway hw ⟨fun _ => rfl, fun _ => rfl, fun i => ?_, Stored.empty fun i => (startBalance_inv h i).2.2.2.2.1⟩
    (Started.asks hz hs h)
  obtain ⟨e1, e2, e3, e4, e5, e6⟩ := startBalance_inv h i
  refine ⟨e1.trans (hs.owner i), fun _ => rfl, rfl, rfl, h1.remote i, h1.refined i, h1.unrefined i, fun c _ => by rw [e3],
    fun c _ => by rw [e4], ?_⟩
  rw [e5]
  exact ⟨fun c hc => (by cases hc), fun c hc => (by cases hc)⟩

/-- Replace requests and weights of a process. -/
def withNotes (p : Proc n D W) (r : Req) (a : Nat → Option (Option (Fin n))) (x : Nat → Option W) : Proc n D W :=
  { p with req := r, newPins := a, weights := x }

theorem rebuild_notes {i : Fin n} {p q : Proc n D W} (r : Req) (a : Nat → Option (Option (Fin n))) (x : Nat → Option W)
    (h : rebuild g dflt maxTag i p = .ok q) : rebuild g dflt maxTag i (withNotes p r a x) = .ok (withNotes q r a x) := by
  unfold rebuild at h ⊢
  have e1 : neighborsFound g (withNotes p r a x) = neighborsFound g p := rfl
  have e2 : tagsFit g maxTag i (withNotes p r a x) = tagsFit g maxTag i p := rfl
  rw [e1, e2]
  split at h
  · cases h
  · next h1 =>
    rw [if_neg h1]
    split at h
    · cases h
    · next h2 =>
      rw [if_neg h2]
      injection h with h
      subst h
      rfl

/-- Requests and weights don't affect `finish_balance_load` and are not affected by it. -/
theorem finishBalance_notes (r : Fin n → Req) (a : Fin n → Nat → Option (Option (Fin n))) (x : Fin n → Nat → Option W)
    (h : finishBalance g dflt maxTag b = .ok t) :
    finishBalance g dflt maxTag (fun i => { b i with proc := withNotes (b i).proc (r i) (a i) (x i) }) =
      .ok fun i => withNotes (t i) (r i) (a i) (x i) := by
  unfold finishBalance at h ⊢
  apply Out.collect_ok
  intro i
  have hi := Out.collect_inv h i
  split at hi
  · cases hi
  · next h1 => exact (if_neg h1).trans (rebuild_notes (r i) (a i) (x i) hi)

/-- Grid after load balancing that was given its data in phases. -/
theorem finish_shape (hz : MovesOk w z) (hs : SysOk g w s) (h : startBalance g dflt maxTag z s = .ok b)
    (sh : SameShape b b1) (hf : finishBalance g dflt maxTag b1 = .ok t) :
    ∃ t0, balanceLoad g dflt maxTag z s = .ok t0 ∧
      t = (fun i => { t0 i with data := fun c => if ∃ q, c ∈ (b i).send q then none else (b1 i).proc.data c }) ∧
      ∀ i c, ((t i).data c).isSome = ((t0 i).data c).isSome := by
  obtain ⟨b0, i1, i2⟩ := initBalance_spec dflt hz hs
  have s1 := h
  unfold startBalance at s1
  rw [Out.collect_ok i1, Out.bind_ok] at s1
  split at s1
  · cases s1
  next ht =>
  injection s1 with s1
  subst s1
  obtain ⟨b2, hc, sh2⟩ := continue_shape hz hs i2 ht
  have f1 := finishBalance_shape (sh.symm.trans sh2) hf
  have f2 := finishBalance_shape (sh2.symm.trans sh) f1
  rw [hf] at f2
  injection f2 with f2
  simp only [sh2.send] at f2
  refine ⟨fun i => { t i with data := fun c => if ∃ q, c ∈ (b1 i).send q then none else (b2 i).proc.data c }, ?_, f2, ?_⟩
  · unfold balanceLoad
    rw [Out.collect_ok i1, Out.bind_ok, hc, Out.bind_ok]
    exact f1
  · intro i c
    have f3 : (t i).data = fun c => if ∃ q, c ∈ (b0 i).send q then none else (b1 i).proc.data c := by
      have := congrFun f2 i
      rw [this]
    rw [f3]
    show Option.isSome (if ∃ q, c ∈ (b0 i).send q then none else (b1 i).proc.data c) =
      Option.isSome (if ∃ q, c ∈ (b1 i).send q then none else (b2 i).proc.data c)
    rw [sh.send]
    split
    · rfl
    · rw [sh.some, sh2.some]

/-- State before `finish_balance_load` without requests. -/
def quieted (b1 : Fin n → Balancing n D W) : Fin n → Balancing n D W := fun i =>
  { b1 i with proc := withNotes (b1 i).proc ⟨[], [], [], []⟩ (fun _ => none) (fun _ => none) }

theorem Midway.shape (hm : Midway g w b k b1) (h : startBalance g dflt maxTag z s = .ok b) (hs : SysOk g w s)
    (hz : MovesOk w z) : SameShape b (quieted b1) := by
  obtain ⟨h1, -⟩ := startBalance_started hz hs h
  refine ⟨fun i => ?_, fun i c => (hm.proc i).some c⟩
  obtain ⟨e1, e2, e3, e4, e5, e6⟩ := startBalance_inv h i
  have hp := hm.proc i
  have f1 := hm.recv i
  have f2 := hm.send i
  have g1 := h1.remote i
  have g2 := h1.refined i
  have g3 := h1.unrefined i
  have eo : (b i).proc.owner = w := e1.trans (hs.owner i)
  obtain ⟨p1, p2, p3, p4, p5, p6, p7, -, -, -⟩ := hp
  unfold quieted withNotes
  cases hb : b i with
  | mk p r q =>
    cases hb1 : b1 i with
    | mk p' r' q' =>
      rw [hb, hb1] at f1 f2
      rw [hb] at e3 e4 e5 g1 g2 g3 eo
      rw [hb1] at p1 p5 p6 p7
      rw [hb, hb1] at p3 p4
      simp only at *
      subst f1 f2
      cases p
      cases p'
      simp only at *
      subst p1 p3 p4 p5 p6 p7 e3 e4 e5 g1 g2 g3
      rw [eo]

/-- What is known after `finish_balance_load`. -/
theorem overlapped_inv (hw : g.WF) (hn : 0 < n) (hi : Inv g w s) (hz : MovesOk w z)
    (h : startBalance g dflt maxTag z s = .ok b) {P : Op n D W → Prop} (hm : Meanwhile g dflt maxTag P b k b1)
    (hf : finishBalance g dflt maxTag b1 = .ok t) :
    ∃ t0 : Sys n D W, balanceLoad g dflt maxTag z s = .ok t0 ∧
      (∀ i, t i = { t0 i with
        data := (t i).data
        req := (b1 i).proc.req
        newPins := (b1 i).proc.newPins
        weights := (b1 i).proc.weights }) ∧
      (∀ i c, ((t i).data c).isSome = ((t0 i).data c).isSome) ∧
      Inv g (newHome w (pinned w s) z) (fun i => withNotes (t i) (t i).req (fun _ => none) (fun _ => none)) ∧
      Stored g (newHome w (pinned w s) z) k t := by
  have hs := hi.sys
  have hmid := meanwhile_midway hw hz hs h hm
  have hq := finishBalance_notes (fun _ => ⟨[], [], [], []⟩) (fun _ _ => none) (fun _ _ => none) hf
  obtain ⟨t0, h1, h2, h3⟩ := finish_shape (b1 := quieted b1) hz hs h (hmid.shape h hs hz) hq
  have hback := finishBalance_notes (fun i => (b1 i).proc.req) (fun i => (b1 i).proc.newPins) (fun i => (b1 i).proc.weights) hq
  have e1 : finishBalance g dflt maxTag b1 = .ok fun i => withNotes (withNotes (t i) ⟨[], [], [], []⟩ (fun _ => none)
      fun _ => none) (b1 i).proc.req (b1 i).proc.newPins (b1 i).proc.weights := hback
  rw [hf] at e1
  injection e1 with e1
  have hre := balanceLoad_sound hw hz hs h1
  obtain ⟨w', hi'⟩ := hi.step hw (op := .balance z) (fun i => by rw [hs.owner]; exact hz) h1
  have ew : w' = newHome w (pinned w s) z := by rw [← hi'.sys.owner ⟨0, hn⟩, (hre _).owner]
  subst ew
  have ht : ∀ i, t i = { t0 i with
        data := (t i).data
        req := (b1 i).proc.req
        newPins := (b1 i).proc.newPins
        weights := (b1 i).proc.weights } := by
    intro i
    have f1 := congrFun e1 i
    have f2 := congrFun h2 i
    simp only at f2
    have f3 : withNotes (withNotes (t i) ⟨[], [], [], []⟩ (fun _ => none) fun _ => none) (b1 i).proc.req (b1 i).proc.newPins
      (b1 i).proc.weights = { withNotes (t i) ⟨[], [], [], []⟩ (fun _ => none) (fun _ => none) with
        req := (b1 i).proc.req, newPins := (b1 i).proc.newPins, weights := (b1 i).proc.weights } := rfl
    rw [f3] at f1
    have f4 : (t i).data = (withNotes (t i) ⟨[], [], [], []⟩ (fun _ => none) (fun _ => none)).data := rfl
    rw [f2] at f1 f4
    rw [f4]
    exact f1
  have hd : ∀ i c, ((t i).data c).isSome = ((t0 i).data c).isSome := h3
  have ee : exist (newHome w (pinned w s) z) = exist w := funext fun c => exist_newHome
  have hk := hmid.stored
  have hreq : ∀ i, (t i).req = (b1 i).proc.req := fun i => by rw [ht i]
  have eo : ∀ i, (t i).owner = (t0 i).owner := fun i => by rw [ht i]
  have ep : ∀ i, (t i).pins = (t0 i).pins := fun i => by rw [ht i]
  have eh : ∀ i, (t i).hoods = (t0 i).hoods := fun i => by rw [ht i]
  refine ⟨t0, h1, ht, hd, ⟨⟨fun i => (eo i).trans (hi'.sys.owner i), hi'.sys.tiled, hi'.sys.balanced, fun i c => ?_,
    fun i c hc => ⟨?_, rfl⟩, fun i j c => ?_, fun _ _ _ => rfl, fun _ _ _ => rfl, fun i h hh => ?_⟩, fun i => ?_, fun i j => ?_⟩, ?_⟩
  · show ((t i).data c).isSome = true ↔ _
    rw [hd]; exact hi'.sys.placed i c
  · show (t i).pins c = none
    rw [ep]; exact (hi'.sys.pins i c hc).1
  · show (t i).pins c = (t j).pins c
    rw [ep, ep]; exact hi'.sys.pinsAgree i j c
  · have hh : h ∈ (t i).hoods := hh
    rw [eh] at hh; exact hi'.sys.hoods i h hh
  · show ReqOk g _ (t i).req
    rw [hreq]
    have := (hmid.proc i).req
    exact ⟨by rw [ee]; exact this.refine, by rw [ee]; exact this.unrefine⟩
  · show (t i).hoods = (t j).hoods
    rw [eh, eh]; exact hi'.hoods i j
  · have := hk.congr (s' := t) hreq (fun _ => Iff.rfl) (fun _ => Iff.rfl) (fun _ => Iff.rfl) (fun _ => Iff.rfl)
    exact ⟨this.refine, this.refine', this.dontRefine, this.dontRefine', this.unrefine', this.dontUnrefine, this.dontUnrefine',
      this.unrefine, by rw [ee]; exact this.unrefineOwn, by rw [ee]; exact this.refineOwn, by rw [ee]; exact this.dontUnrefineOwn, this.refineTop⟩

theorem Overlapped.recorded (hw : g.WF) (h : Overlapped g dflt maxTag k s) (j : Fin n) : Recorded g k s := by
  have hn : 0 < n := by have := j.2; omega
  induction h with
  | finish z hr ho h1 h2 h3 =>
    obtain ⟨w, hi⟩ := hr.inv hw hn
    have hz : MovesOk w z := by have := ho ⟨0, hn⟩; rwa [hi.sys.owner] at this
    obtain ⟨t0, -, -, -, h4, h5⟩ := overlapped_inv hw hn hi hz h1 h2 h3
    exact ⟨_, _, h4, h5.congr (fun _ => rfl) (fun _ => Iff.rfl) (fun _ => Iff.rfl) (fun _ => Iff.rfl) (fun _ => Iff.rfl),
      fun i => rfl⟩
  | call op _ hq hs ih => exact ih.call hw hq hs

/-- Functions for one process return while load is being balanced. -/
theorem Asks.step_ok (hw : g.WF) (ha : Asks g w s) {op : Op n D W} {i : Fin n} (ho : op.caller = some i) :
    ∃ s', step g dflt maxTag s op = .ok s' := by
  have ht := ha.tiled
  have hb := ha.balanced
  cases op with
  | refine i c =>
    show ∃ s', s.ask i _ = _
    obtain ⟨w', e, hp⟩ := ha.view i
    rw [ha.owner i]
    rw [← e] at ht hb ⊢
    unfold Sys.ask
    by_cases hi : w' c = some i
    · have hle := lvl_le (ht.valid c (exist_of hi))
      by_cases hl : g.lvl c = g.maxLvl
      · obtain ⟨r', h1, -⟩ := refineCompletely_max (r := (s i).req) hw ht hp hi hl
        rw [h1]; exact ⟨_, rfl⟩
      · by_cases hr : Refused g w' (s i).req c
        · rw [refineCompletely_refused hw ht hb hp hi (by omega) hr]; exact ⟨_, rfl⟩
        · rw [refineCompletely_ok hw ht hb hp hi (by omega) hr]; exact ⟨_, rfl⟩
    · rw [refineCompletely_false hp hi]; exact ⟨_, rfl⟩
  | unrefine i c =>
    show ∃ s', s.ask i _ = _
    obtain ⟨w', e, hp⟩ := ha.view i
    rw [ha.owner i]
    rw [← e] at ht hb ⊢
    unfold Sys.ask
    by_cases hi : w' c = some i
    · obtain ⟨b, r', h1, -⟩ := unrefineCompletely_spec (r := (s i).req) hw ht hb hp hi
      rw [h1]; exact ⟨_, rfl⟩
    · rw [unrefineCompletely_false hp hi]; exact ⟨_, rfl⟩
  | dontRefine i c =>
    show ∃ s', s.ask i _ = _
    rw [ha.owner i]
    obtain ⟨b, r', h1, -⟩ := dontRefine_spec (r := (s i).req) (c := c) ht
    rw [h1]; exact ⟨_, rfl⟩
  | dontUnrefine i c =>
    show ∃ s', s.ask i _ = _
    rw [ha.owner i]
    obtain ⟨b, r', h1, -⟩ := dontUnrefine_spec (r := (s i).req) (c := c) hw ht
    rw [h1]; exact ⟨_, rfl⟩
  | pin i c q => exact ⟨_, rfl⟩
  | unpin i c => exact ⟨_, rfl⟩
  | unpinLocal i => exact ⟨_, rfl⟩
  | setWeight i c x => exact ⟨_, rfl⟩
  | write i c v => exact ⟨_, rfl⟩
  | clearRefined i => exact ⟨_, rfl⟩
  | unpinAll => cases ho
  | removeHood id => cases ho
  | update id => cases ho
  | addHood id items => cases ho
  | stop sorted => cases ho
  | balance z => cases ho

theorem Midway.going (hm : Midway g w b k b1) {G : Fin n → Fin n → Nat → Prop} (h : Going G b) : Going G b1 := by
  have er : (fun i => (b1 i).recv) = fun i => (b i).recv := funext hm.recv
  have es : (fun i => (b1 i).send) = fun i => (b i).send := funext hm.send
  refine ⟨fun p q c => by rw [hm.recv]; exact h.recv p q c, fun p q c => by rw [hm.send]; exact h.send p q c, ?_, h.uniq, h.irrefl,
    fun p q c hg => by rw [(hm.proc p).some]; exact h.sender p q c hg, fun i => (hm.proc i).remote,
    fun i => (hm.proc i).refined, fun i => (hm.proc i).unrefined⟩
  rw [er, es]
  exact h.lists

/-! ## Properties -/

/-- C103: calls made while load is balanced change nothing about it: cells, owners, copies of remote neighbors,
neighborhoods and pins that were in effect are the same as after `balance_load`. Data of cells is on the same processes. What was
requested in between is still there. -/
theorem C103_same_grid (hw : g.WF) (h : Reachable g dflt maxTag s) (ho : (Op.balance z : Op n D W).Ok s)
    (hs : startBalance g dflt maxTag z s = .ok b) (hm : Meanwhile g dflt maxTag (fun _ => True) b k b1)
    (hf : finishBalance g dflt maxTag b1 = .ok t) (i : Fin n) :
    ∃ t0 : Sys n D W, step g dflt maxTag s (.balance z) = .ok t0 ∧ (t i).owner = (t0 i).owner ∧
      (t i).remote = (t0 i).remote ∧ (t i).pins = (t0 i).pins ∧ (t i).hoods = (t0 i).hoods ∧
      (∀ c, ((t i).data c).isSome = ((t0 i).data c).isSome) ∧
      (t i).req = (b1 i).proc.req ∧ (t i).newPins = (b1 i).proc.newPins ∧ (t i).weights = (b1 i).proc.weights := by
  have hn : 0 < n := by have := i.2; omega
  obtain ⟨w, hi⟩ := h.inv hw hn
  have hz : MovesOk w z := by have := ho ⟨0, hn⟩; rwa [hi.sys.owner] at this
  obtain ⟨t0, h1, h2, h3, -⟩ := overlapped_inv hw hn hi hz hs hm hf
  refine ⟨t0, h1, ?_, ?_, ?_, ?_, h3 i, ?_, ?_, ?_⟩ <;> rw [h2 i]

theorem between_ok (hw : g.WF) (hn : 0 < n) (hi : Inv g w s) (hz : MovesOk w z) (ht : g.last ≤ maxTag) :
    ∃ b, startBalance g dflt maxTag z s = .ok b ∧ ∀ k b1, Meanwhile g dflt maxTag (fun _ => True) b k b1 →
      (∀ op i, op.caller = some i → ∃ s2, step g dflt maxTag (inside b1) op = .ok s2) ∧
      (∀ m, ∃ b2, runPhase maxTag b1 (.move m) = .ok b2) ∧ ∃ t, finishBalance g dflt maxTag b1 = .ok t := by
  obtain ⟨t0, h0⟩ := phases_ok (dflt := dflt) hw hn hi hz ht []
  unfold balancePhases at h0
  obtain ⟨b, h1, h2⟩ := Out.bind_inv h0
  obtain ⟨b', h3, h4⟩ := Out.bind_inv h2
  injection h3 with h3
  subst h3
  refine ⟨b, h1, fun k b1 hm => ?_⟩
  have hmid := meanwhile_midway hw hz hi.sys h1 hm
  obtain ⟨e1, e2⟩ := startBalance_started hz hi.sys h1
  have hg := hmid.going (e1.going hz hi.sys)
  refine ⟨fun op i hop => (hmid.asks (Started.asks hz hi.sys h1)).step_ok hw hop, fun m => ?_, ?_⟩
  · obtain ⟨b2, h5, -⟩ := runPhase_spec (maxTag := maxTag) hg (by
      rintro ⟨p, q, h⟩
      rw [hmid.send, hmid.recv] at h
      exact e2 ⟨p, q, h⟩) (.move m)
    exact ⟨b2, h5⟩
  · have f1 := finishBalance_shape (hmid.shape h1 hi.sys hz) h4
    have f2 := finishBalance_notes (fun i => (b1 i).proc.req) (fun i => (b1 i).proc.newPins) (fun i => (b1 i).proc.weights) f1
    exact ⟨_, f2⟩

/-- C103: with enough tags all functions return, whatever has been called since the start of load balancing. -/
theorem C103_returns (hw : g.WF) (hn : 0 < n) (h : Reachable g dflt maxTag s) (ho : (Op.balance z : Op n D W).Ok s)
    (ht : g.last ≤ maxTag) :
    ∃ b, startBalance g dflt maxTag z s = .ok b ∧ ∀ k b1, Meanwhile g dflt maxTag (fun _ => True) b k b1 →
      (∀ op i, op.caller = some i → ∃ s2, step g dflt maxTag (inside b1) op = .ok s2) ∧
      (∀ m, ∃ b2, runPhase maxTag b1 (.move m) = .ok b2) ∧ ∃ t, finishBalance g dflt maxTag b1 = .ok t := by
  obtain ⟨w, hi⟩ := h.inv hw hn
  exact between_ok hw hn hi (by have := ho ⟨0, hn⟩; rwa [hi.sys.owner] at this) ht

/-- C103: `stop_refining` returns afterwards. -/
theorem C103_stop_returns (hw : g.WF) (hn : 0 < n) (h : Overlapped g dflt maxTag k s) (ht : g.last ≤ maxTag) (sorted : Bool) :
    ∃ res, stopRefining g dflt maxTag sorted s = .ok res := by
  obtain ⟨w, t, hi, hst, ha⟩ := h.recorded hw ⟨0, hn⟩
  obtain ⟨t', h1⟩ := step_ok hw hn dflt hi ht (.stop sorted) trivial trivial
  obtain ⟨res', h2, -⟩ := Out.bind_inv h1
  obtain ⟨res, h3, -⟩ := (stopRefining_alike ha).inv h2
  exact ⟨res, h3⟩

/-- C103: cells refined by `stop_refining` are those that have to be because of requests made since the start of load
balancing, as in `C24_refined_cells`. -/
theorem C103_refined_cells (hw : g.WF) (h : Overlapped g dflt maxTag k s)
    (hr : stopRefining g dflt maxTag sorted s = .ok res) (j : Fin n) {c : Nat} (hc : exist (s j).owner c = true) :
    Finer g (exist (res j).1.owner) c ↔ Forced g (exist (s j).owner) k c :=
  (h.recorded hw j).refined_cells hw hr j hc

/-- C103: a refined cell is replaced by its eight children. -/
theorem C103_children (hw : g.WF) (h : Overlapped g dflt maxTag k s)
    (hr : stopRefining g dflt maxTag sorted s = .ok res) (j : Fin n) {c : Nat}
    (hc : exist (s j).owner c = true) (hf : Finer g (exist (res j).1.owner) c) :
    exist (res j).1.owner c = false ∧ ∀ x ∈ g.children c, exist (res j).1.owner x = true :=
  (h.recorded hw j).refined_children hw hr j hc hf

/-- C103: a cell for which `dont_refine` returned true on any process is not refined. -/
theorem C103_dont_refine (hw : g.WF) (h : Overlapped g dflt maxTag k s) {c : Nat} (hc : k.dontRefine c)
    (hr : stopRefining g dflt maxTag sorted s = .ok res) (j : Fin n) (he : exist (s j).owner c = true) :
    ¬ Finer g (exist (res j).1.owner) c :=
  (h.recorded hw j).dont_refine hw hc hr j he

/-- C103: a cell for which `dont_unrefine` returned true on any process is not unrefined. -/
theorem C103_dont_unrefine (hw : g.WF) (h : Overlapped g dflt maxTag k s) {c : Nat} (hc : k.dontUnrefine c)
    (hr : stopRefining g dflt maxTag sorted s = .ok res) (j : Fin n) : ¬ Coarser g (exist (res j).1.owner) c :=
  (h.recorded hw j).dont_unrefine hw hc hr j

/-- C103: cells are unrefined only if `unrefine_completely` returned true for one of the family. -/
theorem C103_only_requested (hw : g.WF) (h : Overlapped g dflt maxTag k s)
    (hr : stopRefining g dflt maxTag sorted s = .ok res) (j : Fin n) {c : Nat}
    (hc : exist (s j).owner c = true) (hco : Coarser g (exist (res j).1.owner) c) :
    ∃ u, k.unrefine u ∧ g.parent u = g.parent c ∧ exist (s j).owner u = true ∧
      exist (res j).1.owner (g.parent c) = true ∧
      ∀ x ∈ g.children (g.parent c), exist (s j).owner x = true ∧ exist (res j).1.owner x = false :=
  (h.recorded hw j).only_requested hw hr j hc hco

/-- C103: a requested unrefinement happens if there are no requests to refine or not to unrefine and no cell
in the neighborhood of the parent is smaller than the cell. -/
theorem C103_requested_unrefinement (hw : g.WF) (h : Overlapped g dflt maxTag k s) {c : Nat} (hc : k.unrefine c)
    (hl : 0 < g.lvl c) (h1 : ∀ x, ¬ k.refine x) (h2 : ∀ x, ¬ k.dontUnrefine x)
    (hr : stopRefining g dflt maxTag sorted s = .ok res) (j : Fin n)
    (hn : ∀ b, exist (s j).owner b = true → ∀ o ∈ hoodOf g, Meets g (g.parent c) o b → g.lvl b ≤ g.lvl c) :
    exist (res j).1.owner (g.parent c) = true ∧
      ∀ x ∈ g.children (g.parent c), exist (s j).owner x = true ∧ exist (res j).1.owner x = false :=
  (h.recorded hw j).requested_unrefinement hw hc hl h1 h2 hr j hn

/-! ## The demo -/

/-- Cell 1 moves from process 0 to process 1, in between process 0 has requested refinement of it. -/
theorem tiny_overlapped : ∃ (k : Calls) (s : Sys 2 Nat Nat) (res : Fin 2 → Proc 2 Nat Nat × List Nat),
    Overlapped tinyG 0 146 k s ∧ k.refine 1 ∧ (∀ c, ¬ k.dontRefine c) ∧ (∀ i, (s i).owner 1 = some 1) ∧
    stopRefining tinyG 0 146 true s = .ok res ∧ ∀ i c, exist (s i).owner c = true → 1 ≤ c ∧ c ≤ 2 := by
  obtain ⟨s, h1, h2, h3, -, -, -, h4, -⟩ := tiny_init
  have ho : (Op.balance move1 : Op 2 Nat Nat).Ok s := fun i => by
    refine move1_ok (?_ : (s i).owner 1 = some 0)
    rw [h3.sys.owner]; exact h4
  have hz : MovesOk (createLevel0 2 2).2 move1 := move1_ok h4
  obtain ⟨b, e1, e2⟩ := C103_returns tiny_wf (by decide) h2 ho (by decide)
  obtain ⟨f1, -, -⟩ := e2 _ _ .start
  obtain ⟨s2, f2⟩ := f1 (.refine 0 1) 0 rfl
  have hm := Meanwhile.call (P := fun _ => True) (.refine 0 1) 0 (.start (b := b)) rfl trivial f2
  obtain ⟨-, -, t, f3⟩ := e2 _ _ hm
  have hov := Overlapped.finish move1 h2 ho e1 hm f3
  obtain ⟨res, f4⟩ := C103_stop_returns tiny_wf (by decide) hov (by decide) true
  refine ⟨_, t, res, hov, Or.inr ⟨0, rfl, ?_⟩, ?_, fun i => ?_, f4, fun i c hc => ?_⟩
  · have ha := Started.asks hz h3.sys e1
    obtain ⟨w', e, hp⟩ := ha.view 0
    have hreq : (inside b 0).req = ⟨[], [], [], []⟩ := (startBalance_inv e1 0).2.2.2.2.1
    have := refineCompletely_ok (i := (0 : Fin 2)) (c := 1) (r := (inside b 0).req) tiny_wf (by rw [e]; exact ha.tiled)
      (by rw [e]; exact ha.balanced) hp ((hp 1).1 (ha.own 0 1 h4)) (by decide) (by
        rw [hreq]
        rintro (h | ⟨b, -, -, -, h⟩) <;> cases h)
    exact ⟨_, by rw [ha.owner, ← e]; exact this⟩
  · rintro c (h | ⟨i, h, -⟩)
    · exact h
    · cases h
  · obtain ⟨t0, g1, g2, -⟩ := C103_same_grid tiny_wf h2 ho e1 hm f3 i
    rw [g2]
    exact (C31_owners tiny_wf (Booked.init h1) ho g1 i 0 (by rw [h3.sys.owner]; exact h4)).2.1 rfl 1 (by decide)
  · obtain ⟨t0, g1, g2, -⟩ := C103_same_grid tiny_wf h2 ho e1 hm f3 i
    rw [g2, (C30_cells_and_data tiny_wf h2 ho g1 i i c).1, h3.sys.owner] at hc
    exact (createLevel0_exist (by omega)).1 hc

example : ∃ (k : Calls) (s : Sys 2 Nat Nat) (res : Fin 2 → Proc 2 Nat Nat × List Nat), tinyG.WF ∧
    Overlapped tinyG 0 146 k s ∧ stopRefining tinyG 0 146 true s = .ok res ∧ exist (s 0).owner 1 = true ∧
    Forced tinyG (exist (s 0).owner) k 1 := by
  obtain ⟨k, s, res, h1, h2, h3, h4, h5, -⟩ := tiny_overlapped
  exact ⟨k, s, res, tiny_wf, h1, h5, exist_of (h4 0), .base h2 (by decide) (Veto.none h3)⟩

/-- Then `dont_refine(1)` returned true on process 1, after load balancing. -/
example : ∃ (k : Calls) (s : Sys 2 Nat Nat) (res : Fin 2 → Proc 2 Nat Nat × List Nat), tinyG.WF ∧
    Overlapped tinyG 0 146 k s ∧ k.dontRefine 1 ∧ k.refine 1 ∧ stopRefining tinyG 0 146 true s = .ok res ∧
    exist (s 0).owner 1 = true := by
  obtain ⟨k, s, res, h1, h2, h3, h4, -⟩ := tiny_overlapped
  obtain ⟨w, t, hi, -, ha⟩ := h1.recorded tiny_wf 0
  have eo : (s 1).owner = w := by rw [ha 1]; exact hi.sys.owner 1
  have h5 := exist_of (h4 1)
  obtain ⟨b, r, f1, f2, -⟩ := dontRefine_spec (r := (s 1).req) (c := 1) (by rw [eo]; exact hi.sys.tiled :
    Tiled tinyG (exist (s 1).owner))
  rw [f2.2 h5] at f1
  have hst : step tinyG 0 146 s (.dontRefine 1 1) = .ok (s.set 1 { s 1 with req := r }) := by
    show s.ask 1 _ = _
    rw [f1]; rfl
  have hov := h1.call (.dontRefine 1 1) trivial hst
  obtain ⟨res', f4⟩ := C103_stop_returns tiny_wf (by decide) hov (by decide) true
  refine ⟨_, _, res', tiny_wf, hov, Or.inr ⟨1, rfl, r, f1⟩, Or.inl h2, f4, ?_⟩
  rw [(step_quiet (.dontRefine 1 1) trivial hst 0).1]
  exact exist_of (h4 0)

/-- In the grid in which cell 1 has been refined `unrefine_completely(3)` returns true on process 0 while load is being
balanced. -/
theorem tiny_overlapped_unrefine : ∃ (k : Calls) (s : Sys 2 Nat Nat) (res : Fin 2 → Proc 2 Nat Nat × List Nat),
    Overlapped tinyG 0 146 k s ∧ k.unrefine 3 ∧ (∀ x, ¬ k.refine x) ∧ (∀ x, ¬ k.dontUnrefine x) ∧
    stopRefining tinyG 0 146 true s = .ok res ∧ ∀ i b, exist (s i).owner b = true → tinyG.lvl b ≤ 1 := by
  obtain ⟨k0, s, h1, h2, h3, h4⟩ := tiny_family
  obtain ⟨w, hi⟩ := h1.reachable.inv tiny_wf (by omega)
  have ho : (Op.balance stay : Op 2 Nat Nat).Ok s := fun i => stay_ok _
  obtain ⟨b, e1, e2⟩ := C103_returns tiny_wf (by decide) h1.reachable ho (by decide)
  obtain ⟨f1, -, -⟩ := e2 _ _ .start
  obtain ⟨s2, f2⟩ := f1 (.unrefine 0 3) 0 rfl
  have hm := Meanwhile.call (P := fun _ => True) (.unrefine 0 3) 0 (.start (b := b)) rfl trivial f2
  obtain ⟨-, -, t, f3⟩ := e2 _ _ hm
  have hov := Overlapped.finish stay h1.reachable ho e1 hm f3
  obtain ⟨res, f4⟩ := C103_stop_returns tiny_wf (by decide) hov (by decide) true
  refine ⟨_, t, res, hov, Or.inr ⟨0, rfl, ?_⟩, ?_, ?_, f4, ?_⟩
  · have ha := Started.asks (stay_ok w) hi.sys e1
    obtain ⟨w', e, hp⟩ := ha.view 0
    have hw3 : w 3 = some 0 := by rw [← hi.sys.owner 0]; exact h3 0 3 (by decide)
    obtain ⟨x, r, g1, g2, -⟩ := unrefineCompletely_spec (r := (inside b 0).req) tiny_wf (by rw [e]; exact ha.tiled)
      (by rw [e]; exact ha.balanced) hp ((hp 3).1 (ha.own 0 3 hw3))
    cases x with
    | true => exact ⟨r, by rw [ha.owner, ← e]; exact g1⟩
    | false =>
      obtain ⟨-, -, x, hx, hx'⟩ := g2 rfl
      rw [show tinyG.parent 3 = 1 by decide] at hx
      have := exist_of (h3 0 x hx)
      rw [hi.sys.owner, ← e, hx'] at this
      cases this
  · rintro c (h | ⟨i, h, -⟩)
    · exact h
    · cases h
  · rintro c (h | ⟨i, h, -⟩)
    · exact h
    · cases h
  · intro i c hc
    obtain ⟨t0, g1, g2, -⟩ := C103_same_grid tiny_wf h1.reachable ho e1 hm f3 i
    rw [g2, (C30_cells_and_data tiny_wf h1.reachable ho g1 i i c).1] at hc
    have hb' := h4 i c hc
    clear hc
    rcases hb' with rfl | hb
    · decide
    · revert c; decide

example : ∃ (k : Calls) (s : Sys 2 Nat Nat) (res : Fin 2 → Proc 2 Nat Nat × List Nat), tinyG.WF ∧
    Overlapped tinyG 0 146 k s ∧ k.unrefine 3 ∧ 0 < tinyG.lvl 3 ∧ (∀ x, ¬ k.refine x) ∧ (∀ x, ¬ k.dontUnrefine x) ∧
    stopRefining tinyG 0 146 true s = .ok res ∧
    ∀ b, exist (s 0).owner b = true → ∀ o ∈ hoodOf tinyG, Meets tinyG (tinyG.parent 3) o b →
      tinyG.lvl b ≤ tinyG.lvl 3 := by
  obtain ⟨k, s, res, h1, h2, h3, h4, h5, h6⟩ := tiny_overlapped_unrefine
  exact ⟨k, s, res, tiny_wf, h1, h2, by decide, h3, h4, h5, fun b hb _ _ _ => h6 0 b hb⟩

/-! ## Pins -/

theorem Meanwhile.trans {P Q : Op n D W → Prop} {k' : Calls} {b2 : Fin n → Balancing n D W}
    (h : Meanwhile g dflt maxTag P b k b1) (h' : Meanwhile g dflt maxTag Q b1 k' b2) :
    ∃ k'', Meanwhile g dflt maxTag (fun _ => True) b k'' b2 := by
  induction h' with
  | start =>
    induction h with
    | start => exact ⟨_, .start⟩
    | move m _ hr ih => obtain ⟨k, ih⟩ := ih; exact ⟨_, .move m ih hr⟩
    | call op i _ ho _ hs ih => obtain ⟨k, ih⟩ := ih; exact ⟨_, .call op i ih ho trivial hs⟩
  | move m _ hr ih => obtain ⟨k, ih⟩ := ih; exact ⟨_, .move m ih hr⟩
  | call op i _ ho _ hs ih => obtain ⟨k, ih⟩ := ih; exact ⟨_, .call op i ih ho trivial hs⟩

/-- Calls that don't change the pin of a cell. -/
theorem noPin_newPins {op : Op n D W} {c : Nat} (hc : op.NoPin c)
    (h : step g dflt maxTag s op = .ok s') (j : Fin n) : (s' j).newPins c = (s j).newPins c := by
  have hset : ∀ i p, p.newPins c = (s i).newPins c → (s.set i p j).newPins c = (s j).newPins c := by
    intro i p hp
    unfold Sys.set
    split
    · rename_i e; subst e; exact hp
    · rfl
  have hask : ∀ i o, s.ask i o = .ok s' → (s' j).newPins c = (s j).newPins c := by
    intro i o h1
    obtain ⟨b, r, -, rfl⟩ := ask_inv h1
    exact hset i _ rfl
  cases op with
  | refine i c => exact hask i _ h
  | unrefine i c => exact hask i _ h
  | dontRefine i c => exact hask i _ h
  | dontUnrefine i c => exact hask i _ h
  | pin i x q =>
    injection h with h; subst h
    refine hset i _ ?_
    unfold pin
    split
    · rfl
    · split
      · split
        · rfl
        · exact if_neg fun e => hc e.symm
      · rfl
  | unpin i x =>
    injection h with h; subst h
    refine hset i _ ?_
    unfold unpin
    split
    · rfl
    · split <;> exact if_neg fun e => hc e.symm
  | unpinLocal i => exact hc.elim
  | setWeight i x v =>
    injection h with h; subst h
    refine hset i _ ?_
    unfold setWeight
    split <;> rfl
  | write i x v =>
    injection h with h; subst h
    refine hset i _ ?_
    unfold write
    split
    · rfl
    · split
      · rfl
      · split
        · rfl
        · split <;> rfl
  | clearRefined i => injection h with h; subst h; exact hset i _ rfl
  | unpinAll => exact hc.elim
  | removeHood id =>
    injection h with h; subst h
    show (Dccrg.removeHood (s j) id).newPins c = _
    unfold Dccrg.removeHood
    split <;> rfl
  | update id =>
    obtain ⟨r, h1, h2⟩ := Out.bind_inv h
    injection h2 with h2; subst h2
    unfold updateRemote at h1
    split at h1
    · cases h1
    · obtain ⟨d, -, h3⟩ := Out.bind_inv h1
      injection h3 with h3; subst h3
      rfl
  | addHood id items =>
    obtain ⟨r, h1, h2⟩ := Out.bind_inv h
    injection h2 with h2; subst h2
    have h3 := addHood_inv (b := (r j).1) (p' := (r j).2) (Out.collect_inv h1 j)
    show (r j).2.newPins c = _
    cases hb : (r j).1 with
    | false => rw [h3.2.1 hb]
    | true => rw [h3.2.2 hb]
  | stop sorted => exact hc.elim
  | balance z => exact hc.elim

theorem Meanwhile.newPins {c : Nat} (h : Meanwhile g dflt maxTag (Op.NoPin c) b k b1) (i : Fin n) :
    (b1 i).proc.newPins c = (b i).proc.newPins c := by
  induction h with
  | start => rfl
  | @move k b1 b2 m _ hr ih =>
    rw [← ih]
    obtain ⟨d, -, h⟩ := Out.bind_inv hr
    injection h with h
    rw [← h]
  | @call k b1 s2 op j _ ho hP hs ih =>
    rw [← ih]
    exact noPin_newPins hP hs i

theorem updatePins_one {i : Fin n} {c : Nat} (h : ∀ j, j ≠ i → (s j).newPins c = none) (p : Fin n) :
    updatePins s p c = ((s i).newPins c).getD ((s p).pins c) := by
  unfold updatePins
  exact fold_one (fun p => (s p).newPins c) _ (List.nodup_finRange n) i (List.mem_finRange i) (fun j _ hj => h j hj) _

/-- Same load balancing from a state in which processes have requests for their own cells only. -/
theorem tidied (hi : Inv g w (fun i => withNotes (t i) (t i).req (fun _ => none) (fun _ => none)))
    (hx : ∀ i c, exist w c = false → (t i).newPins c = none) (p : Fin n) :
    ∃ t' : Sys n D W, Inv g w t' ∧ (∀ i, Alike (t i) (t' i)) ∧ pinned w t' = updatePins t p ∧
      ∀ (dflt : D) z' i, initBalance g dflt t' z' i = initBalance g dflt t z' i := by
  have ep : ∀ i j c, (t i).pins c = (t j).pins c := fun i j c => hi.sys.pinsAgree i j c
  have eu : ∀ i, updatePins t i = updatePins t p := by
    intro i
    funext c
    unfold updatePins
    rw [ep i p]
  let t' : Sys n D W := fun i => withNotes (t i) (t i).req (fun c => if w c = some i then some (updatePins t p c) else none)
    fun _ => none
  have hpn : ∀ c, exist w c = false → updatePins t p c = none := by
    intro c hc
    unfold updatePins
    rw [fold_none (fun p => (t p).newPins c) _ fun q _ => hx q c hc]
    exact (hi.sys.pins p c hc).1
  have hi' : SysOk g w t' := by
    refine ⟨hi.sys.owner, hi.sys.tiled, hi.sys.balanced, hi.sys.placed, fun i c hc => ⟨(hi.sys.pins i c hc).1, ?_⟩,
      hi.sys.pinsAgree, fun i c hc => if_neg hc, fun _ _ _ => rfl, hi.sys.hoods⟩
    exact if_neg fun e => by rw [exist_of e] at hc; cases hc
  have hpin : pinned w t' = updatePins t p := by
    funext c
    unfold pinned
    cases hc : w c with
    | none => exact (hpn c (by unfold exist; rw [hc]; rfl)).symm
    | some q =>
      show (if w c = some q then some (updatePins t p c) else none).getD _ = _
      rw [if_pos hc]; rfl
  have hup : ∀ i, updatePins t' i = updatePins t i := fun i => by
    rw [eu i, ← hpin]
    exact funext (updatePins_eq hi' i)
  refine ⟨t', ⟨hi', hi.req, hi.hoods⟩, fun i => rfl, hpin, fun dflt z' i => ?_⟩
  unfold initBalance
  rw [hup i]
  rfl

/-- Load balancing handles all pin requests, also those of cells of other processes. -/
theorem balance_pins (hi : Inv g w (fun i => withNotes (t i) (t i).req (fun _ => none) (fun _ => none)))
    (hx : ∀ i c, exist w c = false → (t i).newPins c = none) (z' : Fin n → Moves n) (p : Fin n) :
    ∃ t' : Sys n D W, SysOk g w t' ∧ pinned w t' = updatePins t p ∧
      balanceLoad g dflt maxTag z' t' = balanceLoad g dflt maxTag z' t := by
  obtain ⟨t', h1, -, h2, h3⟩ := tidied hi hx p
  refine ⟨t', h1.sys, h2, ?_⟩
  unfold balanceLoad
  rw [show (fun i => initBalance g dflt t' z' i) = fun i => initBalance g dflt t z' i from funext (h3 dflt z')]


theorem balance_owner (hw : g.WF) (hi : Inv g w (fun i => withNotes (t i) (t i).req (fun _ => none) (fun _ => none)))
    (hx : ∀ i c, exist w c = false → (t i).newPins c = none) {z' : Fin n → Moves n} {u : Sys n D W}
    (ho : MovesOk w z') (h : balanceLoad g dflt maxTag z' t = .ok u) (p i : Fin n) :
    (u i).owner = newHome w (updatePins t p) z' := by
  obtain ⟨t', h1, h2, h3⟩ := balance_pins (dflt := dflt) (maxTag := maxTag) hi hx z' p
  rw [← h3] at h
  rw [(balanceLoad_sound hw ho h1 h i).owner, h2]

/-- State in which processes may have pin requests and weights for cells of others. -/
structure Loose (g : Cfg) (w : Owner n) (t : Sys n D W) : Prop where
  clean : Inv g w (fun i => withNotes (t i) (t i).req (fun _ => none) (fun _ => none))
  pins : ∀ i c, exist w c = false → (t i).newPins c = none

theorem Inv.clean {tc : Sys n D W} (hi : Inv g w tc) (ha : ∀ i, Alike (tc i) (t i)) :
    Inv g w (fun i => withNotes (t i) (t i).req (fun _ => none) (fun _ => none)) := by
  have e : (fun i => withNotes (t i) (t i).req (fun _ => none) (fun _ => none)) =
      fun i => withNotes (tc i) (tc i).req (fun _ => none) (fun _ => none) := by
    funext i
    rw [ha i]
    rfl
  rw [e]
  exact ⟨⟨hi.sys.owner, hi.sys.tiled, hi.sys.balanced, hi.sys.placed, fun i c hc => ⟨(hi.sys.pins i c hc).1, rfl⟩,
    hi.sys.pinsAgree, fun _ _ _ => rfl, fun _ _ _ => rfl, hi.sys.hoods⟩, hi.req, hi.hoods⟩

/-- Pin requests of cells of other processes are at most removed. -/
theorem quiet_newPins {op : Op n D W} (hq : op.Quiet) (h : step g dflt maxTag s op = .ok s') {j : Fin n} {c : Nat}
    (hc : (s j).owner c ≠ some j) (hn : (s j).newPins c = none) : (s' j).newPins c = none := by
  have hset : ∀ i p, (i = j → p.newPins c = (s i).newPins c) → (s.set i p j).newPins c = none := by
    intro i p hp
    unfold Sys.set
    split
    · rename_i e; subst e; rw [hp rfl]; exact hn
    · exact hn
  cases op with
  | pin i x q =>
    injection h with h; subst h
    refine hset i _ ?_
    rintro rfl
    unfold pin
    split
    · rfl
    · rename_i hl
      split
      · split
        · rfl
        · exact if_neg fun e => hc (by rw [e]; exact ownLeaf_owner hl)
      · rfl
  | unpin i x =>
    injection h with h; subst h
    refine hset i _ ?_
    rintro rfl
    unfold unpin
    split
    · rfl
    · rename_i hl
      split <;> exact if_neg fun e => hc (by rw [e]; exact ownLeaf_owner hl)
  | unpinLocal i =>
    injection h with h; subst h
    refine hset i _ ?_
    rintro rfl
    exact unpinLocal_other _ _ _ hc
  | unpinAll => injection h with h; subst h; rfl
  | stop b => exact hq.elim
  | balance z => exact hq.elim
  | _ =>
    refine (noPin_newPins (c := c) ?_ h j).trans hn
    trivial

theorem Loose.step (hw : g.WF) (hl : Loose g w t) {op : Op n D W} (hq : op.Quiet) {t' : Sys n D W}
    (h : Dccrg.step g dflt maxTag t op = .ok t') : Loose g w t' := by
  have hb : ∀ z, op ≠ .balance z := by rintro z rfl; exact hq
  obtain ⟨tc, h1, h2⟩ := (step_alike hb fun i => (rfl :
    Alike (t i) (withNotes (t i) (t i).req (fun _ => none) (fun _ => none)))).inv h
  obtain ⟨w', hi'⟩ := hl.clean.step hw (hq.ok _) h1
  by_cases hn : 0 < n
  case neg => exact ⟨by
    have : w' = w := funext fun c => (Option.eq_none_iff_forall_not_mem.2 fun i => absurd i.2 (by omega)).trans
        (Option.eq_none_iff_forall_not_mem.2 fun i => absurd i.2 (by omega)).symm
    rw [← this]; exact hi'.clean fun i => (h2 i).symm, fun i => absurd i.2 (by omega)⟩
  have : w' = w := by
    rw [← hi'.sys.owner ⟨0, hn⟩, (step_quiet op hq h1 _).1]
    exact hl.clean.sys.owner _
  subst this
  refine ⟨hi'.clean fun i => (h2 i).symm, fun i c hc => quiet_newPins hq h ?_ (hl.pins i c hc)⟩
  rw [show (t i).owner = w' from hl.clean.sys.owner i]
  intro e
  rw [exist_of e] at hc; cases hc

theorem NoPin.quiet {op : Op n D W} {c : Nat} (h : op.NoPin c) : op.Quiet := by
  cases op <;> first | exact h.elim | trivial

theorem quiet_pins {op : Op n D W} {c : Nat} (hq : op.NoPin c) (h : step g dflt maxTag s op = .ok s') (j : Fin n) :
    (s' j).pins c = (s j).pins c := by
  have hset : ∀ i p, p.pins c = (s i).pins c → (s.set i p j).pins c = (s j).pins c := by
    intro i p hp
    unfold Sys.set
    split
    · rename_i e; subst e; exact hp
    · rfl
  have hask : ∀ i o, s.ask i o = .ok s' → (s' j).pins c = (s j).pins c := by
    intro i o h1
    obtain ⟨b, r, -, rfl⟩ := ask_inv h1
    exact hset i _ rfl
  cases op with
  | refine i c => exact hask i _ h
  | unrefine i c => exact hask i _ h
  | dontRefine i c => exact hask i _ h
  | dontUnrefine i c => exact hask i _ h
  | pin i x q =>
    injection h with h; subst h
    refine hset i _ ?_
    unfold pin
    split
    · rfl
    · split
      · split <;> rfl
      · rfl
  | unpin i x => injection h with h; subst h; exact hset i _ (by rw [(unpin_books i (s i) x).1])
  | unpinLocal i => exact hq.elim
  | setWeight i x v =>
    injection h with h; subst h
    refine hset i _ ?_
    unfold setWeight
    split <;> rfl
  | write i x v =>
    injection h with h; subst h
    refine hset i _ ?_
    unfold write
    split
    · rfl
    · split
      · rfl
      · split
        · rfl
        · split <;> rfl
  | clearRefined i => injection h with h; subst h; exact hset i _ rfl
  | unpinAll => exact hq.elim
  | removeHood id =>
    injection h with h; subst h
    show (Dccrg.removeHood (s j) id).pins c = _
    unfold Dccrg.removeHood
    split <;> rfl
  | update id =>
    obtain ⟨r, h1, h2⟩ := Out.bind_inv h
    injection h2 with h2; subst h2
    unfold updateRemote at h1
    split at h1
    · cases h1
    · obtain ⟨d, -, h3⟩ := Out.bind_inv h1
      injection h3 with h3; subst h3
      rfl
  | addHood id items =>
    obtain ⟨r, h1, h2⟩ := Out.bind_inv h
    injection h2 with h2; subst h2
    have h3 := addHood_inv (b := (r j).1) (p' := (r j).2) (Out.collect_inv h1 j)
    show (r j).2.pins c = _
    cases hb : (r j).1 with
    | false => rw [h3.2.1 hb]
    | true => rw [h3.2.2 hb]
  | stop sorted => exact hq.elim
  | balance z => exact hq.elim

/-- Calls that don't change the pin of a cell, in any number. -/
theorem Loose.runs (hw : g.WF) (hl : Loose g w t) {c : Nat} {t2 : Sys n D W} (h : Runs g dflt maxTag (Op.NoPin c) t t2) :
    Loose g w t2 ∧ ∀ j, (t2 j).newPins c = (t j).newPins c ∧ (t2 j).pins c = (t j).pins c := by
  induction h with
  | refl => exact ⟨hl, fun _ => ⟨rfl, rfl⟩⟩
  | step op _ hP _ hs ih =>
    refine ⟨ih.1.step hw (NoPin.quiet hP) hs, fun j => ?_⟩
    rw [noPin_newPins hP hs j, quiet_pins hP hs j]
    exact ih.2 j

/-- Where cells go in load balancing if only process `i` has requests for cell `c`. -/
theorem Loose.goes (hw : g.WF) (hl : Loose g w t) {c : Nat} {i : Fin n} (hother : ∀ j, j ≠ i → (t j).newPins c = none)
    {t2 u : Sys n D W} (hr : Runs g dflt maxTag (Op.NoPin c) t t2) {z' : Fin n → Moves n}
    (ho : (Op.balance z' : Op n D W).Ok t2) (hu : Dccrg.step g dflt maxTag t2 (.balance z') = .ok u) (j : Fin n) :
    MovesOk w z' ∧ ∃ f, (u j).owner = newHome w f z' ∧ f c = ((t i).newPins c).getD ((t i).pins c) := by
  obtain ⟨h1, h2⟩ := hl.runs hw hr
  have hz' : MovesOk w z' := by
    have := ho i
    rwa [show (t2 i).owner = w from h1.clean.sys.owner i] at this
  refine ⟨hz', _, balance_owner hw h1.clean h1.pins hz' hu i j, ?_⟩
  rw [updatePins_one (i := i) fun j hj => by rw [(h2 j).1]; exact hother j hj, (h2 i).1, (h2 i).2]

/-- What `pin` does. -/
theorem pin_true {i : Fin n} {p : Proc n D W} {c : Nat} {q : Int} (hp : (pin g i p c q).1 = true) (hq : p.pins c ≠ rank n q) :
    p.owner c = some i ∧ ∃ r, rank n q = some r ∧ (pin g i p c q).2.newPins c = some (some r) := by
  unfold rank at hq ⊢
  unfold pin at hp ⊢
  cases hl : ownLeaf g i p c with
  | false => rw [if_pos hl] at hp; cases hp
  | true =>
    rw [hl, if_neg (by simp)] at hp
    rw [if_neg (by simp)]
    by_cases hr : 0 ≤ q ∧ q.toNat < n
    · rw [dif_pos hr] at hp hq ⊢
      refine ⟨ownLeaf_owner (by rw [hl]; simp), _, rfl, ?_⟩
      rw [dif_pos hr, if_neg hq]
      exact if_pos rfl
    · rw [dif_neg hr] at hp; cases hp

/-- What `unpin` does. -/
theorem unpin_true {i : Fin n} {p : Proc n D W} {c : Nat} (hp : (unpin g i p c).1 = true) :
    p.owner c = some i ∧ ((unpin g i p c).2.newPins c).getD (p.pins c) = none ∧ (unpin g i p c).2.pins = p.pins := by
  obtain ⟨h1, -, -, -, h2, h3⟩ := unpin_books (g := g) i p c
  rw [h3] at hp
  exact ⟨ownLeaf_owner (by rw [hp]; simp), h2 hp, h1⟩

theorem newHome_unpinned {w : Owner n} {f : Nat → Option (Fin n)} {z' : Fin n → Moves n} (hz : MovesOk w z') {c : Nat} {p : Fin n}
    (hc : w c = some p) (hf : f c = none) :
    (∀ q, (c, q) ∈ (z' p).send → newHome w f z' c = some q) ∧ ((∀ q, (c, q) ∉ (z' p).send) → newHome w f z' c = some p) := by
  unfold newHome
  rw [hc]
  simp only [hf]
  constructor
  · intro q hq
    rw [find_of_mem (hz.send p) hq]
  · intro hq
    rw [List.find?_eq_none.2]
    rintro ⟨x, q⟩ hm hxc
    simp only [beq_iff_eq] at hxc
    subst hxc
    exact hq q hm

/-- State after load balancing with calls in between. -/
theorem overlapped_loose (hw : g.WF) (h : Reachable g dflt maxTag s) (hi : Inv g w s) (hz : MovesOk w z) (hn : 0 < n)
    (hs : startBalance g dflt maxTag z s = .ok b) {P : Op n D W → Prop} (hm : Meanwhile g dflt maxTag P b k b1)
    (hf : finishBalance g dflt maxTag b1 = .ok t) :
    Loose g (newHome w (pinned w s) z) t ∧ (∀ j, (t j).newPins = (b1 j).proc.newPins) ∧
    (∀ j, (t j).pins = (b1 j).proc.pins) ∧ ∀ j c, w c ≠ some j → (t j).newPins c = none := by
  obtain ⟨t0, e1, e2, e3, e4, e5⟩ := overlapped_inv hw hn hi hz hs hm hf
  have hmid := meanwhile_midway hw hz hi.sys hs hm
  have ht : ∀ j, (t j).newPins = (b1 j).proc.newPins := fun j => by rw [e2 j]
  refine ⟨⟨e4, fun j x hx => ?_⟩, ht, fun i => ?_, fun j c hc => ?_⟩
  · rw [ht]
    refine (hmid.proc j).newPins x fun e => ?_
    rw [exist_newHome, exist_of e] at hx
    cases hx
  · rw [e2 i, (hmid.proc i).pins, (startBalance_inv hs i).2.1]
    funext c
    rw [updatePins_eq hi.sys]
    exact (balanceLoad_sound hw hz hi.sys e1 i).pins c
  · rw [ht]
    exact (hmid.proc j).newPins c hc

/-- C104: if `pin` returned true while load was being balanced and there were no later requests to pin or unpin the cell,
the next load balancing moves the cell to the given process, also if the cell has been moved to another process meanwhile.
It is assumed that the cell isn't pinned to it already, see `C32_false`. -/
theorem C104_pin_partial (hw : g.WF) (h : Reachable g dflt maxTag s) (ho : (Op.balance z : Op n D W).Ok s)
    (hs : startBalance g dflt maxTag z s = .ok b) (hm : Meanwhile g dflt maxTag (fun _ => True) b k b1)
    {i : Fin n} {c : Nat} {q : Int} (hp : (pin g i (inside b1 i) c q).1 = true)
    (hq : (inside b1 i).pins c ≠ rank n q) {s2 : Sys n D W}
    (h1 : step g dflt maxTag (inside b1) (.pin i c q) = .ok s2) {k' : Calls} {b2 : Fin n → Balancing n D W}
    (h2 : Meanwhile g dflt maxTag (Op.NoPin c) (putInside b1 s2) k' b2)
    (hf : finishBalance g dflt maxTag b2 = .ok t) {t2 : Sys n D W} (hr : Runs g dflt maxTag (Op.NoPin c) t t2)
    {z' : Fin n → Moves n} {u : Sys n D W} (ho' : (Op.balance z' : Op n D W).Ok t2)
    (hu : step g dflt maxTag t2 (.balance z') = .ok u) (j : Fin n) : (u j).owner c = rank n q ∧ rank n q ≠ none := by
  have hn : 0 < n := by have := i.2; omega
  obtain ⟨w, hi⟩ := h.inv hw hn
  have hz : MovesOk w z := by have := ho ⟨0, hn⟩; rwa [hi.sys.owner] at this
  have hmid1 := meanwhile_midway hw hz hi.sys hs hm
  obtain ⟨k2, hm2⟩ := (Meanwhile.call (.pin i c q) i hm rfl trivial h1).trans h2
  obtain ⟨hl, e1, -, e3⟩ := overlapped_loose hw h hi hz hn hs hm2 hf
  obtain ⟨f1, r, f2, f3⟩ := pin_true hp hq
  have hwc : w c = some i := by rw [← (hmid1.proc i).owner]; exact f1
  obtain ⟨-, f, g1, g2⟩ := hl.goes hw (i := i) (fun j hj => e3 j c (by
    rw [hwc]; intro e; injection e with e; exact hj e.symm)) hr ho' hu j
  have hnew : (t i).newPins c = some (some r) := by
    rw [e1, h2.newPins i, ← f3]
    injection h1 with h1
    rw [← h1]
    show ((inside b1).set i _ i).newPins c = _
    rw [Sys.set_same]
  rw [hnew] at g2
  obtain ⟨p, hp'⟩ : ∃ p, newHome w (pinned w s) z c = some p := by
    have : exist (newHome w (pinned w s) z) c = true := by rw [exist_newHome]; exact exist_of hwc
    unfold exist at this
    exact Option.isSome_iff_exists.1 this
  rw [g1, f2]
  refine ⟨?_, by simp⟩
  generalize newHome w (pinned w s) z = w' at hp'
  unfold newHome
  rw [hp']
  simp only [g2]
  rfl

/-- C104: same with `unpin`, the cell goes where the partitioner wants. `p` is the process of the cell. -/
theorem C104_unpin_partial (hw : g.WF) (h : Reachable g dflt maxTag s) (ho : (Op.balance z : Op n D W).Ok s)
    (hs : startBalance g dflt maxTag z s = .ok b) (hm : Meanwhile g dflt maxTag (fun _ => True) b k b1)
    {i : Fin n} {c : Nat} (hp : (unpin g i (inside b1 i) c).1 = true) {s2 : Sys n D W}
    (h1 : step g dflt maxTag (inside b1) (.unpin i c) = .ok s2) {k' : Calls} {b2 : Fin n → Balancing n D W}
    (h2 : Meanwhile g dflt maxTag (Op.NoPin c) (putInside b1 s2) k' b2)
    (hf : finishBalance g dflt maxTag b2 = .ok t) {t2 : Sys n D W} (hr : Runs g dflt maxTag (Op.NoPin c) t t2)
    {p : Fin n} (hc : (t p).owner c = some p) {z' : Fin n → Moves n} {u : Sys n D W} (ho' : (Op.balance z' : Op n D W).Ok t2)
    (hu : step g dflt maxTag t2 (.balance z') = .ok u) (j : Fin n) :
    (∀ q, (c, q) ∈ (z' p).send → (u j).owner c = some q) ∧
    ((∀ q, (c, q) ∉ (z' p).send) → (u j).owner c = some p) := by
  have hn : 0 < n := by have := i.2; omega
  obtain ⟨w, hi⟩ := h.inv hw hn
  have hz : MovesOk w z := by have := ho ⟨0, hn⟩; rwa [hi.sys.owner] at this
  have hmid1 := meanwhile_midway hw hz hi.sys hs hm
  have hm1 := Meanwhile.call (.unpin i c) i hm rfl trivial h1
  obtain ⟨k2, hm2⟩ := hm1.trans h2
  have hmid2 := meanwhile_midway hw hz hi.sys hs hm2
  obtain ⟨hl, e1, e2, e3⟩ := overlapped_loose hw h hi hz hn hs hm2 hf
  obtain ⟨f1, f2, -⟩ := unpin_true hp
  have hwc : w c = some i := by rw [← (hmid1.proc i).owner]; exact f1
  obtain ⟨hz', f, g1, g2⟩ := hl.goes hw (i := i) (fun j hj => e3 j c (by
    rw [hwc]; intro e; injection e with e; exact hj e.symm)) hr ho' hu j
  have hnew : ((t i).newPins c).getD ((t i).pins c) = none := by
    rw [e1, e2, h2.newPins i, (hmid2.proc i).pins, ← (hmid1.proc i).pins, ← f2]
    injection h1 with h1
    rw [← h1]
    show (((inside b1).set i _ i).newPins c).getD _ = _
    rw [Sys.set_same]
    rfl
  rw [hnew] at g2
  rw [g1]
  exact newHome_unpinned hz' (by rw [← hl.clean.sys.owner p]; exact hc) g2

/-- C104: a request made after load balancing during which the cell was neither pinned nor unpinned wins too, if it's the
last one. -/
theorem C104_later_partial (hw : g.WF) (h : Reachable g dflt maxTag s) (ho : (Op.balance z : Op n D W).Ok s)
    (hs : startBalance g dflt maxTag z s = .ok b) {c : Nat} (hm : Meanwhile g dflt maxTag (Op.NoPin c) b k b1)
    (hf : finishBalance g dflt maxTag b1 = .ok t) {t1 : Sys n D W} (hr1 : Runs g dflt maxTag Op.Quiet t t1) {i : Fin n}
    {z' : Fin n → Moves n} {t2 t3 u : Sys n D W} (ho' : (Op.balance z' : Op n D W).Ok t3)
    (hr2 : Runs g dflt maxTag (Op.NoPin c) t2 t3) (hu : step g dflt maxTag t3 (.balance z') = .ok u) (j : Fin n) :
    (∀ q, (pin g i (t1 i) c q).1 = true → (t1 i).pins c ≠ rank n q → step g dflt maxTag t1 (.pin i c q) = .ok t2 →
      (u j).owner c = rank n q ∧ rank n q ≠ none) ∧
    ((unpin g i (t1 i) c).1 = true → step g dflt maxTag t1 (.unpin i c) = .ok t2 →
      (∀ q, (c, q) ∈ (z' i).send → (u j).owner c = some q) ∧ ((∀ q, (c, q) ∉ (z' i).send) → (u j).owner c = some i)) := by
  have hn : 0 < n := by have := i.2; omega
  obtain ⟨w, hi⟩ := h.inv hw hn
  have hz : MovesOk w z := by have := ho ⟨0, hn⟩; rwa [hi.sys.owner] at this
  obtain ⟨hl, e1, e2, -⟩ := overlapped_loose hw h hi hz hn hs hm hf
  have hnone : ∀ j, (t j).newPins c = none := by
    intro j
    rw [e1, hm.newPins]
    rw [(startBalance_inv hs j).2.2.1]
  have hl1 : Loose g (newHome w (pinned w s) z) t1 ∧ ∀ j, newHome w (pinned w s) z c ≠ some j → (t1 j).newPins c = none := by
    clear hr2 hu
    induction hr1 with
    | refl => exact ⟨hl, fun j _ => hnone j⟩
    | step op _ hP _ hs ih =>
      refine ⟨ih.1.step hw hP hs, fun j hj => quiet_newPins hP hs ?_ (ih.2 j hj)⟩
      intro e
      refine hj ?_
      rw [← ih.1.clean.sys.owner j]
      exact e
  have hoth : newHome w (pinned w s) z c = some i → ∀ j, j ≠ i → (t1 j).newPins c = none := by
    intro hc j hj
    refine hl1.2 j ?_
    rw [hc]; intro e; injection e with e; exact hj e.symm
  have hset : ∀ (p : Proc n D W), t2 = t1.set i p → ∀ j, j ≠ i → t2 j = t1 j := by
    rintro p rfl j hj
    unfold Sys.set
    rw [if_neg hj]
  constructor
  · intro q hp hq h1
    have hl2 := hl1.1.step hw (op := .pin i c q) trivial h1
    injection h1 with h1
    obtain ⟨f1, r, f2, f3⟩ := pin_true hp hq
    have hwc : newHome w (pinned w s) z c = some i := by rw [← hl1.1.clean.sys.owner i]; exact f1
    obtain ⟨-, f, g1, g2⟩ := hl2.goes hw (i := i) (fun j hj => by
      rw [hset _ h1.symm j hj]; exact hoth hwc j hj) hr2 ho' hu j
    rw [← h1, Sys.set_same, f3] at g2
    rw [g1, f2]
    refine ⟨?_, by simp⟩
    generalize newHome w (pinned w s) z = w' at hwc
    unfold newHome
    rw [hwc]
    simp only [g2]
    rfl
  · intro hp h1
    have hl2 := hl1.1.step hw (op := .unpin i c) trivial h1
    injection h1 with h1
    obtain ⟨f1, f2, f3⟩ := unpin_true hp
    have hwc : newHome w (pinned w s) z c = some i := by rw [← hl1.1.clean.sys.owner i]; exact f1
    obtain ⟨hz', f, g1, g2⟩ := hl2.goes hw (i := i) (fun j hj => by
      rw [hset _ h1.symm j hj]; exact hoth hwc j hj) hr2 ho' hu j
    rw [← h1, Sys.set_same, f3, f2] at g2
    rw [g1]
    exact newHome_unpinned hz' hwc g2

/-- C104: with enough tags next load balancing returns, whatever has been called since the start of the previous
one. -/
theorem C104_returns (hw : g.WF) (hn : 0 < n) (h : Reachable g dflt maxTag s) (ho : (Op.balance z : Op n D W).Ok s)
    (hs : startBalance g dflt maxTag z s = .ok b) (hm : Meanwhile g dflt maxTag (fun _ => True) b k b1)
    (hf : finishBalance g dflt maxTag b1 = .ok t) {z' : Fin n → Moves n} (ho' : (Op.balance z' : Op n D W).Ok t)
    (ht : g.last ≤ maxTag) : ∃ u, step g dflt maxTag t (.balance z') = .ok u := by
  obtain ⟨w, hi⟩ := h.inv hw hn
  have hz : MovesOk w z := by have := ho ⟨0, hn⟩; rwa [hi.sys.owner] at this
  obtain ⟨t0, e1, e2, e3, e4, e5⟩ := overlapped_inv hw hn hi hz hs hm hf
  have hmid := meanwhile_midway hw hz hi.sys hs hm
  have hx : ∀ j x, exist (newHome w (pinned w s) z) x = false → (t j).newPins x = none := by
    intro j x hx
    rw [e2 j]
    refine (hmid.proc j).newPins x fun e => ?_
    rw [exist_newHome, exist_of e] at hx
    cases hx
  have hz' : MovesOk (newHome w (pinned w s) z) z' := by
    have := ho' ⟨0, hn⟩
    rwa [show (t ⟨0, hn⟩).owner = newHome w (pinned w s) z from e4.sys.owner ⟨0, hn⟩] at this
  obtain ⟨t', g1, g2, g3⟩ := balance_pins (dflt := dflt) (maxTag := maxTag) e4 hx z' ⟨0, hn⟩
  have hfit : ∀ w' : Owner n, Tiled g (exist w') → FitsTags maxTag w' := fun w' h => fitsTags_mono ht (fitsTags_last h.valid)
  obtain ⟨u, f1, -⟩ := balanceLoad_spec hw dflt hz' g1 (hfit _ g1.tiled) (maxTag := maxTag) (hfit _ (by
    rw [show exist (newHome (newHome w (pinned w s) z) (pinned (newHome w (pinned w s) z) t') z') =
      exist (newHome w (pinned w s) z) from funext fun c => exist_newHome]
    exact g1.tiled))
  exact ⟨u, by rw [← f1, g3]; rfl⟩

/-- The demo: while cell 1 is moving from process 0 to process 1 process 0 pins it to itself. -/
theorem tiny_pin_leaving : ∃ (s s2 t : Sys 2 Nat Nat) (b b1 : Fin 2 → Balancing 2 Nat Nat), Reachable tinyG 0 146 s ∧
    (Op.balance move1 : Op 2 Nat Nat).Ok s ∧ startBalance tinyG 0 146 move1 s = .ok b ∧
    runPhase 146 b (.move fun _ _ _ v _ => v) = .ok b1 ∧ (pin tinyG 0 (inside b1 0) 1 0).1 = true ∧
    step tinyG 0 146 (inside b1) (.pin 0 1 0) = .ok s2 ∧ finishBalance tinyG 0 146 (putInside b1 s2) = .ok t ∧
    (∀ i, (t i).owner 1 = some 1) ∧ (t 0).newPins 1 = some (some 0) ∧ (t 1).newPins 1 = none ∧ (t 1).pins 1 = none ∧
    Inv tinyG (t 0).owner (fun i => withNotes (t i) (t i).req (fun _ => none) (fun _ => none)) ∧
    ∀ j x, exist (t 0).owner x = false → (t j).newPins x = none := by
  obtain ⟨s, h1, h2, h3, -, -, hpn, h4, -⟩ := tiny_init
  have ho : (Op.balance move1 : Op 2 Nat Nat).Ok s := fun i => by
    refine move1_ok (?_ : (s i).owner 1 = some 0)
    rw [h3.sys.owner]; exact h4
  have hz : MovesOk (createLevel0 2 2).2 move1 := move1_ok h4
  obtain ⟨b, e1, e2⟩ := C103_returns tiny_wf (by decide) h2 ho (by decide)
  obtain ⟨-, f1, -⟩ := e2 _ _ .start
  obtain ⟨b1, f1⟩ := f1 fun _ _ _ v _ => v
  have hm : Meanwhile tinyG 0 146 (fun _ => True) b _ b1 := .move _ .start f1
  obtain ⟨f2, -, -⟩ := e2 _ _ hm
  obtain ⟨s2, f2⟩ := f2 (.pin 0 1 0) 0 rfl
  have hm2 := Meanwhile.call (.pin 0 1 0) 0 hm rfl trivial f2
  obtain ⟨-, -, t, f3⟩ := e2 _ _ hm2
  have hmid1 := meanwhile_midway tiny_wf hz h3.sys e1 hm
  have hmid2 := meanwhile_midway tiny_wf hz h3.sys e1 hm2
  obtain ⟨t0, g1, g2, g3, g4, -⟩ := overlapped_inv tiny_wf (by omega) h3 hz e1 hm2 f3
  have hown : (t 0).owner = newHome (createLevel0 2 2).2 (pinned (createLevel0 2 2).2 s) move1 := g4.sys.owner 0
  have hL := fun i => (C31_owners tiny_wf (Booked.init h1) ho g1 i 0 (by rw [h3.sys.owner]; exact h4)).2.1 rfl 1 (by decide)
  have hl : ownLeaf tinyG 0 (inside b1 0) 1 = true := by
    have := (ownLeaf_iff tiny_wf h3 0 1).2 h4
    unfold ownLeaf at this ⊢
    rwa [show (inside b1 0).owner = (s 0).owner from by rw [h3.sys.owner]; exact (hmid1.proc 0).owner]
  have hpins : ∀ i, (t i).pins 1 = none := by
    intro i
    rw [g2 i]
    show (t0 i).pins 1 = none
    rw [(balanceLoad_sound tiny_wf hz h3.sys g1 i).pins]
    unfold pinned
    rw [h4]
    show ((s 0).newPins 1).getD ((s 0).pins 1) = none
    rw [(hpn 0 1).1, (hpn 0 1).2.1]; rfl
  have hpin1 : (inside b1 0).pins 1 = none := by
    show (b1 0).proc.pins 1 = none
    rw [(hmid1.proc 0).pins, (startBalance_inv e1 0).2.1, updatePins_eq h3.sys]
    unfold pinned
    rw [h4]
    show ((s 0).newPins 1).getD ((s 0).pins 1) = none
    rw [(hpn 0 1).1, (hpn 0 1).2.1]; rfl
  have hpin : pin tinyG 0 (inside b1 0) 1 0 = (true, { inside b1 0 with
      newPins := fun x => if x = 1 then some (some 0) else (inside b1 0).newPins x }) := by
    unfold pin
    rw [hl, if_neg (by simp), dif_pos (by decide), if_neg (by rw [hpin1]; simp)]
    rfl
  have ht : ∀ j, (t j).newPins = (s2 j).newPins := fun j => by rw [g2 j]; rfl
  injection f2 with f2
  refine ⟨s, s2, t, b, b1, h2, ho, e1, f1, by rw [hpin], congrArg _ f2, f3, fun i => ?_, ?_, ?_, hpins 1, ?_, ?_⟩
  · rw [g2 i]; exact hL i
  · rw [ht, ← f2]
    show ((inside b1).set 0 _ 0).newPins 1 = _
    rw [Sys.set_same, hpin]
    rfl
  · rw [ht]
    exact (hmid2.proc 1).newPins 1 (by rw [h4]; decide)
  · rw [hown]; exact g4
  · intro j x hx
    rw [ht]
    refine (hmid2.proc j).newPins x fun e => ?_
    rw [hown, exist_newHome, exist_of e] at hx
    cases hx

/-- C104 is false of the code: while cell 1 is moving from process 0 to process 1 process 0 pins it to itself, `pin`
returns true. After load balancing process 1 unpins the cell, `unpin` returns true, but next load balancing, in which the
partitioner moves nothing, moves the cell back to process 0. -/
theorem C104_false : ∃ (s s2 t t' u : Sys 2 Nat Nat) (b b1 : Fin 2 → Balancing 2 Nat Nat), Reachable tinyG 0 146 s ∧
    (Op.balance move1 : Op 2 Nat Nat).Ok s ∧ startBalance tinyG 0 146 move1 s = .ok b ∧
    runPhase 146 b (.move fun _ _ _ v _ => v) = .ok b1 ∧ (pin tinyG 0 (inside b1 0) 1 0).1 = true ∧
    step tinyG 0 146 (inside b1) (.pin 0 1 0) = .ok s2 ∧ finishBalance tinyG 0 146 (putInside b1 s2) = .ok t ∧
    (∀ i, (t i).owner 1 = some 1) ∧
    (unpin tinyG 1 (t 1) 1).1 = true ∧ step tinyG 0 146 t (.unpin 1 1) = .ok t' ∧
    (Op.balance stay : Op 2 Nat Nat).Ok t' ∧ step tinyG 0 146 t' (.balance stay) = .ok u ∧
    ∀ i, (u i).owner 1 = some 0 := by
  obtain ⟨s, s2, t, b, b1, h1, h2, h3, h4, h5, h6, h7, h8, h9, h10, h11, h12, h13⟩ := tiny_pin_leaving
  have hl : ownLeaf tinyG 1 (t 1) 1 = true :=
    (ownLeaf_iff tiny_wf h12 1 1).2 (h8 0)
  have he : (unpin tinyG 1 (t 1) 1) = (true, t 1) := by
    unfold unpin
    rw [hl, if_neg (by simp), h11, if_neg (by simp)]
    congr 1
    have : (fun x => if x = 1 then none else (t 1).newPins x) = (t 1).newPins := by
      funext x
      split
      · rename_i e; rw [e, h10]
      · rfl
    rw [this]
  have ht : step tinyG 0 146 t (.unpin 1 1) = .ok t := by
    show Out.ok (t.set 1 _) = _
    rw [he]
    congr 1
    funext i
    unfold Sys.set
    split
    · rename_i e; rw [e]
    · rfl
  obtain ⟨t1, g1, g2, g3⟩ := balance_pins (dflt := 0) (maxTag := 146) h12 h13 stay 0
  have hf : ∀ (w : Owner 2), Tiled tinyG (exist w) → FitsTags 146 w := fun w h =>
    fitsTags_mono (by rw [tiny_last]; exact Nat.le_refl _) (fitsTags_last h.valid)
  obtain ⟨u, e1, -⟩ := balanceLoad_spec tiny_wf 0 (stay_ok _) g1 (hf _ g1.tiled) (maxTag := 146)
    (hf _ (by rw [show exist (newHome (t 0).owner (pinned (t 0).owner t1) stay) = exist (t 0).owner from
      funext fun c => exist_newHome]; exact g1.tiled))
  rw [g3] at e1
  refine ⟨s, s2, t, t, u, b, b1, h1, h2, h3, h4, h5, h6, h7, h8, by rw [he], ht, fun i => stay_ok _, e1, fun i => ?_⟩
  rw [balance_owner tiny_wf h12 h13 (stay_ok _) e1 0 i]
  have hup : updatePins t 0 1 = some 0 := by
    rw [updatePins_one (i := 0) (fun j hj => ?_), h9]
    · rfl
    · have : j = 1 := by omega
      rw [this, h10]
  generalize updatePins t 0 = f at hup
  unfold newHome
  rw [h8 0]
  simp only [hup]

/-- While cell 1 is moving from process 0 to process 1, process 1 pins cell 2, which stays there, to process 0 and then
unpins it. -/
theorem tiny_pin_staying : ∃ (s s2 s3 : Sys 2 Nat Nat) (b : Fin 2 → Balancing 2 Nat Nat), Reachable tinyG 0 146 s ∧
    (Op.balance move1 : Op 2 Nat Nat).Ok s ∧ startBalance tinyG 0 146 move1 s = .ok b ∧
    (pin tinyG 1 (inside b 1) 2 0).1 = true ∧ (inside b 1).pins 2 ≠ rank 2 0 ∧
    step tinyG 0 146 (inside b) (.pin 1 2 0) = .ok s2 ∧
    (unpin tinyG 1 (s2 1) 2).1 = true ∧ step tinyG 0 146 (inside (putInside b s2)) (.unpin 1 2) = .ok s3 ∧
    (∀ t, finishBalance tinyG 0 146 (putInside b s2) = .ok t → (t 1).owner 2 = some 1) ∧
    (∀ t, finishBalance tinyG 0 146 (putInside (putInside b s2) s3) = .ok t → (t 1).owner 2 = some 1) := by
  obtain ⟨s, h1, h2, h3, -, -, hpn, h4, h5⟩ := tiny_init
  have ho : (Op.balance move1 : Op 2 Nat Nat).Ok s := fun i => by
    refine move1_ok (?_ : (s i).owner 1 = some 0)
    rw [h3.sys.owner]; exact h4
  have hz : MovesOk (createLevel0 2 2).2 move1 := move1_ok h4
  obtain ⟨b, e1, e2⟩ := C103_returns tiny_wf (by decide) h2 ho (by decide)
  obtain ⟨f2, -, -⟩ := e2 _ _ .start
  obtain ⟨s2, f2⟩ := f2 (.pin 1 2 0) 1 rfl
  have hm1 : Meanwhile tinyG 0 146 (fun _ => True) b _ b := .start
  have hm2 := Meanwhile.call (.pin 1 2 0) 1 hm1 rfl trivial f2
  obtain ⟨f3, -, -⟩ := e2 _ _ hm2
  obtain ⟨s3, f3⟩ := f3 (.unpin 1 2) 1 rfl
  have hm3 := Meanwhile.call (.unpin 1 2) 1 hm2 rfl trivial f3
  have hmid1 := meanwhile_midway tiny_wf hz h3.sys e1 hm1
  have hmid2 := meanwhile_midway tiny_wf hz h3.sys e1 hm2
  have hl : ownLeaf tinyG 1 (s 1) 2 = true := (ownLeaf_iff tiny_wf h3 1 2).2 h5
  have hl1 : ownLeaf tinyG 1 (inside b 1) 2 = true := by
    unfold ownLeaf at hl ⊢
    rwa [show (inside b 1).owner = (s 1).owner from by rw [h3.sys.owner]; exact (hmid1.proc 1).owner]
  have hl2 : ownLeaf tinyG 1 (s2 1) 2 = true := by
    unfold ownLeaf at hl ⊢
    rwa [show (s2 1).owner = (s 1).owner from by rw [h3.sys.owner]; exact (hmid2.proc 1).owner]
  have hpin1 : (inside b 1).pins 2 = none := by
    show (b 1).proc.pins 2 = none
    rw [(startBalance_inv e1 1).2.1, updatePins_eq h3.sys]
    unfold pinned
    rw [h5]
    show ((s 1).newPins 2).getD ((s 1).pins 2) = none
    rw [(hpn 1 2).1, (hpn 1 2).2.1]; rfl
  have hfin : ∀ k b1 t, Meanwhile tinyG 0 146 (fun _ => True) b k b1 → finishBalance tinyG 0 146 b1 = .ok t →
      (t 1).owner 2 = some 1 := by
    intro k b1 t hm hf
    obtain ⟨t0, g1, g2, -⟩ := overlapped_inv tiny_wf (by omega) h3 hz e1 hm hf
    rw [g2 1]
    exact (C31_owners tiny_wf (Booked.init h1) ho g1 1 1 (by rw [h3.sys.owner]; exact h5)).2.2 rfl (by decide)
  refine ⟨s, s2, s3, b, h2, ho, e1, ?_, by rw [hpin1]; decide, f2, ?_, f3, fun t => hfin _ _ t hm2, fun t => hfin _ _ t hm3⟩
  · unfold pin
    rw [hl1, if_neg (by simp), dif_pos (by decide), if_neg (by rw [hpin1]; simp)]
  · unfold unpin
    rw [hl2, if_neg (by simp)]
    split <;> rfl

example : ∃ (s s2 t u : Sys 2 Nat Nat) (b : Fin 2 → Balancing 2 Nat Nat), tinyG.WF ∧ Reachable tinyG 0 146 s ∧
    (Op.balance move1 : Op 2 Nat Nat).Ok s ∧ startBalance tinyG 0 146 move1 s = .ok b ∧
    (pin tinyG 1 (inside b 1) 2 0).1 = true ∧ (inside b 1).pins 2 ≠ rank 2 0 ∧
    step tinyG 0 146 (inside b) (.pin 1 2 0) = .ok s2 ∧ finishBalance tinyG 0 146 (putInside b s2) = .ok t ∧
    (t 1).owner 2 = some 1 ∧ (Op.balance stay : Op 2 Nat Nat).Ok t ∧ step tinyG 0 146 t (.balance stay) = .ok u ∧
    (u 0).owner 2 = some 0 := by
  obtain ⟨s, s2, s3, b, h1, h2, h3, h4, h5, h6, h7, h8, h9, h10⟩ := tiny_pin_staying
  obtain ⟨b', e1, e2⟩ := C103_returns tiny_wf (by decide) h1 h2 (by decide)
  rw [h3] at e1; injection e1 with e1; subst e1
  have hm : Meanwhile tinyG 0 146 (fun _ => True) b _ b := .start
  have hm2 := Meanwhile.call (.pin 1 2 0) 1 hm rfl trivial h6
  obtain ⟨-, -, t, f1⟩ := e2 _ _ hm2
  have ho' : (Op.balance stay : Op 2 Nat Nat).Ok t := fun i => stay_ok _
  obtain ⟨u, f2⟩ := C104_returns tiny_wf (by decide) h1 h2 h3 hm2 f1 ho' (by decide)
  exact ⟨s, s2, t, u, b, tiny_wf, h1, h2, h3, h4, h5, h6, f1, h9 t f1, ho', f2,
    (C104_pin_partial tiny_wf h1 h2 h3 hm h4 h5 h6 .start f1 (.refl t) ho' f2 0).1⟩

example : ∃ (s s2 s3 t u : Sys 2 Nat Nat) (b : Fin 2 → Balancing 2 Nat Nat) (k : Calls), tinyG.WF ∧ Reachable tinyG 0 146 s ∧
    (Op.balance move1 : Op 2 Nat Nat).Ok s ∧ startBalance tinyG 0 146 move1 s = .ok b ∧
    Meanwhile tinyG 0 146 (fun _ => True) b k (putInside b s2) ∧
    (unpin tinyG 1 (inside (putInside b s2) 1) 2).1 = true ∧
    step tinyG 0 146 (inside (putInside b s2)) (.unpin 1 2) = .ok s3 ∧
    finishBalance tinyG 0 146 (putInside (putInside b s2) s3) = .ok t ∧
    (t 1).owner 2 = some 1 ∧ (Op.balance stay : Op 2 Nat Nat).Ok t ∧ step tinyG 0 146 t (.balance stay) = .ok u ∧
    (u 0).owner 2 = some 1 := by
  obtain ⟨s, s2, s3, b, h1, h2, h3, h4, h5, h6, h7, h8, h9, h10⟩ := tiny_pin_staying
  obtain ⟨b', e1, e2⟩ := C103_returns tiny_wf (by decide) h1 h2 (by decide)
  rw [h3] at e1; injection e1 with e1; subst e1
  have hm : Meanwhile tinyG 0 146 (fun _ => True) b _ b := .start
  have hm2 := Meanwhile.call (.pin 1 2 0) 1 hm rfl trivial h6
  have hm3 := Meanwhile.call (.unpin 1 2) 1 hm2 rfl trivial h8
  obtain ⟨-, -, t, f1⟩ := e2 _ _ hm3
  have ho' : (Op.balance stay : Op 2 Nat Nat).Ok t := fun i => stay_ok _
  obtain ⟨u, f2⟩ := C104_returns tiny_wf (by decide) h1 h2 h3 hm3 f1 ho' (by decide)
  exact ⟨s, s2, s3, t, u, b, _, tiny_wf, h1, h2, h3, hm2, h7, h8, f1, h10 t f1, ho', f2,
    (C104_unpin_partial tiny_wf h1 h2 h3 hm2 h7 h8 .start f1 (.refl t) (h10 t f1) ho' f2 0).2 (by intro q; exact List.not_mem_nil)⟩

/-- The request of process 0 for the cell that leaves it is carried out in next load balancing. -/
example : ∃ (s s2 t u : Sys 2 Nat Nat) (b b1 : Fin 2 → Balancing 2 Nat Nat) (k : Calls), tinyG.WF ∧ Reachable tinyG 0 146 s ∧
    (Op.balance move1 : Op 2 Nat Nat).Ok s ∧ startBalance tinyG 0 146 move1 s = .ok b ∧
    Meanwhile tinyG 0 146 (fun _ => True) b k b1 ∧ (pin tinyG 0 (inside b1 0) 1 0).1 = true ∧
    step tinyG 0 146 (inside b1) (.pin 0 1 0) = .ok s2 ∧ finishBalance tinyG 0 146 (putInside b1 s2) = .ok t ∧
    (t 0).owner 1 = some 1 ∧ (Op.balance stay : Op 2 Nat Nat).Ok t ∧ step tinyG 0 146 t (.balance stay) = .ok u ∧
    (u 0).owner 1 = some 0 := by
  obtain ⟨s, s2, t, b, b1, h1, h2, h3, h4, h5, h6, h7, h8, h9, h10, h11, h12, h13⟩ := tiny_pin_leaving
  have hm : Meanwhile tinyG 0 146 (fun _ => True) b _ b1 := .move _ .start h4
  have hm2 := Meanwhile.call (.pin 0 1 0) 0 hm rfl trivial h6
  have ho' : (Op.balance stay : Op 2 Nat Nat).Ok t := fun i => stay_ok _
  obtain ⟨u, f2⟩ := C104_returns tiny_wf (by decide) h1 h2 h3 hm2 h7 ho' (by decide)
  refine ⟨s, s2, t, u, b, b1, _, tiny_wf, h1, h2, h3, hm, h5, h6, h7, h8 0, ho', f2, ?_⟩
  rw [balance_owner tiny_wf h12 h13 (stay_ok _) f2 0 0]
  have hup : updatePins t 0 1 = some 0 := by
    rw [updatePins_one (i := 0) (fun j hj => ?_), h9]
    · rfl
    · have : j = 1 := by omega
      rw [this, h10]
  generalize updatePins t 0 = f at hup
  unfold newHome
  rw [h8 0]
  simp only [hup]

/-- Cell 1 has moved to process 1, which then pins it to process 0. -/
example : ∃ (s t t2 u : Sys 2 Nat Nat) (b : Fin 2 → Balancing 2 Nat Nat), tinyG.WF ∧ Reachable tinyG 0 146 s ∧
    (Op.balance move1 : Op 2 Nat Nat).Ok s ∧ startBalance tinyG 0 146 move1 s = .ok b ∧
    Meanwhile tinyG 0 146 (Op.NoPin 1) b Calls.none b ∧ finishBalance tinyG 0 146 b = .ok t ∧
    (pin tinyG 1 (t 1) 1 0).1 = true ∧ (t 1).pins 1 ≠ rank 2 0 ∧ step tinyG 0 146 t (.pin 1 1 0) = .ok t2 ∧
    (Op.balance stay : Op 2 Nat Nat).Ok t2 ∧ step tinyG 0 146 t2 (.balance stay) = .ok u ∧ (u 0).owner 1 = some 0 := by
  obtain ⟨s, h1, h2, h3, -, -, hpn, h4, h5⟩ := tiny_init
  have ho : (Op.balance move1 : Op 2 Nat Nat).Ok s := fun i => by
    refine move1_ok (?_ : (s i).owner 1 = some 0)
    rw [h3.sys.owner]; exact h4
  have hz : MovesOk (createLevel0 2 2).2 move1 := move1_ok h4
  obtain ⟨b, e1, e2⟩ := C103_returns tiny_wf (by decide) h2 ho (by decide)
  have hm : Meanwhile tinyG 0 146 (Op.NoPin 1) b _ b := .start
  obtain ⟨-, -, t, f1⟩ := e2 _ _ .start
  obtain ⟨hl, g1, g2, -⟩ := overlapped_loose tiny_wf h2 h3 hz (by omega) e1 hm f1
  have ht : newHome (createLevel0 2 2).2 (pinned (createLevel0 2 2).2 s) move1 1 = some 1 := by
    obtain ⟨t0, g1, g2, -⟩ := overlapped_inv tiny_wf (by omega) h3 hz e1 hm f1
    rw [← (balanceLoad_sound tiny_wf hz h3.sys g1 0).owner]
    exact (C31_owners tiny_wf (Booked.init h1) ho g1 0 0 (by rw [h3.sys.owner]; exact h4)).2.1 rfl 1 (by decide)
  have hp1 : (t 1).pins 1 = none := by
    rw [g2, (startBalance_inv e1 1).2.1, updatePins_eq h3.sys]
    unfold pinned
    rw [h4]
    show ((s 0).newPins 1).getD ((s 0).pins 1) = none
    rw [(hpn 0 1).1, (hpn 0 1).2.1]; rfl
  have hlf : ownLeaf tinyG 1 (t 1) 1 = true := (ownLeaf_iff tiny_wf hl.clean 1 1).2 ht
  have hp : (pin tinyG 1 (t 1) 1 0).1 = true := by
    unfold pin
    rw [hlf, if_neg (by simp), dif_pos (by decide), if_neg (by rw [hp1]; simp)]
  have hq : (t 1).pins 1 ≠ rank 2 0 := by rw [hp1]; decide
  obtain ⟨t2, f2⟩ : ∃ t2, step tinyG 0 146 t (.pin 1 1 0) = .ok t2 := ⟨_, rfl⟩
  have hl2 := hl.step tiny_wf (op := .pin 1 1 0) trivial f2
  have ho' : (Op.balance stay : Op 2 Nat Nat).Ok t2 := fun i => stay_ok _
  obtain ⟨t', k1, k2, k3⟩ := balance_pins (dflt := 0) (maxTag := 146) hl2.clean hl2.pins stay 0
  have hf : ∀ (w : Owner 2), Tiled tinyG (exist w) → FitsTags 146 w := fun w h =>
    fitsTags_mono (by rw [tiny_last]; exact Nat.le_refl _) (fitsTags_last h.valid)
  obtain ⟨u, k4, -⟩ := balanceLoad_spec tiny_wf 0 (stay_ok _) k1 (hf _ k1.tiled) (maxTag := 146)
    (hf _ (by rw [show exist (newHome (newHome (createLevel0 2 2).2 (pinned (createLevel0 2 2).2 s) move1)
      (pinned (newHome (createLevel0 2 2).2 (pinned (createLevel0 2 2).2 s) move1) t') stay) = _ from
      funext fun c => exist_newHome]; exact k1.tiled))
  rw [k3] at k4
  exact ⟨s, t, t2, u, b, tiny_wf, h2, ho, e1, hm, f1, hp, hq, f2, ho', k4,
    ((C104_later_partial tiny_wf h2 ho e1 hm f1 (.refl t) ho' (.refl t2) k4 0).1 0 hp hq f2).1⟩

/-- C104 in debug builds: the request is taken for an error, next load balancing does not return whatever is stored on
processes. -/
theorem C104_debug_false : ∃ (s s2 t : Sys 2 Nat Nat) (b b1 : Fin 2 → Balancing 2 Nat Nat), Reachable tinyG 0 146 s ∧
    (Op.balance move1 : Op 2 Nat Nat).Ok s ∧ startBalance tinyG 0 146 move1 s = .ok b ∧
    runPhase 146 b (.move fun _ _ _ v _ => v) = .ok b1 ∧ (pin tinyG 0 (inside b1 0) 1 0).1 = true ∧
    step tinyG 0 146 (inside b1) (.pin 0 1 0) = .ok s2 ∧ finishBalance tinyG 0 146 (putInside b1 s2) = .ok t ∧
    (Op.balance stay : Op 2 Nat Nat).Ok t ∧ ∀ σ u, balanceLoadD tinyG 0 146 stay t σ ≠ .ok u := by
  obtain ⟨s, s2, t, b, b1, h1, h2, h3, h4, h5, h6, h7, h8, h9, h10, h11, h12, h13⟩ := tiny_pin_leaving
  refine ⟨s, s2, t, b, b1, h1, h2, h3, h4, h5, h6, h7, fun i => stay_ok _, fun σ u hu => ?_⟩
  unfold balanceLoadD at hu
  obtain ⟨b', e1, -⟩ := Out.bind_inv hu
  have e2 := Out.collect_inv e1 0
  unfold initBalanceD Out.check at e2
  obtain ⟨x, -, e3⟩ := Out.bind_inv e2
  cases x with
  | false => cases e3
  | true =>
    have : dbgNewPins tinyG t (t 0).owner = false := by
      unfold dbgNewPins
      refine decide_eq_false fun h => ?_
      have := h 0 1 (by decide) (by rw [h9]; rfl)
      rw [h8 0] at this
      cases this
    rw [if_pos rfl, if_pos (Or.inr (Or.inl this))] at e3
    cases e3

end Dccrg
