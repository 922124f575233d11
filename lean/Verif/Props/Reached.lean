import Verif.Props.Between
import Verif.Props.Halo
/-!
# C105: histories with load balancing in phases

Histories in which load is balanced any number of times by calling `initialize_balance_load`, `continue_balance_load` and
`finish_balance_load`, with any calls of single processes in between, see Verif/Between.lean. After them a process can have
requests to pin cells of other processes, see `C104_false`.
-/
namespace Dccrg
open Cfg
variable {n : Nat} {D W : Type} {g : Cfg} {w : Owner n} {s s' t : Sys n D W} {dflt : D} {maxTag : Nat} {k : Calls}
  {b b1 : Fin n → Balancing n D W} {z : Fin n → Moves n}

/-- States reachable by any operations and load balancing in phases. -/
inductive Reached {n : Nat} {W : Type} (g : Cfg) : {D : Type} → D → Nat → Sys n D W → Prop
  | init {D : Type} {dflt : D} {maxTag : Nat} {s : Sys n D W} : createGrid g n dflt maxTag = .ok s → Reached g dflt maxTag s
  | step {D : Type} {dflt : D} {maxTag : Nat} {s s' : Sys n D W} (op : Op n D W) : Reached g dflt maxTag s →
      op.Ok s → Dccrg.step g dflt maxTag s op = .ok s' → Reached g dflt maxTag s'
  | copy {D D0 : Type} {dflt : D} {dflt0 : D0} {maxTag : Nat} {s : Sys n D0 W} : Reached g dflt0 maxTag s →
      Reached g dflt maxTag (copyGrid g dflt s)
  | phases {D : Type} {dflt : D} {maxTag : Nat} {s t : Sys n D W} {k : Calls} {b b1 : Fin n → Balancing n D W}
      (z : Fin n → Moves n) : Reached g dflt maxTag s → (Op.balance z : Op n D W).Ok s →
      startBalance g dflt maxTag z s = .ok b → Meanwhile g dflt maxTag (fun _ => True) b k b1 →
      finishBalance g dflt maxTag b1 = .ok t → Reached g dflt maxTag t

/-- Same with calls that returned true since the last `stop_refining` or start of load balancing, as `History`. -/
inductive Past (g : Cfg) (dflt : D) (maxTag : Nat) : Calls → Sys n D W → Prop
  | init {s : Sys n D W} : createGrid g n dflt maxTag = .ok s → Past g dflt maxTag Calls.none s
  | call {k : Calls} {s s' : Sys n D W} (op : Op n D W) : Past g dflt maxTag k s → op.Quiet →
      step g dflt maxTag s op = .ok s' → Past g dflt maxTag (k.add g s op) s'
  | stop {k : Calls} {s s' : Sys n D W} (sorted : Bool) : Past g dflt maxTag k s →
      step g dflt maxTag s (.stop sorted) = .ok s' →
      Past g dflt maxTag { Calls.none with
        dontRefine := fun c => ∃ i, Veto g (exist (s i).owner) k.dontRefine c } s'
  | balance {k : Calls} {s s' : Sys n D W} (z : Fin n → Moves n) : Past g dflt maxTag k s →
      (Op.balance z : Op n D W).Ok s → step g dflt maxTag s (.balance z) = .ok s' →
      Past g dflt maxTag Calls.none s'
  | phases {k k' : Calls} {s t : Sys n D W} {b b1 : Fin n → Balancing n D W} (z : Fin n → Moves n) : Past g dflt maxTag k s →
      (Op.balance z : Op n D W).Ok s → startBalance g dflt maxTag z s = .ok b →
      Meanwhile g dflt maxTag (fun _ => True) b k' b1 → finishBalance g dflt maxTag b1 = .ok t →
      Past g dflt maxTag k' t
  | copy {D0 : Type} {dflt0 : D0} {s : Sys n D0 W} : Reached g dflt0 maxTag s →
      Past g dflt maxTag Calls.none (copyGrid g dflt s)

theorem Reachable.reached (h : Reachable g dflt maxTag s) : Reached g dflt maxTag s := by
  induction h with
  | init h => exact .init h
  | step op _ ho hs ih => exact .step op ih ho hs
  | copy _ ih => exact .copy ih

theorem Past.reached (h : Past g dflt maxTag k s) : Reached g dflt maxTag s := by
  induction h with
  | init h => exact .init h
  | call op _ hq h ih => exact .step op ih (hq.ok _) h
  | stop sorted _ h ih => exact .step (.stop sorted) ih trivial h
  | balance z _ ho h ih => exact .step _ ih ho h
  | phases z _ ho h1 h2 h3 ih => exact .phases z ih ho h1 h2 h3
  | copy h => exact .copy h

theorem Reached.past (h : Reached g dflt maxTag s) : ∃ k, Past g dflt maxTag k s := by
  induction h with
  | init h => exact ⟨_, .init h⟩
  | copy h => exact ⟨_, .copy h⟩
  | phases z _ ho h1 h2 h3 ih =>
    obtain ⟨k, hk⟩ := ih
    exact ⟨_, .phases z hk ho h1 h2 h3⟩
  | step op _ ho h ih =>
    obtain ⟨k, hk⟩ := ih
    by_cases hq : op.Quiet
    · exact ⟨_, .call op hk hq h⟩
    · cases op with
      | stop sorted => exact ⟨_, .stop sorted hk h⟩
      | balance z => exact ⟨_, .balance z hk ho h⟩
      | _ => exact absurd trivial hq

/-! ## Invariant -/

theorem Inv.loose (h : Inv g w s) : Loose g w s := ⟨h.clean fun i => .refl _, fun i c hc => (h.sys.pins i c hc).2⟩

theorem Loose.core (h : Loose g w s) : SysCore g w s :=
  ⟨h.clean.sys.owner, h.clean.sys.tiled, h.clean.sys.balanced, h.clean.sys.placed,
    fun i c hc => ⟨(h.clean.sys.pins i c hc).1, h.pins i c hc⟩, h.clean.sys.pinsAgree, h.clean.sys.hoods⟩

theorem Loose.req (h : Loose g w s) (i : Fin n) : ReqOk g w (s i).req := h.clean.req i

theorem Loose.asks (h : Loose g w s) : Asks g w s :=
  ⟨h.core.owner, h.core.tiled, h.core.balanced, h.clean.asks.own, h.clean.asks.held⟩

theorem Loose.stop (hw : g.WF) (h : Loose g w s) {sorted : Bool} (hs : Dccrg.step g dflt maxTag s (.stop sorted) = .ok s') :
    ∃ w', Loose g w' s' := by
  obtain ⟨tc, h1, h2⟩ := (step_alike (op := .stop sorted) nofun fun i => (rfl :
    Alike (s i) (withNotes (s i) (s i).req (fun _ => none) (fun _ => none)))).inv hs
  obtain ⟨w', hi'⟩ := h.clean.step hw (op := .stop sorted) trivial h1
  obtain ⟨res, e1, e2⟩ := Out.bind_inv hs
  injection e2 with e2
  subst e2
  have e3 := (stopRefining_sound hw h.core h.req e1).1
  have e4 := Executed.sysCore hw h.core e3.plan e3.exec
  have hc := hi'.clean fun i => (h2 i).symm
  refine ⟨w', hc, fun i c hx => (e4.pins i c ?_).2⟩
  rw [← e4.owner i, show (res i).1.owner = w' from hc.sys.owner i]
  exact hx

theorem Loose.moves (hn : 0 < n) (h : Loose g w s) (ho : (Op.balance z : Op n D W).Ok s) : MovesOk w z := by
  have := ho ⟨0, hn⟩
  rwa [h.core.owner] at this

theorem Loose.balance (hw : g.WF) (hn : 0 < n) (h : Loose g w s) (ho : (Op.balance z : Op n D W).Ok s)
    (hs : Dccrg.step g dflt maxTag s (.balance z) = .ok s') : ∃ w', Inv g w' s' ∧ ∀ i, (s' i).req = ⟨[], [], [], []⟩ := by
  have hz := h.moves hn ho
  obtain ⟨t', h1, -, h2, h3⟩ := tidied h.clean h.pins ⟨0, hn⟩
  have e : balanceLoad g dflt maxTag z t' = .ok s' := by
    rw [← hs]
    show _ = balanceLoad g dflt maxTag z s
    unfold balanceLoad
    rw [show (fun i => initBalance g dflt t' z i) = fun i => initBalance g dflt s z i from funext (h3 dflt z)]
  obtain ⟨w', hi'⟩ := h1.step hw (op := .balance z) (fun i => by rw [h1.sys.owner]; exact hz) e
  exact ⟨w', hi', fun i => (balanceLoad_sound hw hz h1.sys e i).req⟩

theorem Loose.phases (hw : g.WF) (hn : 0 < n) (h : Loose g w s) (ho : (Op.balance z : Op n D W).Ok s)
    (h1 : startBalance g dflt maxTag z s = .ok b) {P : Op n D W → Prop} (h2 : Meanwhile g dflt maxTag P b k b1)
    (h3 : finishBalance g dflt maxTag b1 = .ok t) : ∃ w', Loose g w' t ∧ Stored g w' k t := by
  have hz := h.moves hn ho
  obtain ⟨t', f1, -, f2, f3⟩ := tidied h.clean h.pins ⟨0, hn⟩
  have e : startBalance g dflt maxTag z t' = .ok b := by
    rw [← h1]
    unfold startBalance
    rw [show (fun i => initBalance g dflt t' z i) = fun i => initBalance g dflt s z i from funext (f3 dflt z)]
  obtain ⟨t0, e1, e2, e3, e4, e5⟩ := overlapped_inv hw hn f1 hz e h2 h3
  have hmid := meanwhile_midway hw hz f1.sys e h2
  refine ⟨_, ⟨e4, fun j x hx => ?_⟩, e5⟩
  rw [e2 j]
  refine (hmid.proc j).newPins x fun e => ?_
  rw [exist_newHome, exist_of e] at hx
  cases hx

theorem Loose.copy {D0 : Type} {s : Sys n D0 W} (h : Loose g w s) (dflt : D) : Loose g w (copyGrid g dflt s) :=
  ⟨(h.clean.copy dflt).clean fun i => rfl, h.pins⟩

theorem Reached.loose (hw : g.WF) (h : Reached g dflt maxTag s) : 0 < n → ∃ w, Loose g w s := by
  intro hn
  induction h with
  | init h =>
    obtain ⟨w, hi⟩ := (Reachable.init h).inv hw hn
    exact ⟨w, hi.loose⟩
  | copy _ ih =>
    obtain ⟨w, hi⟩ := ih
    exact ⟨w, hi.copy _⟩
  | phases z _ ho h1 h2 h3 ih =>
    obtain ⟨w, hi⟩ := ih
    obtain ⟨w', hi', -⟩ := hi.phases hw hn ho h1 h2 h3
    exact ⟨w', hi'⟩
  | step op _ ho hs ih =>
    obtain ⟨w, hi⟩ := ih
    by_cases hq : op.Quiet
    · exact ⟨w, hi.step hw hq hs⟩
    · cases op with
      | stop sorted => exact hi.stop hw hs
      | balance z =>
        obtain ⟨w', hi', -⟩ := hi.balance hw hn ho hs
        exact ⟨w', hi'.loose⟩
      | _ => exact absurd trivial hq

theorem Past.stored (hw : g.WF) (hn : 0 < n) (h : Past g dflt maxTag k s) : ∃ w, Loose g w s ∧ Stored g w k s := by
  induction h with
  | init h =>
    obtain ⟨w, h1, h2⟩ := (History.init h).stored hw hn
    exact ⟨w, h1.loose, h2⟩
  | copy h =>
    obtain ⟨w, hi⟩ := h.loose hw hn
    exact ⟨w, hi.copy _, Stored.empty fun i => rfl⟩
  | call op hs hq h ih =>
    obtain ⟨w, hi, hst⟩ := ih
    exact ⟨w, hi.step hw hq h, hst.call hw hi.asks hq h⟩
  | stop sorted hs h ih =>
    obtain ⟨w, hi, hst⟩ := ih
    obtain ⟨w', hi'⟩ := hi.stop hw h
    exact ⟨w', hi', hst.stop hw hn hi.core hi.req h⟩
  | balance z hs ho h ih =>
    obtain ⟨w, hi, hst⟩ := ih
    obtain ⟨w', hi', h2⟩ := hi.balance hw hn ho h
    exact ⟨w', hi'.loose, Stored.empty h2⟩
  | phases z _ ho h1 h2 h3 ih =>
    obtain ⟨w, hi, hst⟩ := ih
    exact hi.phases hw hn ho h1 h2 h3

theorem Past.recorded (hw : g.WF) (h : Past g dflt maxTag k s) (j : Fin n) : Recorded g k s := by
  obtain ⟨w, h1, h2⟩ := h.stored hw (by have := j.2; omega)
  exact ⟨w, _, h1.clean, h2.congr (fun _ => rfl) (fun _ => Iff.rfl) (fun _ => Iff.rfl) (fun _ => Iff.rfl) (fun _ => Iff.rfl),
    fun i => rfl⟩

/-! ## Properties -/

/-- C105: processes agree about owners of cells, every index of the grid is in exactly one existing cell, neighbors differ by
one refinement level at most, and data of a cell is on its owner and nowhere else. -/
theorem C105_grid (hw : g.WF) (h : Reached g dflt maxTag s) (i : Fin n) :
    (∀ j, (s j).owner = (s i).owner) ∧
    (∀ c, exist (s i).owner c = true → g.Valid c) ∧
    (∀ p, g.InGrid p → ∃ c, exist (s i).owner c = true ∧ g.Mem p c ∧ ∀ b, exist (s i).owner b = true → g.Mem p b → b = c) ∧
    (∀ a b, exist (s i).owner a = true → exist (s i).owner b = true → ∀ o ∈ hoodOf g, Meets g a o b →
      g.lvl a ≤ g.lvl b + 1 ∧ g.lvl b ≤ g.lvl a + 1) ∧
    ∀ j c, ((s j).data c).isSome = true ↔ (s i).owner c = some j := by
  obtain ⟨w, h⟩ := h.loose hw (by have := i.2; omega)
  have h := h.core
  rw [h.owner i]
  refine ⟨h.owner, h.tiled.valid, fun p hp => ?_, (balanced_iff hw h.tiled).1 h.balanced, h.placed⟩
  obtain ⟨c, h1, h2⟩ := h.tiled.cover p hp
  exact ⟨c, h1, h2, fun b h3 h4 => h.tiled.unique p b c h3 h1 h4 h2⟩

/-- C105: with enough tags every operation returns if given neighborhoods exist, also load balancing in phases, whatever is
called in between. -/
theorem C105_returns (hw : g.WF) (hn : 0 < n) (h : Reached g dflt maxTag s) (ht : g.last ≤ maxTag) :
    (∀ op : Op n D W, op.Ok s → op.Known g s → ∃ s', step g dflt maxTag s op = .ok s') ∧
    ∀ z, (Op.balance z : Op n D W).Ok s → ∃ b, startBalance g dflt maxTag z s = .ok b ∧
      ∀ k b1, Meanwhile g dflt maxTag (fun _ => True) b k b1 →
        (∀ op i, op.caller = some i → ∃ s2, step g dflt maxTag (inside b1) op = .ok s2) ∧
        (∀ m, ∃ b2, runPhase maxTag b1 (.move m) = .ok b2) ∧ ∃ t, finishBalance g dflt maxTag b1 = .ok t := by
  obtain ⟨w, hl⟩ := h.loose hw hn
  obtain ⟨t', f1, f2, -, f3⟩ := tidied hl.clean hl.pins ⟨0, hn⟩
  constructor
  · intro op ho hk
    by_cases hb : ∃ z, op = .balance z
    · obtain ⟨z, rfl⟩ := hb
      have hz := hl.moves hn ho
      obtain ⟨s', e⟩ := step_ok hw hn dflt f1 ht (.balance z) (fun i => by rw [f1.sys.owner]; exact hz) trivial
      refine ⟨s', ?_⟩
      rw [← e]
      show balanceLoad g dflt maxTag z s = balanceLoad g dflt maxTag z t'
      unfold balanceLoad
      rw [show (fun i => initBalance g dflt t' z i) = fun i => initBalance g dflt s z i from funext (f3 dflt z)]
    · have hk' : op.Known g t' := by
        cases op with
        | update id =>
          intro i
          have := hk i
          unfold hoodFor at this ⊢
          rw [f2 i]
          exact this
        | _ => trivial
      obtain ⟨s', e⟩ := step_ok hw hn dflt f1 ht op (by
        cases op with
        | balance z => exact absurd ⟨z, rfl⟩ hb
        | _ => trivial) hk'
      obtain ⟨s'', e', -⟩ := (step_alike (fun z e => hb ⟨z, e⟩) fun i => (f2 i).symm).inv e
      exact ⟨s'', e'⟩
  · intro z ho
    have hz := hl.moves hn ho
    obtain ⟨b, e1, e2⟩ := between_ok (dflt := dflt) hw hn f1 hz ht
    refine ⟨b, ?_, e2⟩
    rw [← e1]
    unfold startBalance
    rw [show (fun i => initBalance g dflt t' z i) = fun i => initBalance g dflt s z i from funext (f3 dflt z)]

/-- C105: an update gives every process the data of every remote neighbor of its cells. -/
theorem C105_copies (hw : g.WF) (h : Reached g dflt maxTag s) {id : Int} {res : Fin n → Bool × Proc n D W}
    (hu : updateRemote g maxTag id s = .ok res) (i j : Fin n) {c b : Nat} (hc : (s i).owner c = some i)
    (hb : NbrOf g (s i) id c b) (hj : (s i).owner b = some j) (hij : j ≠ i) :
    access (res i).2 b = (s j).data b ∧ access (res i).2 b = access (s j) b ∧ (access (s j) b).isSome = true := by
  obtain ⟨w, hl⟩ := h.loose hw (by have := i.2; omega)
  obtain ⟨res', e1, e2⟩ := (updateRemote_alike (fun i => (rfl :
    Alike (s i) (withNotes (s i) (s i).req (fun _ => none) (fun _ => none))))).inv hu
  have := hl.clean.copies hw e1 i j hc hb hj hij
  rw [show access (res i).2 b = access (res' i).2 b by rw [e2 i]; rfl]
  exact this

/-- C105: a cell for which no process has requested a change of its pin goes to the process it's pinned to, and where the
partitioner wants if it isn't pinned. -/
theorem C105_pinned (hw : g.WF) (h : Reached g dflt maxTag s) (ho : (Op.balance z : Op n D W).Ok s)
    (hs : step g dflt maxTag s (.balance z) = .ok s') (i j p : Fin n) {c : Nat} (hc : (s i).owner c = some p)
    (hq : ∀ q, (s q).newPins c = none) :
    (∀ q, (s i).pins c = some q → (s' j).owner c = some q) ∧
    ((s i).pins c = none → (∀ q, (c, q) ∈ (z p).send → (s' j).owner c = some q) ∧
      ((∀ q, (c, q) ∉ (z p).send) → (s' j).owner c = some p)) := by
  have hn : 0 < n := by have := i.2; omega
  obtain ⟨w, hl⟩ := h.loose hw hn
  have hz := hl.moves hn ho
  have e := balance_owner hw hl.clean hl.pins hz hs i j
  rw [hl.core.owner] at hc
  have hu : updatePins s i c = (s i).pins c := by
    unfold updatePins
    exact fold_none (fun p => (s p).newPins c) _ (fun q _ => hq q) _
  rw [e]
  constructor
  · intro q hp
    unfold newHome
    rw [hc]
    simp only [hu, hp]
  · intro hp
    exact newHome_unpinned hz hc (hu.trans hp)

/-- C105: cells refined by `stop_refining` are those that have to be because of accepted requests, as in
`C24_refined_cells`. -/
theorem C105_refined_cells (hw : g.WF) (h : Past g dflt maxTag k s) {sorted : Bool} {res : Fin n → Proc n D W × List Nat}
    (hr : stopRefining g dflt maxTag sorted s = .ok res) (j : Fin n) {c : Nat} (hc : exist (s j).owner c = true) :
    (Finer g (exist (res j).1.owner) c ↔ Forced g (exist (s j).owner) k c) ∧
    (Finer g (exist (res j).1.owner) c → exist (res j).1.owner c = false ∧
      ∀ x ∈ g.children c, exist (res j).1.owner x = true) :=
  ⟨(h.recorded hw j).refined_cells hw hr j hc, (h.recorded hw j).refined_children hw hr j hc⟩

/-- C105: a cell for which `dont_refine` returned true is not refined, one for which `dont_unrefine` returned true is not
unrefined. -/
theorem C105_vetoes (hw : g.WF) (h : Past g dflt maxTag k s) {sorted : Bool} {res : Fin n → Proc n D W × List Nat}
    (hr : stopRefining g dflt maxTag sorted s = .ok res) (j : Fin n) {c : Nat} (hc : exist (s j).owner c = true) :
    (k.dontRefine c → ¬ Finer g (exist (res j).1.owner) c) ∧ (k.dontUnrefine c → ¬ Coarser g (exist (res j).1.owner) c) :=
  ⟨fun hk => (h.recorded hw j).dont_refine hw hk hr j hc, fun hk => (h.recorded hw j).dont_unrefine hw hk hr j⟩

/-- C105: cells are unrefined only if `unrefine_completely` returned true for one of the family, and are if there are no
requests to refine or not to unrefine and no cell in the neighborhood of the parent is smaller than the cell. -/
theorem C105_unrefined (hw : g.WF) (h : Past g dflt maxTag k s) {sorted : Bool} {res : Fin n → Proc n D W × List Nat}
    (hr : stopRefining g dflt maxTag sorted s = .ok res) (j : Fin n) {c : Nat} :
    (exist (s j).owner c = true → Coarser g (exist (res j).1.owner) c →
      ∃ u, k.unrefine u ∧ g.parent u = g.parent c ∧ exist (s j).owner u = true ∧
        exist (res j).1.owner (g.parent c) = true ∧
        ∀ x ∈ g.children (g.parent c), exist (s j).owner x = true ∧ exist (res j).1.owner x = false) ∧
    (k.unrefine c → 0 < g.lvl c → (∀ x, ¬ k.refine x) → (∀ x, ¬ k.dontUnrefine x) →
      (∀ b, exist (s j).owner b = true → ∀ o ∈ hoodOf g, Meets g (g.parent c) o b → g.lvl b ≤ g.lvl c) →
      exist (res j).1.owner (g.parent c) = true ∧
      ∀ x ∈ g.children (g.parent c), exist (s j).owner x = true ∧ exist (res j).1.owner x = false) :=
  ⟨fun hc => (h.recorded hw j).only_requested hw hr j hc,
    fun hc hl h1 h2 hn => (h.recorded hw j).requested_unrefinement hw hc hl h1 h2 hr j hn⟩

/-- C105: exactly which cells are unrefined if `dont_refine` has not been used, as in `C56_unrefined_cells`. -/
theorem C105_unrefined_cells (hw : g.WF) (h : Past g dflt maxTag k s) {sorted : Bool}
    {res : Fin n → Proc n D W × List Nat} (hk : ∀ x, ¬ k.dontRefine x)
    (hr : stopRefining g dflt maxTag sorted s = .ok res) (j : Fin n) {c : Nat}
    (hc : exist (s j).owner c = true) :
    Coarser g (exist (res j).1.owner) c ↔
      0 < g.lvl c ∧ (∃ u ∈ g.children (g.parent c), k.unrefine u) ∧
      (∀ x ∈ g.children (g.parent c), exist (s j).owner x = true ∧ ¬ k.refine x ∧ ¬ k.dontUnrefine x ∧
        ¬ Forced g (exist (s j).owner) k x) ∧
      ∀ b, exist (s j).owner b = true → ∀ o ∈ hoodOf g, Meets g (g.parent c) o b →
        g.lvl b ≤ g.lvl c ∧ (g.lvl b = g.lvl c → ¬ Forced g (exist (s j).owner) k b) :=
  (h.recorded hw j).unrefined_cells hw hk hr j hc

/-! ## The demo -/

theorem Overlapped.past (h : Overlapped g dflt maxTag k s) : Past g dflt maxTag k s := by
  induction h with
  | finish z hr ho h1 h2 h3 =>
    obtain ⟨k, hk⟩ := hr.reached.past
    exact .phases z hk ho h1 h2 h3
  | call op _ hq hs ih => exact .call op ih hq hs

/-- Refinement of cell 1 has been requested while it moves to process 1, it has been refined and then its unrefinement
requested while load is being balanced again. -/
theorem tiny_past : ∃ (k : Calls) (s : Sys 2 Nat Nat) (res : Fin 2 → Proc 2 Nat Nat × List Nat),
    Past tinyG 0 146 k s ∧ k.unrefine 3 ∧ (∀ x, ¬ k.refine x) ∧ (∀ x, ¬ k.dontUnrefine x) ∧
    stopRefining tinyG 0 146 true s = .ok res ∧ (∀ i b, exist (s i).owner b = true → tinyG.lvl b ≤ 1) ∧
    ∀ i, exist (s i).owner 3 = true := by
  obtain ⟨k0, s0, res0, h1, h2, h3, h4, h5, h6⟩ := tiny_overlapped
  have hp0 := h1.past
  have hp1 := Past.stop true hp0 (show (stopRefining tinyG 0 146 true s0).bind _ = _ by rw [h5]; rfl)
  generalize hs1 : (fun i => (res0 i).1 : Sys 2 Nat Nat) = s1 at hp1
  have e1 : ∀ i, s1 i = (res0 i).1 := fun i => by rw [← hs1]
  have hch : ∀ i, ∀ x ∈ tinyG.children 1, exist (s1 i).owner x = true := by
    intro i x hx
    rw [e1]
    have hc := exist_of (h4 i)
    exact ((C105_refined_cells tiny_wf hp0 h5 i hc).2 ((C105_refined_cells tiny_wf hp0 h5 i hc).1.2
      (.base h2 (by decide) (Veto.none h3)))).2 x hx
  have hlv : ∀ i c, exist (s1 i).owner c = true → tinyG.lvl c ≤ 1 := by
    intro i c hc
    rw [e1] at hc
    obtain ⟨w, ha, -, hpl, f1, f2, -⟩ := (hp0.recorded tiny_wf i).stopped tiny_wf h5 i
    rw [f1] at hc
    have hE : ∀ x, exist w x = true → tinyG.lvl x = 0 := by
      intro x hx
      rw [← ha.owner i] at hx
      have := h6 i x hx
      obtain rfl | rfl : x = 1 ∨ x = 2 := by omega
      · decide
      · decide
    rcases (f2 c).1 hc with ⟨h, -⟩ | ⟨r, hr, hx⟩ | ⟨u, hu, -⟩
    · rw [hE c h]; omega
    · obtain ⟨g1, g2⟩ := hpl.refE r hr
      obtain ⟨o, ho, rfl⟩ := mem_children.1 hx
      rw [lvl_child tiny_wf (ha.tiled.valid r g1) g2 ho, hE r g1]
      omega
    · obtain ⟨g1, g2, -⟩ := hpl.unE u hu
      have := hE u g1
      omega
  obtain ⟨w, hl⟩ := hp1.reached.loose tiny_wf (by omega)
  obtain ⟨p, hp⟩ : ∃ p, w 3 = some p := by
    have := hch 0 3 (by decide)
    rw [hl.core.owner] at this
    exact Option.isSome_iff_exists.1 this
  have ho : (Op.balance stay : Op 2 Nat Nat).Ok s1 := fun i => stay_ok _
  obtain ⟨b, e2, e3⟩ := (C105_returns tiny_wf (by omega) hp1.reached (by decide)).2 stay ho
  obtain ⟨f1, -, -⟩ := e3 _ _ .start
  obtain ⟨s2, f2⟩ := f1 (.unrefine p 3) p rfl
  have hm := Meanwhile.call (P := fun _ => True) (.unrefine p 3) p (.start (b := b)) rfl trivial f2
  obtain ⟨-, -, t, f3⟩ := e3 _ _ hm
  have hp2 := Past.phases stay hp1 ho e2 hm f3
  obtain ⟨t2, f4⟩ := (C105_returns tiny_wf (by omega) hp2.reached (by decide)).1 (.stop true) trivial trivial
  obtain ⟨res, f5, -⟩ := Out.bind_inv f4
  obtain ⟨t', i1, -, -, i4⟩ := tidied hl.clean hl.pins 0
  have e2' : startBalance tinyG 0 146 stay t' = .ok b := by
    rw [← e2]
    unfold startBalance
    rw [show (fun i => initBalance tinyG 0 t' stay i) = fun i => initBalance tinyG 0 s1 stay i from funext (i4 0 stay)]
  have hex : ∀ i c, exist (t i).owner c = exist (s1 i).owner c := by
    intro i c
    obtain ⟨t0, -, -, -, j4, -⟩ := overlapped_inv tiny_wf (by omega) i1 (stay_ok w) e2' hm f3
    rw [show (t i).owner = _ from j4.sys.owner i, exist_newHome, hl.core.owner]
  refine ⟨_, t, res, hp2, Or.inr ⟨p, rfl, ?_⟩, ?_, ?_, f5, fun i c hc => hlv i c (by rwa [hex] at hc),
    fun i => by rw [hex]; exact hch i 3 (by decide)⟩
  · have ha := Started.asks (stay_ok w) i1.sys e2'
    obtain ⟨w', e, hp'⟩ := ha.view p
    obtain ⟨x, r, g1, g2, -⟩ := unrefineCompletely_spec (r := (inside b p).req) tiny_wf (by rw [e]; exact ha.tiled)
      (by rw [e]; exact ha.balanced) hp' ((hp' 3).1 (ha.own p 3 hp))
    cases x with
    | true => exact ⟨r, by rw [ha.owner, ← e]; exact g1⟩
    | false =>
      obtain ⟨-, -, x, hx, hx'⟩ := g2 rfl
      rw [show tinyG.parent 3 = 1 by decide] at hx
      have := hch 0 x hx
      rw [hl.core.owner, ← e, hx'] at this
      cases this
  · rintro c (h | ⟨i, h, -⟩)
    · exact h
    · cases h
  · rintro c (h | ⟨i, h, -⟩)
    · exact h
    · cases h

example : ∃ (k : Calls) (s : Sys 2 Nat Nat) (res : Fin 2 → Proc 2 Nat Nat × List Nat), tinyG.WF ∧ Past tinyG 0 146 k s ∧
    Reached tinyG 0 146 s ∧ tinyG.last ≤ 146 ∧ k.unrefine 3 ∧ 0 < tinyG.lvl 3 ∧ (∀ x, ¬ k.refine x) ∧ (∀ x, ¬ k.dontUnrefine x) ∧
    stopRefining tinyG 0 146 true s = .ok res ∧ exist (s 0).owner 3 = true ∧ Coarser tinyG (exist (res 0).1.owner) 3 ∧
    ∀ b, exist (s 0).owner b = true → ∀ o ∈ hoodOf tinyG, Meets tinyG (tinyG.parent 3) o b →
      tinyG.lvl b ≤ tinyG.lvl 3 := by
  obtain ⟨k, s, res, h1, h2, h3, h4, h5, h6, h7⟩ := tiny_past
  refine ⟨k, s, res, tiny_wf, h1, h1.reached, by decide, h2, by decide, h3, h4, h5, h7 0, ?_, fun b hb _ _ _ => h6 0 b hb⟩
  have := ((C105_unrefined tiny_wf h1 h5 0).2 h2 (by decide) h3 h4 fun b hb _ _ _ => h6 0 b hb).1
  refine ⟨1, v3 0 0 0, by rwa [show tinyG.parent 3 = 1 by decide] at this, ?_, ?_, by decide⟩
  · show ∀ d, _
    rw [forall_fin3]; decide +kernel
  · show ∀ d, _
    rw [forall_fin3]; decide +kernel

/-- Process 0 pins cell 1 to itself, load is balanced in phases and then again. Cell 2 of process 1 is a neighbor. -/
example : ∃ (s s' : Sys 2 Nat Nat) (res : Fin 2 → Bool × Proc 2 Nat Nat), tinyG.WF ∧ Reached tinyG 0 146 s ∧
    (Op.balance stay : Op 2 Nat Nat).Ok s ∧ step tinyG 0 146 s (.balance stay) = .ok s' ∧ (∀ q, (s q).newPins 1 = none) ∧
    (∀ i, (s i).pins 1 = some 0) ∧ (s 0).owner 1 = some 0 ∧ updateRemote tinyG 146 defaultId s = .ok res ∧
    NbrOf tinyG (s 0) defaultId 1 2 ∧ (s 0).owner 2 = some 1 := by
  obtain ⟨s, h1, h2, h3, h6, h7, h8, h4, h5⟩ := tiny_init
  obtain ⟨s1, e1, e2⟩ := tiny_step h2 (.pin 0 1 0) trivial trivial
  have ho : (Op.balance stay : Op 2 Nat Nat).Ok s1 := fun i => stay_ok _
  obtain ⟨b, f1, f2⟩ := (C105_returns tiny_wf (by omega) e2.reached (by decide)).2 stay ho
  obtain ⟨-, -, t, f3⟩ := f2 _ _ .start
  have hm : Meanwhile tinyG 0 146 (fun _ => True) b _ b := .start
  have hr := Reached.phases stay e2.reached ho f1 hm f3
  obtain ⟨w, hi⟩ := e2.inv tiny_wf (by omega)
  have hw0 : w = (createLevel0 2 2).2 := by
    rw [← hi.sys.owner 0, (step_quiet (.pin 0 1 0) trivial e1 0).1, h3.sys.owner]
  have hpin : pinned w s1 1 = some 0 := by
    unfold pinned
    rw [hw0, h4]
    injection e1 with e1
    show ((s1 0).newPins 1).getD _ = _
    rw [← e1, Sys.set_same]
    have hl := (ownLeaf_iff tiny_wf h3 0 1).2 h4
    unfold pin
    rw [hl, if_neg (by simp), dif_pos (by decide), if_neg (by rw [(h8 0 1).1]; simp)]
    rfl
  obtain ⟨t0, g1, g2, -, g4, -⟩ := overlapped_inv tiny_wf (by omega) hi (stay_ok w) f1 hm f3
  have hl := overlapped_loose tiny_wf e2 hi (stay_ok w) (by omega) f1 hm f3
  have hnp : ∀ q, (t q).newPins 1 = none := by
    intro q
    rw [hl.2.1 q]
    exact congrFun (startBalance_inv f1 q).2.2.1 1
  have hp1 : ∀ i, (t i).pins 1 = some 0 := by
    intro i
    rw [g2 i, ← hpin]
    exact (balanceLoad_sound tiny_wf (stay_ok w) hi.sys g1 i).pins 1
  have hn2 : newHome w (pinned w s1) stay 2 = some 1 := by
    have hp2 : pinned w s1 2 = none := by
      unfold pinned
      rw [hw0, h5]
      injection e1 with e1
      show ((s1 1).newPins 2).getD ((s1 1).pins 2) = _
      rw [← e1, Sys.set_other _ (by decide), (h8 1 2).1, (h8 1 2).2.1]
      rfl
    exact (newHome_unpinned (stay_ok w) (by rw [hw0]; exact h5) hp2).2 (fun q hq => by cases hq)
  have hn1 : newHome w (pinned w s1) stay 1 = some 0 := by
    unfold newHome
    rw [hw0, h4, ← hw0]
    simp only [hpin]
  obtain ⟨t', e3⟩ := (C105_returns tiny_wf (by omega) hr (by decide)).1 (.balance stay) (fun i => stay_ok _) trivial
  obtain ⟨t2, e4⟩ := (C105_returns tiny_wf (by omega) hr (by decide)).1 (.update defaultId) trivial
    (fun i => by unfold hoodFor; rw [if_pos rfl]; rfl)
  obtain ⟨res, e5, -⟩ := Out.bind_inv e4
  have ho1 : (t 0).owner = newHome w (pinned w s1) stay := g4.sys.owner 0
  refine ⟨t, t', res, tiny_wf, hr, fun i => stay_ok _, e3, hnp, hp1, by rw [ho1]; exact hn1, e5, ?_, by rw [ho1]; exact hn2⟩
  exact (g4.nbrOf_iff tiny_wf (i := 0) (if_pos rfl) (exist_of hn1)).2 ⟨exist_of hn2, tiny_linked.1⟩

end Dccrg
