import Verif.Phases
import Verif.Recorded
import Verif.SchedOps
/-!
# Calls while load is being balanced

Model of functions that one process calls between `initialize_balance_load` and `finish_balance_load`. The next function
that all processes call must be `continue_balance_load` or `finish_balance_load` (dccrg.hpp:3809-3813), functions that
are called by one process don't check whether load is being balanced (dccrg.hpp:2511-2861, 6001-6158, 6373-6401), with the
exception of some that don't change anything (dccrg.hpp:677-683).
-/
namespace Dccrg
open Cfg
variable {n : Nat} {D W : Type} {g : Cfg} {w : Owner n} {s s' t : Sys n D W} {dflt : D} {maxTag : Nat}

/-- State of the grid on all processes while load is being balanced. -/
def inside (b : Fin n → Balancing n D W) : Sys n D W := fun i => (b i).proc

/-- Same with another state of the grid. -/
def putInside (b : Fin n → Balancing n D W) (s : Sys n D W) : Fin n → Balancing n D W := fun i => { b i with proc := s i }

/-- What happens after `initialize_balance_load` has returned on all processes, from state `b`: any number of calls to
`continue_balance_load`, and of calls that satisfy `P` and are made on one process. `k` are calls that returned true. A
process that hasn't called finish_balance_load sees owners of cells as they were before load balancing. -/
inductive Meanwhile (g : Cfg) (dflt : D) (maxTag : Nat) (P : Op n D W → Prop) (b : Fin n → Balancing n D W) :
    Calls → (Fin n → Balancing n D W) → Prop
  | start : Meanwhile g dflt maxTag P b Calls.none b
  | move {k : Calls} {b1 b2 : Fin n → Balancing n D W} (m : Fin n → Fin n → Nat → D → D → D) :
      Meanwhile g dflt maxTag P b k b1 → runPhase maxTag b1 (.move m) = .ok b2 → Meanwhile g dflt maxTag P b k b2
  | call {k : Calls} {b1 : Fin n → Balancing n D W} {s2 : Sys n D W} (op : Op n D W) (i : Fin n) :
      Meanwhile g dflt maxTag P b k b1 → op.caller = some i → P op → step g dflt maxTag (inside b1) op = .ok s2 →
      Meanwhile g dflt maxTag P b (k.add g (inside b1) op) (putInside b1 s2)

/-- Histories that end with load balancing during which calls were made on processes, and further calls after it. -/
inductive Overlapped (g : Cfg) (dflt : D) (maxTag : Nat) : Calls → Sys n D W → Prop
  | finish {k : Calls} {s t : Sys n D W} {b b1 : Fin n → Balancing n D W} (z : Fin n → Moves n) :
      Reachable g dflt maxTag s → (Op.balance z : Op n D W).Ok s → startBalance g dflt maxTag z s = .ok b →
      Meanwhile g dflt maxTag (fun _ => True) b k b1 → finishBalance g dflt maxTag b1 = .ok t →
      Overlapped g dflt maxTag k t
  | call {k : Calls} {s s' : Sys n D W} (op : Op n D W) : Overlapped g dflt maxTag k s → op.Quiet →
      step g dflt maxTag s op = .ok s' → Overlapped g dflt maxTag (k.add g s op) s'

/-! ## One process -/

/-- State `p` of process `i` that was `p0` after `initialize_balance_load`. -/
structure MidOk (g : Cfg) (w : Owner n) (i : Fin n) (p0 p : Proc n D W) : Prop where
  owner : p.owner = w
  some : ∀ c, (p.data c).isSome = (p0.data c).isSome
  pins : p.pins = p0.pins
  hoods : p.hoods = p0.hoods
  remote : p.remote = fun _ => none
  refined : p.refinedData = fun _ => none
  unrefined : p.unrefinedData = fun _ => none
  newPins : ∀ c, w c ≠ Option.some i → p.newPins c = none
  weights : ∀ c, w c ≠ Option.some i → p.weights c = none
  req : ReqOk g w p.req

section
variable {i : Fin n} {p0 p : Proc n D W}

theorem MidOk.pin (h : MidOk g w i p0 p) (c : Nat) (q : Int) : MidOk g w i p0 (Dccrg.pin g i p c q).2 := by
  unfold Dccrg.pin
  split
  · exact h
  · rename_i hl
    have ho := ownLeaf_owner hl
    rw [h.owner] at ho
    split
    · split
      · exact h
      · refine ⟨h.owner, h.some, h.pins, h.hoods, h.remote, h.refined, h.unrefined, ?_, h.weights, h.req⟩
        intro x hx
        show (if x = c then _ else p.newPins x) = none
        rw [if_neg (by rintro rfl; exact hx ho)]
        exact h.newPins x hx
    · exact h

theorem MidOk.unpin (h : MidOk g w i p0 p) (c : Nat) : MidOk g w i p0 (Dccrg.unpin g i p c).2 := by
  unfold Dccrg.unpin
  split
  · exact h
  · rename_i hl
    have ho := ownLeaf_owner hl
    rw [h.owner] at ho
    split
    all_goals
      refine ⟨h.owner, h.some, h.pins, h.hoods, h.remote, h.refined, h.unrefined, ?_, h.weights, h.req⟩
      intro x hx
      show (if x = c then _ else p.newPins x) = none
      rw [if_neg (by rintro rfl; exact hx ho)]
      exact h.newPins x hx

theorem MidOk.unpinLocal (h : MidOk g w i p0 p) : MidOk g w i p0 (Dccrg.unpinLocal g i p).2 := by
  unfold Dccrg.unpinLocal
  generalize (ids g).filter _ = l
  suffices ∀ b (p : Proc n D W), MidOk g w i p0 p → MidOk g w i p0
      (l.foldl (fun s c => let r := Dccrg.unpin g i s.2 c; (s.1 && r.1, r.2)) (b, p)).2 from this true p h
  induction l with
  | nil => exact fun _ _ h => h
  | cons a l ih => exact fun b p h => ih _ _ (h.unpin a)

theorem MidOk.setWeight (h : MidOk g w i p0 p) (c : Nat) (v : W) : MidOk g w i p0 (Dccrg.setWeight g i p c v).2 := by
  unfold Dccrg.setWeight
  split
  · exact h
  · rename_i hl
    have ho := ownLeaf_owner hl
    rw [h.owner] at ho
    refine ⟨h.owner, h.some, h.pins, h.hoods, h.remote, h.refined, h.unrefined, h.newPins, ?_, h.req⟩
    intro x hx
    show (if x = c then _ else p.weights x) = none
    rw [if_neg (by rintro rfl; exact hx ho)]
    exact h.weights x hx

theorem MidOk.write (h : MidOk g w i p0 p) (c : Nat) (v : D) : MidOk g w i p0 (Dccrg.write p c v) := by
  unfold Dccrg.write
  rw [show (p.remote c).isSome = false by rw [h.remote]; rfl, show (p.refinedData c).isSome = false by rw [h.refined]; rfl,
    show (p.unrefinedData c).isSome = false by rw [h.unrefined]; rfl]
  split
  · rename_i hc
    refine ⟨h.owner, ?_, h.pins, h.hoods, h.remote, h.refined, h.unrefined, h.newPins, h.weights, h.req⟩
    intro x
    show (if x = c then Option.some v else p.data x).isSome = _
    split
    · rename_i e; subst e
      rw [← h.some, hc]; rfl
    · exact h.some x
  · exact h

theorem MidOk.clearRefined (h : MidOk g w i p0 p) : MidOk g w i p0 (Dccrg.clearRefined p) :=
  ⟨h.owner, h.some, h.pins, h.hoods, h.remote, rfl, rfl, h.newPins, h.weights, h.req⟩

theorem MidOk.ask (h : MidOk g w i p0 p) {r : Req} (hr : ReqOk g w r) : MidOk g w i p0 { p with req := r } :=
  ⟨h.owner, h.some, h.pins, h.hoods, h.remote, h.refined, h.unrefined, h.newPins, h.weights, hr⟩

end

/-! ## All processes -/

/-- What is kept by calls on one process. -/
theorem midOk_call (hw : g.WF) {p0 : Sys n D W} (hi : ∀ i, MidOk g w i (p0 i) (s i)) (ha : Asks g w s) {op : Op n D W}
    {i : Fin n} (ho : op.caller = some i) (h : step g dflt maxTag s op = .ok s') (j : Fin n) : MidOk g w j (p0 j) (s' j) := by
  have hset : ∀ i p, MidOk g w i (p0 i) p → MidOk g w j (p0 j) (s.set i p j) := by
    intro i p hp
    unfold Sys.set
    split
    · rename_i e; subst e; exact hp
    · exact hi j
  have hask : ∀ i (o : Out (Bool × Req)), s.ask i o = .ok s' → (∀ b r, o = .ok (b, r) → ReqOk g w r) →
      MidOk g w j (p0 j) (s' j) := by
    intro i o h1 h2
    obtain ⟨b, r, h3, rfl⟩ := ask_inv h1
    exact hset i _ ((hi i).ask (h2 b r h3))
  have hv : ∀ i, ∃ w' : Owner n, exist w' = exist w ∧ ∀ c, ((s i).data c).isSome = true ↔ w' c = some i := ha.view
  cases op with
  | refine i c =>
    refine hask i _ h fun b r hr => ?_
    obtain ⟨w', e, hp⟩ := hv i
    rw [ha.owner, ← e] at hr
    have h1 : ReqOk g w' (s i).req := ⟨by rw [e]; exact (hi i).req.refine, by rw [e]; exact (hi i).req.unrefine⟩
    have h2 := h1.refineCompletely hw (by rw [e]; exact ha.tiled) (by rw [e]; exact ha.balanced) hp hr
    exact ⟨by rw [← e]; exact h2.refine, by rw [← e]; exact h2.unrefine⟩
  | unrefine i c =>
    refine hask i _ h fun b r hr => ?_
    obtain ⟨w', e, hp⟩ := hv i
    rw [ha.owner, ← e] at hr
    have h1 : ReqOk g w' (s i).req := ⟨by rw [e]; exact (hi i).req.refine, by rw [e]; exact (hi i).req.unrefine⟩
    have h2 := h1.unrefineCompletely hw (by rw [e]; exact ha.tiled) (by rw [e]; exact ha.balanced) hp hr
    exact ⟨by rw [← e]; exact h2.refine, by rw [← e]; exact h2.unrefine⟩
  | dontRefine i c =>
    refine hask i _ h fun b r hr => ?_
    rw [ha.owner] at hr
    exact (hi i).req.dontRefine ha.tiled hr
  | dontUnrefine i c =>
    refine hask i _ h fun b r hr => ?_
    rw [ha.owner] at hr
    exact (hi i).req.dontUnrefine hw ha.tiled hr
  | pin i c q => injection h with h; subst h; exact hset i _ ((hi i).pin c q)
  | unpin i c => injection h with h; subst h; exact hset i _ ((hi i).unpin c)
  | unpinLocal i => injection h with h; subst h; exact hset i _ (hi i).unpinLocal
  | setWeight i c x => injection h with h; subst h; exact hset i _ ((hi i).setWeight c x)
  | write i c v => injection h with h; subst h; exact hset i _ ((hi i).write c v)
  | clearRefined i => injection h with h; subst h; exact hset i _ (hi i).clearRefined
  | unpinAll => cases ho
  | update => cases ho
  | addHood => cases ho
  | removeHood => cases ho
  | stop => cases ho
  | balance => cases ho

theorem caller_quiet {op : Op n D W} {i : Fin n} (ho : op.caller = some i) : op.Quiet := by
  cases op <;> first | trivial | cases ho

/-- State of all processes that was `b` after `initialize_balance_load`. -/
structure Midway (g : Cfg) (w : Owner n) (b : Fin n → Balancing n D W) (k : Calls) (b1 : Fin n → Balancing n D W) : Prop where
  recv : ∀ i, (b1 i).recv = (b i).recv
  send : ∀ i, (b1 i).send = (b i).send
  proc : ∀ i, MidOk g w i (b i).proc (b1 i).proc
  stored : Stored g w k (inside b1)

theorem Midway.asks {b b1 : Fin n → Balancing n D W} {k : Calls} (h : Midway g w b k b1) (ha : Asks g w (inside b)) :
    Asks g w (inside b1) :=
  ⟨fun i => (h.proc i).owner, ha.tiled, ha.balanced, fun i c hc => ((h.proc i).some c).trans (ha.own i c hc),
    fun i c hc => ha.held i c (((h.proc i).some c).symm.trans hc)⟩

theorem Meanwhile.midway (hw : g.WF) {P : Op n D W → Prop} {b b1 : Fin n → Balancing n D W} {k : Calls}
    (h0 : Midway g w b Calls.none b) (ha : Asks g w (inside b)) (h : Meanwhile g dflt maxTag P b k b1) : Midway g w b k b1 := by
  induction h with
  | start => exact h0
  | @move k b1 b2 m _ hr ih =>
    have hsh := runPhase_shape (fun i => (ih.proc i).remote) (fun i => (ih.proc i).refined) (fun i => (ih.proc i).unrefined) hr
    refine ⟨fun i => (hsh.recv i).trans (ih.recv i), fun i => (hsh.send i).trans (ih.send i), fun i => ?_, ?_⟩
    · have e := hsh.eq i
      rw [e]
      have h := ih.proc i
      exact ⟨h.owner, fun c => (hsh.some i c).trans (h.some c), h.pins, h.hoods, h.remote, h.refined, h.unrefined, h.newPins,
        h.weights, h.req⟩
    · refine ih.stored.congr (fun j => ?_) (fun _ => Iff.rfl) (fun _ => Iff.rfl) (fun _ => Iff.rfl) (fun _ => Iff.rfl)
      show (b2 j).proc.req = (b1 j).proc.req
      rw [hsh.eq j]
  | @call k b1 s2 op i _ ho _ hs ih =>
    have ha1 := ih.asks ha
    exact ⟨ih.recv, ih.send, midOk_call hw (p0 := inside b) (s := inside b1) ih.proc ha1 ho hs,
      ih.stored.call hw ha1 (caller_quiet ho) hs⟩

end Dccrg
