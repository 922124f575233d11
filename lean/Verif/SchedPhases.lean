import Verif.SchedSpec
import Verif.Between
/-!
# Load balancing in phases by processes that run at their own pace

Programs of `initialize_balance_load`, `continue_balance_load` and `finish_balance_load`, and programs of users who call
them with other functions in between.
-/
namespace Dccrg
open Cfg
variable {n : Nat} {D W A : Type} {g : Cfg} {dflt : D} {maxTag : Nat} {s s' t : Sys n D W} {b b' : Fin n → Balancing n D W}

/-! ## Programs of one process -/

/-- State of a process after `initialize_balance_load` (dccrg.hpp:3868-3897) with new pins. -/
def balancingOf (g : Cfg) (dflt : D) (i : Fin n) (z : Moves n) (p : Proc n D W) (pins : Nat → Option (Fin n)) :
    Balancing n D W :=
  { proc := { p with
      data := fun c => if ∃ q, c ∈ moveRecv g i p.owner pins z q then some ((p.data c).getD dflt) else p.data c
      remote := fun _ => none
      req := ⟨[], [], [], []⟩
      refinedData := fun _ => none
      unrefinedData := fun _ => none
      pins := pins
      newPins := fun _ => none
      weights := fun _ => none }
    recv := moveRecv g i p.owner pins z
    send := moveSend g i p.owner pins z }

/-- `initialize_balance_load` (dccrg.hpp:3820-3965). `z` are the lists that this process gets from the partitioner, see
`balanceLoadP`. Tags are checked at the end of `make_new_partition` (dccrg.hpp:8665-8676, 8744-8755). -/
def startP (g : Cfg) (dflt : D) (maxTag : Nat) (i : Fin n) (z : Moves n) (p : Proc n D W) :
    Prog n (Msg D) (Balancing n D W) :=
  (updatePinsP g p).bind fun pins => .coll 3 (fun _ => some (.num 0)) (.num 0) fun _ =>
  if ∃ c ∈ ids g, (pins c).isSome ∧ p.owner c = none then .fail
  else
    let recv := moveRecv g i p.owner pins z
    let send := moveSend g i p.owner pins z
    if ∃ q, maxTag < (send q).length ∨ maxTag < (recv q).length then .fail
    else .done (balancingOf g dflt i z p pins)

/-- `continue_balance_load` (dccrg.hpp:3982-4020) with datatypes `m`, see `Phase`. -/
def moveP (maxTag : Nat) (single : Bool) (i : Fin n) (m : Fin n → Fin n → Nat → D → D → D) (b : Balancing n D W) :
    Prog n (Msg D) (Balancing n D W) :=
  (transferP maxTag single b.send b.recv b.proc.data b.proc.data).bind fun d =>
  .done { b with proc := { b.proc with data := fun c => arrives m b i c (d c) } }

/-- `finish_balance_load` (dccrg.hpp:4030-4238). -/
def finishP (g : Cfg) (dflt : D) (maxTag : Nat) (i : Fin n) (b : Balancing n D W) : Prog n (Msg D) (Proc n D W) :=
  (gatherP (gather b.recv)).bind fun added =>
  if ∃ q, ∃ c ∈ added q, b.proc.owner c = none then .fail
  else Prog.ofOut (rebuild g dflt maxTag i { b.proc with
    owner := fun c => (List.finRange n).foldl (fun acc q => if c ∈ added q then some q else acc) (b.proc.owner c)
    data := fun c => if ∃ q, c ∈ b.send q then none else b.proc.data c })

/-- State of one process: load isn't or is being balanced (`balancing_load`, dccrg.hpp:3845, 4234). -/
inductive Stage (n : Nat) (D W : Type) where
  | calm (p : Proc n D W)
  | busy (b : Balancing n D W)

/-- What a process has stored. -/
def Stage.proc : Stage n D W → Proc n D W
  | .calm p => p
  | .busy b => b.proc

/-- Function called by a user: any operation or a phase of load balancing. `start z` is `initialize_balance_load`, `move m`
is `continue_balance_load`. -/
inductive Deed (n : Nat) (D W : Type) where
  | op (op : Op n D W)
  | start (z : Fin n → Moves n)
  | move (m : Fin n → Fin n → Nat → D → D → D)
  | finish

/-- Process on which a function is called, `none` if it must be called on all processes. -/
def Deed.caller : Deed n D W → Option (Fin n)
  | .op o => o.caller
  | _ => none

/-- Program of process `i` for one call. Phases called in wrong order abort (dccrg.hpp:3837-3843, 3999-4004, 4047-4052).
Functions that all processes call between phases aren't modelled, they fail here although not all of them do in the
code, see Verif/Between.lean. -/
def deedP (g : Cfg) (dflt : D) (maxTag : Nat) (single : Bool) (i : Fin n) :
    Stage n D W → Deed n D W → Prog n (Msg D) (Stage n D W)
  | .calm p, .op o => (opP g dflt maxTag single i p o).bind fun p => .done (.calm p)
  | .calm p, .start z => (startP g dflt maxTag i (z i) p).bind fun b => .done (.busy b)
  | .busy b, .op o => if o.caller = none then .fail
      else (opP g dflt maxTag single i b.proc o).bind fun p => .done (.busy { b with proc := p })
  | .busy b, .move m => (moveP maxTag single i m b).bind fun b => .done (.busy b)
  | .busy b, .finish => (finishP g dflt maxTag i b).bind fun p => .done (.calm p)
  | .calm _, .move _ => .fail
  | .calm _, .finish => .fail
  | .busy _, .start _ => .fail

/-- Program of a user on one process: calls functions and decides what to do next from the state of its process, in which
cells that come and go during load balancing can also be seen (dccrg.hpp:6441-6470). -/
inductive Script (n : Nat) (D W A : Type) where
  | fin (a : A)
  | call (d : Deed n D W) (k : Stage n D W → Script n D W A)

/-- Program of a process that runs the user's program, with value returned by user and state at the end. -/
def Script.run (g : Cfg) (dflt : D) (maxTag : Nat) (single : Bool) (i : Fin n) :
    Script n D W A → Stage n D W → Prog n (Msg D) (A × Stage n D W)
  | .fin a, p => .done (a, p)
  | .call d k, p => (deedP g dflt maxTag single i p d).bind fun p => (k p).run g dflt maxTag single i p

/-! ## All processes at the same time -/

theorem lock_start {z : Fin n → Moves n} (hn : ∀ i c, ((s i).newPins c).isSome = true → c ∈ ids g)
    (h : startBalance g dflt maxTag z s = .ok b) : Lock (fun i => startP g dflt maxTag i (z i) (s i)) b := by
  unfold startBalance at h
  obtain ⟨b', h1, h⟩ := Out.bind_inv h
  split at h
  · cases h
  rename_i hover
  injection h with h
  subst h
  have hi := Out.collect_inv h1
  have hcond : ∀ i, ¬ ∃ c ∈ ids g, (updatePins s i c).isSome ∧ (s i).owner c = none := by
    intro i hc
    have := hi i
    unfold initBalance at this
    rw [if_pos hc] at this
    cases this
  have hbi : ∀ i, balancingOf g dflt i (z i) (s i) (updatePins s i) = b' i := by
    intro i
    have := hi i
    unfold initBalance at this
    rw [if_neg (hcond i)] at this
    injection this
  refine Lock.bind (lock_pins hn) ?_
  refine .step (.coll 3 _ (fun _ => Msg.num 0) _) ?_
  refine Lock.congr (fun i => if_neg (hcond i)) ?_
  refine Lock.congr (fun i => if_neg ?_) ?_
  · rintro ⟨q, hq⟩
    exact hover ⟨i, q, by rw [← hbi i]; exact hq⟩
  · exact Lock.congr (fun i => congrArg Prog.done (hbi i)) (.done b')

theorem lock_move (single : Bool) {m : Fin n → Fin n → Nat → D → D → D} (h : runPhase maxTag b (.move m) = .ok b') :
    Lock (fun i => moveP maxTag single i m (b i)) b' := by
  obtain ⟨d, hd, h⟩ := Out.bind_inv h
  injection h with h
  subst h
  exact Lock.bind (lock_transfer single hd) (.done _)

theorem lock_finish (h : finishBalance g dflt maxTag b = .ok t) : Lock (fun i => finishP g dflt maxTag i (b i)) t := by
  have hf := Out.collect_inv h
  have hcond : ∀ i, ¬ ∃ p q, ∃ c ∈ (b p).recv q, (b i).proc.owner c = none := by
    intro i hc
    have := hf i
    rw [if_pos hc] at this
    cases this
  refine Lock.bind (lock_gather fun i => gather (b i).recv) ?_
  refine Lock.congr (fun i => if_neg ?_) ?_
  · rintro ⟨p, c, hc, hq⟩
    obtain ⟨q, hq'⟩ := mem_gather.1 hc
    exact hcond i ⟨p, q, c, hq', hq⟩
  · refine lock_ofOut fun i => ?_
    have := hf i
    rw [if_neg (hcond i)] at this
    rw [← this]
    have e : (fun c => (List.finRange n).foldl (fun acc q => if c ∈ gather (b q).recv then some q else acc)
        ((b i).proc.owner c)) = movedOwner b (b i).proc.owner := by
      funext c
      unfold movedOwner
      congr 1
      funext acc p
      by_cases hc : c ∈ gather (b p).recv
      · rw [if_pos hc, if_pos (mem_gather.1 hc)]
      · rw [if_neg hc, if_neg fun h => hc (mem_gather.2 h)]
    rw [← e]

/-! ## One sequence of calls -/

/-- State of all processes after the same calls. -/
inductive Scene (n : Nat) (D W : Type) where
  | calm (s : Sys n D W)
  | busy (b : Fin n → Balancing n D W)

/-- State of one process. -/
def Scene.stage : Scene n D W → Fin n → Stage n D W
  | .calm s, i => .calm (s i)
  | .busy b, i => .busy (b i)

/-- What a call does to all processes, as operations of Hist and phases of Verif/Phases.lean. -/
def perform (g : Cfg) (dflt : D) (maxTag : Nat) : Scene n D W → Deed n D W → Out (Scene n D W)
  | .calm s, .op o => (step g dflt maxTag s o).bind fun s => .ok (.calm s)
  | .calm s, .start z => (startBalance g dflt maxTag z s).bind fun b => .ok (.busy b)
  | .busy b, .op o => if o.caller = none then .throws
      else (step g dflt maxTag (inside b) o).bind fun s => .ok (.busy (putInside b s))
  | .busy b, .move m => (runPhase maxTag b (.move m)).bind fun b => .ok (.busy b)
  | .busy b, .finish => (finishBalance g dflt maxTag b).bind fun s => .ok (.calm s)
  | .calm _, .move _ => .throws
  | .calm _, .finish => .throws
  | .busy _, .start _ => .throws

/-- What the partitioner must satisfy, see `Op.Ok`. -/
def Deed.Ok : Deed n D W → Scene n D W → Prop
  | .op o, .calm s => o.Ok s
  | .start z, .calm s => (Op.balance z : Op n D W).Ok s
  | _, _ => True

/-- History of programs of users on all processes as one sequence of calls, from state `s` to values returned by users and
state at the end. A function that is called on one process is called by its program at any time, one that must be called on
all processes is called by all programs. -/
inductive Course (g : Cfg) (dflt : D) (maxTag : Nat) :
    (Fin n → Script n D W A) → Scene n D W → (Fin n → A) → Scene n D W → Prop
  | fin (a : Fin n → A) (s : Scene n D W) : Course g dflt maxTag (fun i => .fin (a i)) s a s
  | one {U : Fin n → Script n D W A} {s s1 s2 : Scene n D W} {a : Fin n → A} {i : Fin n} {d : Deed n D W}
      {k : Stage n D W → Script n D W A} : U i = .call d k → d.caller = some i → d.Ok s →
      perform g dflt maxTag s d = .ok s1 → Course g dflt maxTag (upd U i (k (s1.stage i))) s1 a s2 →
      Course g dflt maxTag U s a s2
  | all {s s1 s2 : Scene n D W} {a : Fin n → A} {d : Deed n D W} {k : Fin n → Stage n D W → Script n D W A} :
      d.caller = none → d.Ok s → perform g dflt maxTag s d = .ok s1 →
      Course g dflt maxTag (fun i => k i (s1.stage i)) s1 a s2 →
      Course g dflt maxTag (fun i => .call d (k i)) s a s2

/-- Requests to pin cells are for ids of the grid. -/
def Scene.PinsIn (g : Cfg) : Scene n D W → Prop
  | .calm s => ∀ i c, ((s i).newPins c).isSome = true → c ∈ ids g
  | .busy b => ∀ i c, ((b i).proc.newPins c).isSome = true → c ∈ ids g

theorem lock_deed (single : Bool) {x y : Scene n D W} (hp : x.PinsIn g) {d : Deed n D W} (hd : d.caller = none)
    (h : perform g dflt maxTag x d = .ok y) :
    Lock (fun i => deedP g dflt maxTag single i (x.stage i) d) fun i => y.stage i := by
  cases x with
  | calm s =>
    cases d with
    | op o =>
      obtain ⟨s1, h1, h⟩ := Out.bind_inv h
      injection h with h
      subst h
      exact Lock.bind (lock_op single hp o h1) (.done _)
    | start z =>
      obtain ⟨s1, h1, h⟩ := Out.bind_inv h
      injection h with h
      subst h
      exact Lock.bind (lock_start hp h1) (.done _)
    | move m => cases h
    | finish => cases h
  | busy b =>
    cases d with
    | op o =>
      have hd : o.caller = none := hd
      simp only [perform, if_pos hd] at h
      cases h
    | start z => cases h
    | move m =>
      obtain ⟨s1, h1, h⟩ := Out.bind_inv h
      injection h with h
      subst h
      exact Lock.bind (lock_move single h1) (.done _)
    | finish =>
      obtain ⟨s1, h1, h⟩ := Out.bind_inv h
      injection h with h
      subst h
      exact Lock.bind (lock_finish h1) (.done _)

theorem deedP_one {single : Bool} {x y : Scene n D W} (hp : x.PinsIn g) {d : Deed n D W} {j : Fin n}
    (hd : d.caller = some j) (h : perform g dflt maxTag x d = .ok y) :
    deedP g dflt maxTag single j (x.stage j) d = .done (y.stage j) ∧ ∀ i, i ≠ j → y.stage i = x.stage i := by
  cases d with
  | op o =>
    have hd : o.caller = some j := hd
    cases x with
    | calm s =>
      obtain ⟨s1, h1, h⟩ := Out.bind_inv h
      injection h with h
      subst h
      obtain ⟨e1, e2⟩ := opP_one (single := single) hd hp h1
      refine ⟨?_, fun i hi => congrArg Stage.calm (e2 i hi)⟩
      show (opP g dflt maxTag single j (s j) o).bind _ = _
      rw [e1]; rfl
    | busy b =>
      have hne : o.caller ≠ none := by rw [hd]; simp
      simp only [perform, if_neg hne] at h
      obtain ⟨s1, h1, h⟩ := Out.bind_inv h
      injection h with h
      subst h
      obtain ⟨e1, e2⟩ := opP_one (s := inside b) (single := single) hd hp h1
      constructor
      · show (if o.caller = none then _ else (opP g dflt maxTag single j (inside b j) o).bind _) = _
        rw [if_neg hne, e1]; rfl
      · intro i hi
        show Stage.busy { b i with proc := s1 i } = _
        rw [e2 i hi]; rfl
  | start z => cases hd
  | move m => cases hd
  | finish => cases hd

end Dccrg
