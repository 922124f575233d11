import Verif.SchedSpec
import Verif.Demo
/-!
# C97: programs of users with every timing of processes

`User` is a program of a user on one process, which can decide what to do from everything that its process stores.
`Session` says that programs of all processes, seen as one sequence of operations on the grid, return values `a` and lead
to grid `s'`. `World.Run k` are all executions of `k` steps in which processes run at their own pace.
-/
namespace Dccrg
variable {n : Nat} {D W A : Type} {g : Cfg}

/-- Processes `P` end with `r` whatever their timing: there is a number of steps `K` after which every execution has
ended, all processes with their values in `r`, and before which some process can continue, even if MPI never buffers
messages. No process fails or ends with another value. -/
def EndsWith {V α : Type} (P : Fin n → Prog n V α) (r : Fin n → α) : Prop :=
  ∃ K, ∀ k b, World.Run k (World.init P) b →
    k ≤ K ∧ (k = K → ∀ p, b.prog p = .done (r p)) ∧ (k < K → ∃ p c, World.Step false p b c) ∧
    (∀ p a, b.prog p = .done a → a = r p) ∧ ∀ p, b.prog p ≠ .fail

/-- C97: what programs of users return and the grid at the end are the same for every timing, and processes never wait
forever for each other. -/
theorem C97 (hw : g.WF) {dflt : D} {maxTag : Nat} (single : Bool) {U : Fin n → User n D W A} {s s' : Sys n D W}
    {a : Fin n → A} (hr : Reachable g dflt maxTag s) (h : Session g dflt maxTag U s a s') :
    Reachable g dflt maxTag s' ∧
    EndsWith (fun i => (U i).run g dflt maxTag single i (s i)) (fun i => (a i, s' i)) :=
  ⟨h.reachable hr, (h.lock hw single hr).schedule⟩

/-- What process `i` calls in a sequence of operations. -/
def callsOf (i : Fin n) : List (Op n D W) → User n D W Unit
  | [] => .fin ()
  | op :: ops => if op.caller = none ∨ op.caller = some i then .call op fun _ => callsOf i ops else callsOf i ops

/-- Sequence of operations on the grid. -/
inductive Ops (g : Cfg) (dflt : D) (maxTag : Nat) : Sys n D W → List (Op n D W) → Sys n D W → Prop
  | nil (s : Sys n D W) : Ops g dflt maxTag s [] s
  | cons {s s1 s2 : Sys n D W} {op : Op n D W} {ops : List (Op n D W)} : op.Ok s → step g dflt maxTag s op = .ok s1 →
      Ops g dflt maxTag s1 ops s2 → Ops g dflt maxTag s (op :: ops) s2

theorem Ops.session {dflt : D} {maxTag : Nat} {s s' : Sys n D W} {ops : List (Op n D W)} (h : Ops g dflt maxTag s ops s') :
    Session g dflt maxTag (fun i => callsOf i ops) s (fun _ => ()) s' := by
  induction h with
  | nil s => exact .fin _ s
  | @cons s s1 s2 op ops h1 h2 _ ih =>
    cases hc : op.caller with
    | none =>
      have e : (fun i => callsOf i (op :: ops)) = fun i => User.call op fun _ => callsOf i ops := by
        funext i; rw [callsOf, if_pos (Or.inl hc)]
      rw [e]
      exact .all hc h1 h2 ih
    | some j =>
      have e : upd (fun i => callsOf i (op :: ops)) j (callsOf j ops) = fun i => callsOf i ops := by
        funext i
        by_cases hi : i = j
        · subst hi; rw [upd_self]
        · rw [upd_other _ _ hi, callsOf, if_neg]
          rw [hc]
          rintro (h | h)
          · cases h
          · injection h with h; exact hi h.symm
      refine .one (i := j) (k := fun _ => callsOf j ops) ?_ hc h1 h2 (by rw [e]; exact ih)
      rw [callsOf, if_pos (Or.inr hc)]

/-- C97: any sequence of operations of the model is what happens in every execution in which processes make their calls at
their own pace. -/
theorem C97_operations (hw : g.WF) {dflt : D} {maxTag : Nat} (single : Bool) {s s' : Sys n D W} {ops : List (Op n D W)}
    (hr : Reachable g dflt maxTag s) (h : Ops g dflt maxTag s ops s') :
    EndsWith (fun i => (callsOf i ops).run g dflt maxTag single i (s i)) (fun i => ((), s' i)) :=
  (C97 hw single hr h.session).2

/-- C97: one call of `stop_refining` on all processes, with the cells that each of them returns. -/
theorem C97_stop {dflt : D} {maxTag : Nat} (single sorted : Bool) {s : Sys n D W} {r : Fin n → Proc n D W × List Nat}
    (h : stopRefining g dflt maxTag sorted s = .ok r) :
    EndsWith (fun i => stopRefiningP g dflt maxTag single sorted i (s i)) r :=
  (lock_stop single h).schedule

/-- Programs of users make calls that are allowed, and all processes make the calls that all of them must make. -/
inductive Agrees (g : Cfg) (dflt : D) (maxTag : Nat) : (Fin n → User n D W A) → Sys n D W → Prop
  | fin (a : Fin n → A) (s : Sys n D W) : Agrees g dflt maxTag (fun i => .fin (a i)) s
  | one {U : Fin n → User n D W A} {s : Sys n D W} {i : Fin n} {op : Op n D W} {k : Proc n D W → User n D W A} :
      U i = .call op k → op.caller = some i → op.Ok s → op.Known g s →
      (∀ s', step g dflt maxTag s op = .ok s' → Agrees g dflt maxTag (upd U i (k (s' i))) s') → Agrees g dflt maxTag U s
  | all {k : Fin n → Proc n D W → User n D W A} {s : Sys n D W} {op : Op n D W} : op.caller = none → op.Ok s →
      op.Known g s → (∀ s', step g dflt maxTag s op = .ok s' → Agrees g dflt maxTag (fun i => k i (s' i)) s') →
      Agrees g dflt maxTag (fun i => .call op (k i)) s

theorem Agrees.session (hw : g.WF) (hn : 0 < n) {dflt : D} {maxTag : Nat} (htag : g.last ≤ maxTag)
    {U : Fin n → User n D W A} {s : Sys n D W} (h : Agrees g dflt maxTag U s) (hr : Reachable g dflt maxTag s) :
    ∃ a s', Session g dflt maxTag U s a s' := by
  induction h with
  | fin a s => exact ⟨a, s, .fin a s⟩
  | one h1 h2 h3 h4 _ ih =>
    obtain ⟨w, hi⟩ := hr.inv hw hn
    obtain ⟨s1, h5⟩ := step_ok hw hn dflt hi htag _ h3 h4
    obtain ⟨a, s', h6⟩ := ih s1 h5 (.step _ hr h3 h5)
    exact ⟨a, s', .one h1 h2 h3 h5 h6⟩
  | all h2 h3 h4 _ ih =>
    obtain ⟨w, hi⟩ := hr.inv hw hn
    obtain ⟨s1, h5⟩ := step_ok hw hn dflt hi htag _ h3 h4
    obtain ⟨a, s', h6⟩ := ih s1 h5 (.step _ hr h3 h5)
    exact ⟨a, s', .all h2 h3 h5 h6⟩

/-- C97: if ids of cells are allowed as tags of messages then programs of users that make allowed calls, the ones that all
processes must make on all processes, always end, with one result. -/
theorem C97_ends (hw : g.WF) (hn : 0 < n) {dflt : D} {maxTag : Nat} (htag : g.last ≤ maxTag) (single : Bool)
    {U : Fin n → User n D W A} {s : Sys n D W} (hr : Reachable g dflt maxTag s) (h : Agrees g dflt maxTag U s) :
    ∃ (a : Fin n → A) (s' : Sys n D W), Reachable g dflt maxTag s' ∧
      EndsWith (fun i => (U i).run g dflt maxTag single i (s i)) (fun i => (a i, s' i)) := by
  obtain ⟨a, s', hs⟩ := h.session hw hn htag hr
  exact ⟨a, s', C97 hw single hr hs⟩

/-- Program after the request: stop refining, write to cell 3 on process 0 if cell 1 was refined, update remote neighbors
and return whether cell 1 exists. -/
def sampleRest (i : Fin 2) : User 2 Nat Nat Bool :=
  .call (.stop true) fun p =>
    if i = 0 ∧ p.owner 1 = none then .call (.write 0 3 7) fun p => .call (.update defaultId) fun _ => .fin (p.owner 1).isSome
    else .call (.update defaultId) fun _ => .fin (p.owner 1).isSome

/-- Process 0 first asks for refinement of cell 1. -/
def sampleUser (i : Fin 2) : User 2 Nat Nat Bool :=
  if i = 0 then .call (.refine 0 1) fun _ => sampleRest i else sampleRest i

theorem known_default (s : Sys 2 Nat Nat) : (Op.update defaultId : Op 2 Nat Nat).Known tinyG s := by
  intro i
  unfold hoodFor
  rw [if_pos rfl]
  rfl

/-- The hypotheses of C97_ends are met by programs that decide what to do from the state of their process. -/
theorem sample_agrees (s : Sys 2 Nat Nat) : Agrees tinyG 0 146 sampleUser s := by
  refine .one (i := 0) (k := fun _ => sampleRest 0) rfl rfl trivial trivial fun s1 _ => ?_
  have e : upd sampleUser 0 (sampleRest 0) = sampleRest := by
    funext i
    by_cases hi : i = 0
    · subst hi; rw [upd_self]
    · rw [upd_other _ _ hi]; unfold sampleUser; rw [if_neg hi]
  rw [e]
  refine .all rfl trivial trivial fun s2 _ => ?_
  by_cases ho : (s2 0).owner 1 = none
  · refine .one (i := 0) (if_pos ⟨rfl, ho⟩) rfl trivial trivial fun s3 _ => ?_
    have e : (upd (fun i : Fin 2 => if i = 0 ∧ (s2 i).owner 1 = none then
          (.call (.write 0 3 7) fun p => .call (.update defaultId) fun _ => .fin (p.owner 1).isSome : User 2 Nat Nat Bool)
        else .call (.update defaultId) fun _ => .fin ((s2 i).owner 1).isSome) 0
          (.call (.update defaultId) fun _ => .fin ((s3 0).owner 1).isSome)) =
        fun i => .call (.update defaultId) fun _ => .fin
          (if i = 0 then ((s3 0).owner 1).isSome else ((s2 1).owner 1).isSome) := by
      funext i
      by_cases hi : i = 0
      · subst hi; rw [upd_self]; rfl
      · obtain rfl : i = 1 := by omega
        rw [upd_other _ _ hi, if_neg fun h => hi h.1]; rfl
    rw [e]
    exact .all rfl trivial (known_default s3) fun s4 _ => .fin _ _
  · have e : (fun i : Fin 2 => if i = 0 ∧ (s2 i).owner 1 = none then
          (.call (.write 0 3 7) fun p => .call (.update defaultId) fun _ => .fin (p.owner 1).isSome : User 2 Nat Nat Bool)
        else .call (.update defaultId) fun _ => .fin ((s2 i).owner 1).isSome) =
        fun i => .call (.update defaultId) fun _ => .fin ((s2 i).owner 1).isSome := by
      funext i
      rw [if_neg]
      rintro ⟨hi, h⟩
      subst hi
      exact ho h
    rw [e]
    exact .all rfl trivial (known_default s2) fun s4 _ => .fin _ _

/-- The hypotheses of C97 are met by the same programs. -/
theorem sample_session : ∃ (s : Sys 2 Nat Nat) (a : Fin 2 → Bool) (s' : Sys 2 Nat Nat), Reachable tinyG 0 146 s ∧
    Session tinyG 0 146 sampleUser s a s' := by
  obtain ⟨s, s1, h1, -⟩ := tiny_asked
  have hr : Reachable tinyG 0 146 s := .init h1
  obtain ⟨a, s', hs⟩ := (sample_agrees s).session tiny_wf (by omega) (by decide) hr
  exact ⟨s, a, s', hr, hs⟩

example : ∃ (s : Sys 2 Nat Nat) (a : Fin 2 → Bool) (s' : Sys 2 Nat Nat),
    EndsWith (fun i => (sampleUser i).run tinyG 0 146 true i (s i)) (fun i => (a i, s' i)) :=
  let ⟨s, a, s', hr, h⟩ := sample_session
  ⟨s, a, s', (C97 tiny_wf true hr h).2⟩

/-- The hypotheses of C97_operations are met by a grid in which cell 1 is refined and remote neighbors updated. -/
example : ∃ s s' : Sys 2 Nat Nat, Reachable tinyG 0 146 s ∧ Ops tinyG 0 146 s [.refine 0 1, .stop true, .update defaultId] s' := by
  obtain ⟨s, s1, h1, h2, hr1, -, -, -⟩ := tiny_asked
  obtain ⟨s2, h3, hr2⟩ := tiny_step hr1 (.stop true) trivial trivial
  obtain ⟨s3, h4, -⟩ := tiny_step hr2 (.update defaultId) trivial (fun i => by unfold hoodFor; rw [if_pos rfl]; rfl)
  exact ⟨s, s3, .init h1, .cons trivial h2 (.cons trivial h3 (.cons trivial h4 (.nil s3)))⟩

/-- Executions can fail to end: process 0 calls a collective function and process 1 doesn't. -/
def loneCall (i : Fin 2) : Prog 2 Nat Nat := if i = 0 then .coll 0 (fun _ => none) 5 fun x => .done (x 1) else .done 0

example : ¬ ∃ r, EndsWith loneCall r := by
  rintro ⟨r, K, hK⟩
  have hrun : World.Run 1 (World.init loneCall) _ := .step (.refl _) (.call (p := 0) rfl rfl)
  obtain ⟨h1, h2, h3, -, -⟩ := hK _ _ hrun
  rcases Nat.lt_or_ge 1 K with h | h
  · obtain ⟨p, c, hs⟩ := h3 h
    cases hs with
    | call hw hc =>
      by_cases hp : p = 0
      · subst hp; cases hw
      · obtain rfl : p = 1 := by omega
        cases hc
    | coll hw hp _ hx hb =>
      obtain ⟨y, this⟩ := hb rfl 1
      simp [upd, World.init] at this
    | exch hw hp =>
      by_cases hp0 : p = 0
      · subst hp0; cases hp
      · obtain rfl : p = 1 := by omega
        cases hp
  · have := h2 (by omega) 0
    cases this

end Dccrg
