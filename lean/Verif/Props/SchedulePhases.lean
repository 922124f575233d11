import Verif.SchedPhases
import Verif.Props.Schedule
import Verif.Props.Reached
/-!
# C106: load balancing in phases with every timing of processes

`Script` is a program of a user on one process, which can call `initialize_balance_load`, `continue_balance_load` and
`finish_balance_load` with other functions in between. `Course` says that programs of all processes, seen as one
sequence of calls, return values `a` and lead to state `y` of the grid. `EndsWith` is about all executions in which
processes run at their own pace.
-/
namespace Dccrg
open Cfg
variable {n : Nat} {D W A : Type} {g : Cfg} {dflt : D} {maxTag : Nat} {x y : Scene n D W} {d : Deed n D W}

/-- States that can be reached: those of `Reached` if load isn't being balanced. -/
def Scene.Went (g : Cfg) (dflt : D) (maxTag : Nat) : Scene n D W → Prop
  | .calm s => Reached g dflt maxTag s
  | .busy b1 => ∃ s z b k, Reached g dflt maxTag s ∧ (Op.balance z : Op n D W).Ok s ∧
      startBalance g dflt maxTag z s = .ok b ∧ Meanwhile g dflt maxTag (fun _ => True) b k b1

theorem Scene.Went.perform (h : x.Went g dflt maxTag) (hd : d.Ok x) (hp : perform g dflt maxTag x d = .ok y) :
    y.Went g dflt maxTag := by
  cases x with
  | calm s =>
    cases d with
    | op o =>
      obtain ⟨s1, h1, hp⟩ := Out.bind_inv hp
      injection hp with hp
      subst hp
      exact Reached.step o h hd h1
    | start z =>
      obtain ⟨b, h1, hp⟩ := Out.bind_inv hp
      injection hp with hp
      subst hp
      exact ⟨s, z, b, _, h, hd, h1, .start⟩
    | move m => cases hp
    | finish => cases hp
  | busy b1 =>
    obtain ⟨s, z, b, k, h1, h2, h3, h4⟩ := h
    cases d with
    | op o =>
      by_cases hc : o.caller = none
      · simp only [Dccrg.perform, if_pos hc] at hp
        cases hp
      · simp only [Dccrg.perform, if_neg hc] at hp
        obtain ⟨s1, e1, hp⟩ := Out.bind_inv hp
        injection hp with hp
        subst hp
        obtain ⟨i, hi⟩ := Option.ne_none_iff_exists'.1 hc
        exact ⟨s, z, b, _, h1, h2, h3, .call o i h4 hi trivial e1⟩
    | start z => cases hp
    | move m =>
      obtain ⟨b2, e1, hp⟩ := Out.bind_inv hp
      injection hp with hp
      subst hp
      exact ⟨s, z, b, _, h1, h2, h3, .move m h4 e1⟩
    | finish =>
      obtain ⟨t, e1, hp⟩ := Out.bind_inv hp
      injection hp with hp
      subst hp
      exact Reached.phases z h1 h2 h3 h4 e1

theorem Scene.Went.pinsIn (hw : g.WF) (h : x.Went g dflt maxTag) : x.PinsIn g := by
  cases x with
  | calm s =>
    intro i c hc
    obtain ⟨w, hl⟩ := Reached.loose hw h (by have := i.2; omega)
    cases hx : exist w c with
    | false => rw [hl.pins i c hx] at hc; cases hc
    | true => rw [mem_ids]; exact (hl.core.tiled.valid c hx).2
  | busy b1 =>
    intro i c hc
    have hn : 0 < n := by have := i.2; omega
    obtain ⟨s, z, b, k, h1, h2, h3, h4⟩ := h
    obtain ⟨w, hl⟩ := h1.loose hw hn
    have hz := hl.moves hn h2
    obtain ⟨t', f1, -, -, f3⟩ := tidied hl.clean hl.pins ⟨0, hn⟩
    have e : startBalance g dflt maxTag z t' = .ok b := by
      rw [← h3]
      unfold startBalance
      rw [show (fun i => initBalance g dflt t' z i) = fun i => initBalance g dflt s z i from funext (f3 dflt z)]
    have hmid := meanwhile_midway hw hz f1.sys e h4
    by_cases hx : w c = some i
    · rw [mem_ids]; exact (hl.core.tiled.valid c (exist_of hx)).2
    · rw [(hmid.proc i).newPins c hx] at hc; cases hc

theorem Course.went {U : Fin n → Script n D W A} {a : Fin n → A} (h : Course g dflt maxTag U x a y)
    (hx : x.Went g dflt maxTag) : y.Went g dflt maxTag := by
  induction h with
  | fin => exact hx
  | one _ _ h1 h2 _ ih => exact ih (hx.perform h1 h2)
  | all _ h1 h2 _ ih => exact ih (hx.perform h1 h2)

theorem Course.lock (hw : g.WF) (single : Bool) {U : Fin n → Script n D W A} {a : Fin n → A}
    (h : Course g dflt maxTag U x a y) (hx : x.Went g dflt maxTag) :
    Lock (fun i => (U i).run g dflt maxTag single i (x.stage i)) (fun i => (a i, y.stage i)) := by
  induction h with
  | fin a s => exact .done _
  | @one U s s1 s2 a j d k hU hc h1 h2 _ ih =>
    refine Lock.congr ?_ (ih (hx.perform h1 h2))
    obtain ⟨e1, e2⟩ := deedP_one (single := single) (hx.pinsIn hw) hc h2
    intro i
    by_cases hi : i = j
    · subst hi
      rw [upd_self, hU, Script.run, e1]; rfl
    · rw [upd_other _ _ hi, e2 i hi]
  | @all s s1 s2 a d k hc h1 h2 _ ih =>
    exact Lock.bind (lock_deed single (hx.pinsIn hw) hc h2) (ih (hx.perform h1 h2))

/-! ## Properties -/

/-- C106: what programs of users return and the grid at the end are the same for every timing, and processes never wait
forever for each other, also when load is balanced in phases with calls in between. -/
theorem C106 (hw : g.WF) (single : Bool) {U : Fin n → Script n D W A} {a : Fin n → A} (hx : x.Went g dflt maxTag)
    (h : Course g dflt maxTag U x a y) :
    y.Went g dflt maxTag ∧
    EndsWith (fun i => (U i).run g dflt maxTag single i (x.stage i)) (fun i => (a i, y.stage i)) :=
  ⟨h.went hx, (h.lock hw single hx).schedule⟩

/-- Calls that can be made in a state: given neighborhoods must exist, load balancing is started when it isn't being
balanced and continued or finished when it is, and then other calls are made on single processes. -/
def Deed.Fits (g : Cfg) : Deed n D W → Scene n D W → Prop
  | .op o, .calm s => o.Known g s
  | .start _, .calm _ => True
  | .op o, .busy _ => o.caller ≠ none
  | .move _, .busy _ => True
  | .finish, .busy _ => True
  | _, _ => False

/-- Programs of users make calls that are allowed, and all processes make the calls that all of them must make. -/
inductive Follows (g : Cfg) (dflt : D) (maxTag : Nat) : (Fin n → Script n D W A) → Scene n D W → Prop
  | fin (a : Fin n → A) (x : Scene n D W) : Follows g dflt maxTag (fun i => .fin (a i)) x
  | one {U : Fin n → Script n D W A} {x : Scene n D W} {i : Fin n} {d : Deed n D W} {k : Stage n D W → Script n D W A} :
      U i = .call d k → d.caller = some i → d.Ok x → d.Fits g x →
      (∀ y, perform g dflt maxTag x d = .ok y → Follows g dflt maxTag (upd U i (k (y.stage i))) y) → Follows g dflt maxTag U x
  | all {k : Fin n → Stage n D W → Script n D W A} {x : Scene n D W} {d : Deed n D W} : d.caller = none → d.Ok x →
      d.Fits g x → (∀ y, perform g dflt maxTag x d = .ok y → Follows g dflt maxTag (fun i => k i (y.stage i)) y) →
      Follows g dflt maxTag (fun i => .call d (k i)) x

theorem perform_ok (hw : g.WF) (hn : 0 < n) (ht : g.last ≤ maxTag) (hx : x.Went g dflt maxTag) (hd : d.Ok x)
    (hf : d.Fits g x) : ∃ y, perform g dflt maxTag x d = .ok y := by
  cases x with
  | calm s =>
    obtain ⟨h1, h2⟩ := C105_returns hw hn hx ht
    cases d with
    | op o =>
      obtain ⟨s', e⟩ := h1 o hd hf
      exact ⟨.calm s', by simp only [perform, e]; rfl⟩
    | start z =>
      obtain ⟨b, e, -⟩ := h2 z hd
      exact ⟨.busy b, by simp only [perform, e]; rfl⟩
    | move m => exact hf.elim
    | finish => exact hf.elim
  | busy b1 =>
    obtain ⟨s, z, b, k, g1, g2, g3, g4⟩ := hx
    obtain ⟨b', e, h2⟩ := (C105_returns hw hn g1 ht).2 z g2
    rw [g3] at e
    injection e with e
    subst e
    obtain ⟨i1, i2, t, i3⟩ := h2 k b1 g4
    cases d with
    | op o =>
      have hf : o.caller ≠ none := hf
      obtain ⟨i, hi⟩ := Option.ne_none_iff_exists'.1 hf
      obtain ⟨s2, e⟩ := i1 o i hi
      exact ⟨.busy (putInside b1 s2), by simp only [perform, if_neg hf, e]; rfl⟩
    | start z => exact hf.elim
    | move m =>
      obtain ⟨b2, e⟩ := i2 m
      exact ⟨.busy b2, by simp only [perform, e]; rfl⟩
    | finish => exact ⟨.calm t, by simp only [perform, i3]; rfl⟩

theorem Follows.course (hw : g.WF) (hn : 0 < n) (ht : g.last ≤ maxTag) {U : Fin n → Script n D W A}
    (h : Follows g dflt maxTag U x) (hx : x.Went g dflt maxTag) : ∃ a y, Course g dflt maxTag U x a y := by
  induction h with
  | fin a x => exact ⟨a, x, .fin a x⟩
  | one h1 h2 h3 h4 _ ih =>
    obtain ⟨y, e⟩ := perform_ok hw hn ht hx h3 h4
    obtain ⟨a, y', hc⟩ := ih y e (hx.perform h3 e)
    exact ⟨a, y', .one h1 h2 h3 e hc⟩
  | all h2 h3 h4 _ ih =>
    obtain ⟨y, e⟩ := perform_ok hw hn ht hx h3 h4
    obtain ⟨a, y', hc⟩ := ih y e (hx.perform h3 e)
    exact ⟨a, y', .all h2 h3 e hc⟩

/-- C106: if ids of cells are allowed as tags of messages then programs of users that make allowed calls, the ones that all
processes must make on all processes, always end, with one result. -/
theorem C106_ends (hw : g.WF) (hn : 0 < n) (ht : g.last ≤ maxTag) (single : Bool) {U : Fin n → Script n D W A}
    (hx : x.Went g dflt maxTag) (h : Follows g dflt maxTag U x) :
    ∃ (a : Fin n → A) (y : Scene n D W), y.Went g dflt maxTag ∧
      EndsWith (fun i => (U i).run g dflt maxTag single i (x.stage i)) (fun i => (a i, y.stage i)) := by
  obtain ⟨a, y, hc⟩ := h.course hw hn ht hx
  exact ⟨a, y, C106 hw single hx hc⟩

/-- Load balancing in phases with transfers `ms`. -/
def movesThen : List (Fin n → Fin n → Nat → D → D → D) → Script n D W Unit
  | [] => .call .finish fun _ => .fin ()
  | m :: ms => .call (.move m) fun _ => movesThen ms

theorem movesThen_course {ms : List (Fin n → Fin n → Nat → D → D → D)} {b b1 : Fin n → Balancing n D W} {t : Sys n D W}
    (h1 : runPhases maxTag (ms.map .move) b = .ok b1) (h2 : finishBalance g dflt maxTag b1 = .ok t) :
    Course g dflt maxTag (fun _ => movesThen ms) (.busy b) (fun _ => ()) (.calm t) := by
  induction ms generalizing b with
  | nil =>
    injection h1 with h1
    subst h1
    exact .all (k := fun _ _ => .fin ()) rfl trivial (by simp only [perform, h2]; rfl) (.fin _ _)
  | cons m ms ih =>
    obtain ⟨b2, e1, e2⟩ := Out.bind_inv h1
    exact .all (k := fun _ _ => movesThen ms) rfl trivial (by simp only [perform, e1]; rfl) (ih e2)

/-- C106: if all data of cells is transferred, in any number of parts, then load balancing in phases ends with the same
grid as `balance_load`, whatever the timing of processes. -/
theorem C106_parts {s t : Sys n D W} (hw : g.WF) (hn : 0 < n) (ht : g.last ≤ maxTag) (single : Bool) {z : Fin n → Moves n}
    (hr : Reachable g dflt maxTag s) (ho : (Op.balance z : Op n D W).Ok s)
    (h : step g dflt maxTag s (.balance z) = .ok t) {ms : List (Fin n → Fin n → Nat → D → D → D)}
    (hm : ∀ p q c x y, ms.foldl (fun y m => m p q c x y) y = x) :
    EndsWith (fun i => (Script.call (.start z) fun _ => movesThen ms).run g dflt maxTag single i (.calm (s i)))
      (fun i => ((), .calm (t i))) := by
  obtain ⟨t', h1⟩ := C66_returns hw hn hr ho ht (ms.map .move)
  have h2 := C66_parts hw hn hr ho hm h1
  rw [h] at h2
  injection h2 with h2
  subst h2
  obtain ⟨b, e1, h1⟩ := Out.bind_inv h1
  obtain ⟨b1, e2, e3⟩ := Out.bind_inv h1
  have hc : Course g dflt maxTag (fun _ => Script.call (.start z) fun _ => movesThen ms) (.calm s) (fun _ => ()) (.calm t) :=
    .all (k := fun _ _ => movesThen ms) rfl ho (by simp only [perform, e1]; rfl) (movesThen_course e2 e3)
  exact (C106 hw single (x := .calm s) hr.reached hc).2

/-! ## The demo -/

/-- Program after the start of load balancing and the request: transfer, finish, stop refining and return whether cell 1
exists. -/
def sampleTail : Script 2 Nat Nat Bool :=
  .call (.move fun _ _ _ x _ => x) fun _ => .call .finish fun _ => .call (.op (.stop true)) fun p =>
    .fin (p.proc.owner 1).isSome

/-- Load balancing is started, in which cell 1 moves to process 1. Process 0 asks for its refinement if it has its data. -/
def sampleScript (i : Fin 2) : Script 2 Nat Nat Bool :=
  .call (.start move1) fun p =>
    if i = 0 ∧ (p.proc.data 1).isSome then .call (.op (.refine 0 1)) fun _ => sampleTail else sampleTail

theorem sampleTail_follows (b : Fin 2 → Balancing 2 Nat Nat) : Follows tinyG 0 146 (fun _ => sampleTail) (.busy b) := by
  refine .all (k := fun _ => _) rfl trivial trivial fun y hy => ?_
  obtain ⟨b2, -, e⟩ := Out.bind_inv hy
  injection e with e
  subst e
  refine .all (k := fun _ => _) rfl trivial trivial fun y hy => ?_
  obtain ⟨t, -, e⟩ := Out.bind_inv hy
  injection e with e
  subst e
  exact .all (k := fun _ => _) rfl trivial trivial fun y hy => .fin _ y

theorem sampleScript_follows {s : Sys 2 Nat Nat} (h : ∀ i, (s i).owner 1 = some 0) :
    Follows tinyG 0 146 sampleScript (.calm s) := by
  refine .all (k := fun i p => if i = 0 ∧ (p.proc.data 1).isSome then .call (.op (.refine 0 1)) fun _ => sampleTail
    else sampleTail) rfl (fun i => move1_ok (h i)) trivial fun y hy => ?_
  obtain ⟨b, -, e⟩ := Out.bind_inv hy
  injection e with e
  subst e
  by_cases hd : ((b 0).proc.data 1).isSome = true
  · refine .one (i := 0) (k := fun _ => sampleTail) (if_pos ⟨rfl, hd⟩) rfl trivial (by intro h; cases h) fun y hy => ?_
    obtain ⟨s2, -, e⟩ := Out.bind_inv (show (step tinyG 0 146 (inside b) (.refine 0 1)).bind _ = _ from hy)
    injection e with e
    subst e
    have e : (upd (fun i => if i = 0 ∧ ((Stage.proc (Scene.stage (.busy b) i)).data 1).isSome = true then
        (Script.call (.op (.refine 0 1)) fun _ => sampleTail) else sampleTail) 0 sampleTail) = fun _ : Fin 2 => sampleTail := by
      funext i
      by_cases hi : i = 0
      · subst hi; rw [upd_self]
      · rw [upd_other _ _ hi, if_neg fun h => hi h.1]
    rw [e]
    exact sampleTail_follows _
  · have e : (fun i => if i = 0 ∧ ((Stage.proc (Scene.stage (.busy b) i)).data 1).isSome = true then
        (Script.call (.op (.refine 0 1)) fun _ => sampleTail) else sampleTail) = fun _ : Fin 2 => sampleTail := by
      funext i
      rw [if_neg]
      rintro ⟨hi, h⟩
      subst hi
      exact hd h
    rw [e]
    exact sampleTail_follows _

/-- The hypotheses of C106_ends and C106 are met by these programs. -/
theorem script_course : ∃ (s : Sys 2 Nat Nat) (a : Fin 2 → Bool) (y : Scene 2 Nat Nat), Scene.Went tinyG 0 146 (.calm s) ∧
    Follows tinyG 0 146 sampleScript (.calm s) ∧ Course tinyG 0 146 sampleScript (.calm s) a y := by
  obtain ⟨s, h1, h2, h3, -, -, -, h4, -⟩ := tiny_init
  have hf := sampleScript_follows (s := s) fun i => by rw [h3.sys.owner]; exact h4
  obtain ⟨a, y, hc⟩ := hf.course tiny_wf (by omega) (by decide) (x := .calm s) h2.reached
  exact ⟨s, a, y, h2.reached, hf, hc⟩

example : ∃ (s : Sys 2 Nat Nat) (a : Fin 2 → Bool) (y : Scene 2 Nat Nat),
    EndsWith (fun i => (sampleScript i).run tinyG 0 146 true i (.calm (s i))) (fun i => (a i, y.stage i)) :=
  let ⟨_, a, y, hx, _, h⟩ := script_course
  ⟨_, a, y, (C106 tiny_wf true hx h).2⟩

/-- The hypotheses of C106_parts are met when cell 1 moves to process 1. -/
example : ∃ s t : Sys 2 Nat Nat, Reachable tinyG 0 146 s ∧ (Op.balance move1 : Op 2 Nat Nat).Ok s ∧
    step tinyG 0 146 s (.balance move1) = .ok t ∧ tinyG.last ≤ 146 ∧
    ∀ (p q : Fin 2) (c x y : Nat), [fun _ _ _ x _ => x].foldl (fun y m => (m : Fin 2 → Fin 2 → Nat → Nat → Nat → Nat) p q c x y) y = x := by
  obtain ⟨s, h1, h2, h3, -, -, -, h4, -⟩ := tiny_init
  have ho : (Op.balance move1 : Op 2 Nat Nat).Ok s := fun i => move1_ok (by rw [h3.sys.owner]; exact h4)
  obtain ⟨t, e1, e2⟩ := tiny_step h2 (.balance move1) ho trivial
  exact ⟨s, t, h2, ho, e1, by decide, fun _ _ _ _ _ => rfl⟩

/-- Phases in wrong order don't end. -/
example (s : Sys 2 Nat Nat) :
    ¬ ∃ r, EndsWith (fun i => (Script.call .finish fun _ => .fin ()).run tinyG 0 146 true i (.calm (s i))) r := by
  rintro ⟨r, K, hK⟩
  exact (hK 0 _ (.refl _)).2.2.2.2 0 rfl

end Dccrg
