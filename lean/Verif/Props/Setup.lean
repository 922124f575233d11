import Verif.Setup
import Verif.Props.Grid
import Verif.Props.Limits
/-!
# C74, C75, C76: setting up a grid

`Setup.run .fresh calls` is the state of a grid after any calls of setup functions, in any order, in which
exceptions have been caught. `(u.call c).1` says that call `c` in state `u` returns instead of throwing.
-/
namespace Dccrg
open Cfg
namespace Setup
variable {u : Setup}

theorem run_append (a b : List SetupCall) : u.run (a ++ b) = (u.run a).run b := List.foldl_append ..

theorem run_cons (c : SetupCall) (b : List SetupCall) : u.run (c :: b) = (u.call c).2.run b := rfl

/-- Value of a setting that only some calls change. -/
theorem run_keeps {α : Type} (f : Setup → α) (b : List SetupCall)
    (h : ∀ c ∈ b, ∀ v, f (v.call c).2 = f v) : f (u.run b) = f u := by
  induction b generalizing u with
  | nil => rfl
  | cons c b ih =>
    rw [run_cons, ih (fun c hc => h c (List.mem_cons_of_mem _ hc)), h c (List.mem_cons_self ..)]

/-! Which calls change what. -/

theorem call_other (c : SetupCall) (v : Setup) :
    ((∀ p, c ≠ .periodic p) → (v.call c).2.periodic = v.periodic) ∧
    ((∀ h, c ≠ .hood h) → (v.call c).2.hood = v.hood) ∧
    ((∀ m, c ≠ .method m) → (v.call c).2.method = v.method) ∧
    ((∀ s, c ≠ .single s) → (v.call c).2.single = v.single) := by
  cases c with
  | length l =>
    simp only [call, setInitialLength]
    split
    · exact ⟨fun _ => rfl, fun _ => rfl, fun _ => rfl, fun _ => rfl⟩
    · split <;> exact ⟨fun _ => rfl, fun _ => rfl, fun _ => rfl, fun _ => rfl⟩
  | level l =>
    simp only [call, setMaximumRefinementLevel]
    split <;> exact ⟨fun _ => rfl, fun _ => rfl, fun _ => rfl, fun _ => rfl⟩
  | periodic p => exact ⟨fun h => absurd rfl (h p), fun _ => rfl, fun _ => rfl, fun _ => rfl⟩
  | hood p => exact ⟨fun _ => rfl, fun h => absurd rfl (h p), fun _ => rfl, fun _ => rfl⟩
  | method p => exact ⟨fun _ => rfl, fun _ => rfl, fun h => absurd rfl (h p), fun _ => rfl⟩
  | single p => exact ⟨fun _ => rfl, fun _ => rfl, fun _ => rfl, fun h => absurd rfl (h p)⟩
  | start k =>
    simp only [call, start]
    split <;> exact ⟨fun _ => rfl, fun _ => rfl, fun _ => rfl, fun _ => rfl⟩

/-- C74: periodicity, neighborhood length, load balancing method and sending of single cells are the ones given
last and otherwise the defaults, whatever else is called before, between and after. These calls always
return. -/
theorem C74_settings (calls : List SetupCall) :
    (∀ a p b, calls = a ++ .periodic p :: b → (∀ q, .periodic q ∉ b) → (run .fresh calls).periodic = p) ∧
    (∀ a p b, calls = a ++ .hood p :: b → (∀ q, .hood q ∉ b) → (run .fresh calls).hood = p) ∧
    (∀ a p b, calls = a ++ .method p :: b → (∀ q, .method q ∉ b) → (run .fresh calls).method = p) ∧
    (∀ a p b, calls = a ++ .single p :: b → (∀ q, .single q ∉ b) → (run .fresh calls).single = p) ∧
    ((∀ q, .periodic q ∉ calls) → ∀ d, (run .fresh calls).periodic d = false) ∧
    ((∀ q, .hood q ∉ calls) → (run .fresh calls).hood = 1) ∧
    ((∀ q, .method q ∉ calls) → (run .fresh calls).method = "RCB") ∧
    ((∀ q, .single q ∉ calls) → (run .fresh calls).single = false) ∧
    (∀ p, ((run .fresh calls).call (.periodic p)).1 = true) ∧
    (∀ p, ((run .fresh calls).call (.hood p)).1 = true) ∧
    (∀ p, ((run .fresh calls).call (.method p)).1 = true) ∧
    (∀ p, ((run .fresh calls).call (.single p)).1 = true) := by
  refine ⟨?_, ?_, ?_, ?_, ?_, ?_, ?_, ?_, fun _ => rfl, fun _ => rfl, fun _ => rfl, fun _ => rfl⟩
  · rintro a p b rfl h
    rw [run_append, run_cons, run_keeps (·.periodic) b fun c hc v => (call_other c v).1 (fun q e => h q (e ▸ hc))]
    rfl
  · rintro a p b rfl h
    rw [run_append, run_cons, run_keeps (·.hood) b fun c hc v => (call_other c v).2.1 (fun q e => h q (e ▸ hc))]
    rfl
  · rintro a p b rfl h
    rw [run_append, run_cons, run_keeps (·.method) b fun c hc v => (call_other c v).2.2.1 (fun q e => h q (e ▸ hc))]
    rfl
  · rintro a p b rfl h
    rw [run_append, run_cons, run_keeps (·.single) b fun c hc v => (call_other c v).2.2.2 (fun q e => h q (e ▸ hc))]
    rfl
  · intro h d
    rw [run_keeps (·.periodic) calls fun c hc v => (call_other c v).1 (fun q e => h q (e ▸ hc))]
    rfl
  · intro h
    rw [run_keeps (·.hood) calls fun c hc v => (call_other c v).2.1 (fun q e => h q (e ▸ hc))]
    rfl
  · intro h
    rw [run_keeps (·.method) calls fun c hc v => (call_other c v).2.2.1 (fun q e => h q (e ▸ hc))]
    rfl
  · intro h
    rw [run_keeps (·.single) calls fun c hc v => (call_other c v).2.2.2 (fun q e => h q (e ▸ hc))]
    rfl

/-- A length has been accepted. -/
def LengthAccepted (calls : List SetupCall) : Prop :=
  ∃ a l b, calls = a ++ .length l :: b ∧ ((run .fresh a).call (.length l)).1 = true

theorem call_lengthSet (v : Setup) (c : SetupCall) :
    (v.call c).2.lengthSet = true ↔ v.lengthSet = true ∨ ∃ l, c = .length l ∧ (v.call c).1 = true := by
  cases c with
  | length l =>
    simp only [call, setInitialLength]
    split
    · simp [*]
    · split <;> simp_all
  | level l =>
    simp only [call, setMaximumRefinementLevel]
    split <;> simp
  | start k =>
    simp only [call, start]
    split <;> simp
  | _ => simp [call]

theorem lengthSet_iff (calls : List SetupCall) :
    (run .fresh calls).lengthSet = true ↔ LengthAccepted calls := by
  have key : ∀ (b a : List SetupCall), ((run .fresh (a ++ b)).lengthSet = true ↔
      (run .fresh a).lengthSet = true ∨ ∃ b1 l b2, b = b1 ++ .length l :: b2 ∧
        ((run .fresh (a ++ b1)).call (.length l)).1 = true) := by
    intro b
    induction b with
    | nil => intro a; simp
    | cons c b ih =>
      intro a
      have h1 := ih (a ++ [c])
      rw [List.append_assoc, List.singleton_append] at h1
      rw [h1, run_append, show run (run .fresh a) [c] = ((run .fresh a).call c).2 from rfl, call_lengthSet]
      constructor
      · rintro ((h | ⟨l, rfl, h⟩) | ⟨b1, l, b2, rfl, h⟩)
        · exact .inl h
        · exact .inr ⟨[], l, b, rfl, by simpa using h⟩
        · exact .inr ⟨c :: b1, l, b2, rfl, by simpa using h⟩
      · rintro (h | ⟨b1, l, b2, e, h⟩)
        · exact .inl (.inl h)
        · cases b1 with
          | nil =>
            injection e with e1 e2
            subst e1
            exact .inl (.inr ⟨l, rfl, by simpa using h⟩)
          | cons d b1 =>
            injection e with e1 e2
            subst e1 e2
            exact .inr ⟨b1, l, b2, rfl, by simpa using h⟩
  have h := key calls []
  rw [List.nil_append] at h
  rw [h]
  constructor
  · rintro (h1 | ⟨b1, l, b2, e, h1⟩)
    · cases h1
    · exact ⟨b1, l, b2, e, by simpa using h1⟩
  · rintro ⟨b1, l, b2, e, h1⟩
    exact .inr ⟨b1, l, b2, e, by simpa using h1⟩

theorem call_len (v : Setup) (c : SetupCall) (h : v.lengthSet = true) :
    (v.call c).2.mapping.len = v.mapping.len ∧ (v.call c).2.lengthSet = true := by
  refine ⟨?_, (call_lengthSet v c).2 (.inl h)⟩
  cases c with
  | length l =>
    simp only [call, setInitialLength]
    rw [if_pos h]
  | level l =>
    simp only [call, setMaximumRefinementLevel, Mapping.setMaxLvl]
    split
    · rw [if_pos (Int.le_refl _)]; rfl
    · split <;> rfl
  | start k =>
    simp only [call, start]
    split <;> rfl
  | _ => rfl

theorem run_len (b : List SetupCall) (h : u.lengthSet = true) :
    (u.run b).mapping.len = u.mapping.len ∧ (u.run b).lengthSet = true := by
  induction b generalizing u with
  | nil => exact ⟨rfl, h⟩
  | cons c b ih =>
    obtain ⟨h1, h2⟩ := call_len u c h
    rw [run_cons]
    exact ⟨(ih h2).1.trans h1, (ih h2).2⟩

/-- C74, length: the first accepted `set_initial_length` decides, all later ones throw and change
nothing. Without one the length is 1 in all dimensions. -/
theorem C74_length (a b : List SetupCall) (l : V3 Nat)
    (h : ((run .fresh a).call (.length l)).1 = true) :
    (run .fresh (a ++ .length l :: b)).mapping.len = l ∧
    ∀ k, (run .fresh (a ++ .length l :: b)).call (.length k) =
      (false, run .fresh (a ++ .length l :: b)) := by
  have hs := (call_lengthSet (run .fresh a) (.length l)).2 (.inr ⟨l, rfl, h⟩)
  rw [run_append, run_cons]
  obtain ⟨h1, h2⟩ := run_len b hs
  refine ⟨h1.trans ?_, fun k => ?_⟩
  · simp only [call, setInitialLength] at h ⊢
    split at h
    · cases h
    · rename_i hn
      split at h
      · rename_i hr
        rw [if_neg hn, if_pos hr]
        exact (Mapping.C08_set_length_partial l).2.1 hr
      · cases h
  · show setInitialLength _ k = _
    unfold setInitialLength
    rw [if_pos h2]

theorem C74_length_default (calls : List SetupCall) (h : ¬ LengthAccepted calls) (d : Fin 3) :
    (run .fresh calls).mapping.len d = 1 := by
  have key : ∀ (b : List SetupCall) (v : Setup), v.lengthSet = false → (v.run b).lengthSet = false →
      (v.run b).mapping.len = v.mapping.len := by
    intro b
    induction b with
    | nil => intro v _ _; rfl
    | cons c b ih =>
      intro v h1 h2
      have h3 : (v.call c).2.lengthSet = false := by
        cases h3 : (v.call c).2.lengthSet with
        | false => rfl
        | true =>
          have := (run_len b h3).2
          rw [run_cons] at h2
          rw [h2] at this; cases this
      rw [run_cons, ih _ h3 h2]
      have h4 : ¬ ((v.call c).2.lengthSet = true) := by rw [h3]; decide
      rw [call_lengthSet] at h4
      cases c with
      | length l =>
        have hr : (v.call (.length l)).1 ≠ true := fun e => h4 (.inr ⟨l, rfl, e⟩)
        simp only [call, setInitialLength] at hr ⊢
        rw [if_neg (by rw [h1]; decide)] at hr ⊢
        split at hr
        · exact absurd rfl hr
        · rename_i hr'
          rw [if_neg hr']
          show (v.mapping.setLength l).2.len = _
          rw [(Mapping.C08_set_length_partial l).1 (by simpa using hr')]
      | level l =>
        simp only [call, setMaximumRefinementLevel, Mapping.setMaxLvl]
        split
        · rw [if_pos (Int.le_refl _)]; rfl
        · split <;> rfl
      | start k =>
        simp only [call, start]
        split <;> rfl
      | _ => rfl
  have hf : (run .fresh calls).lengthSet = false := by
    cases hl : (run .fresh calls).lengthSet with
    | false => rfl
    | true => exact absurd ((lengthSet_iff calls).1 hl) h
  rw [key calls .fresh rfl hf]
  rfl

theorem call_maxLvl (v : Setup) (c : SetupCall) (h : ∀ l, c = .level l → (v.call c).1 = false) :
    (v.call c).2.mapping.maxLvl = v.mapping.maxLvl := by
  cases c with
  | length l =>
    simp only [call, setInitialLength]
    split
    · rfl
    · have : (v.mapping.setLength l).2.maxLvl = v.mapping.maxLvl := by
        unfold Mapping.setLength; split <;> rfl
      split <;> exact this
  | level l =>
    have := h l rfl
    simp only [call, setMaximumRefinementLevel, Mapping.setMaxLvl] at this ⊢
    split at this
    · cases this
    · split at this
      · cases this
      · rename_i h1 h2
        rw [if_neg h1, if_neg h2]
  | start k =>
    simp only [call, start]
    split <;> rfl
  | _ => rfl

/-- C74, level: the maximum refinement level is the one accepted last, a negative value stands for the
maximum possible level at the time of the call. -/
theorem C74_level (a b : List SetupCall) (l : Int)
    (h : ((run .fresh a).call (.level l)).1 = true)
    (hb : ∀ b1 k b2, b = b1 ++ .level k :: b2 →
      ((run .fresh (a ++ .level l :: b1)).call (.level k)).1 = false) :
    (run .fresh (a ++ .level l :: b)).mapping.maxLvl =
      if l < 0 then (run .fresh a).mapping.maxPossible else l := by
  have key : ∀ (b : List SetupCall) (v : Setup), (∀ b1 k b2, b = b1 ++ .level k :: b2 →
      ((v.run b1).call (.level k)).1 = false) → (v.run b).mapping.maxLvl = v.mapping.maxLvl := by
    intro b
    induction b with
    | nil => intro v _; rfl
    | cons c b ih =>
      intro v hv
      rw [run_cons, ih]
      · exact call_maxLvl v c (fun l e => by subst e; exact hv [] l b rfl)
      · rintro b1 k b2 rfl
        exact hv (c :: b1) k b2 rfl
  rw [run_append, run_cons, key]
  · simp only [call, setMaximumRefinementLevel, Mapping.setMaxLvl] at h ⊢
    split
    · rw [if_pos (Int.le_refl _)]; rfl
    · rename_i hl
      rw [if_neg hl] at h
      split at h
      · rename_i hg; rw [if_pos hg]; rfl
      · cases h
  · rintro b1 k b2 rfl
    have := hb b1 k b2 rfl
    rw [run_append, run_cons] at this
    exact this

/-- C74: a call that throws changes no setting (`initialize` excepted, see C75). -/
theorem C74_rejected (u : Setup) (c : SetupCall) (hc : ∀ k, c ≠ .start k) (h : (u.call c).1 = false) :
    (u.call c).2 = u := by
  cases c with
  | length l =>
    simp only [call, setInitialLength] at h ⊢
    split at h
    · rename_i hl; rw [if_pos hl]
    · rename_i hl
      split at h
      · cases h
      · rename_i hr
        rw [if_neg hl, if_neg hr]
        show { u with mapping := (u.mapping.setLength l).2 } = u
        rw [(Mapping.C08_set_length_partial l).1 (by simpa using hr)]
  | level l =>
    simp only [call, setMaximumRefinementLevel] at h ⊢
    split at h
    · cases h
    · rename_i hl
      rw [if_neg hl]
      show { u with mapping := (u.mapping.setMaxLvl l).2 } = u
      rw [Mapping.C07_rejected_no_effect h]
  | start k => exact absurd rfl (hc k)
  | _ => cases h

/-- Calls used in examples: the grid of `tinyG`, set up in an unusual order. -/
def tinyCalls : List SetupCall :=
  [.hood 3, .length (v3 2 0 1), .periodic (v3 true true true), .length (v3 2 1 1), .level 25, .level 2,
    .length (v3 5 5 5), .periodic (v3 false false true), .hood 1, .method "RIB"]

theorem tinyCalls_cfg : (run .fresh tinyCalls).cfg = tinyG := by
  have h1 : (run .fresh tinyCalls).mapping = { len := v3 2 1 1, maxLvl := 2, lastCell := 146 } := by decide +kernel
  unfold cfg Mapping.grid
  rw [h1]
  rfl

example : ((run .fresh [.hood 3, .length (v3 2 0 1)]).call (.length (v3 2 1 1))).1 = true ∧
    ((run .fresh [.hood 3, .length (v3 2 0 1)]).call (.length (v3 0 1 1))).1 = false ∧
    (run .fresh tinyCalls).method = "RIB" ∧ LengthAccepted tinyCalls := by
  refine ⟨by decide +kernel, by decide +kernel, rfl, (lengthSet_iff _).1 (by decide +kernel)⟩

example : ((run .fresh [.length (v3 2 1 1), .level 25]).call (.level 2)).1 = true ∧
    ((run .fresh [.length (v3 2 1 1)]).call (.level 25)).1 = false ∧
    (run .fresh [.length (v3 2 1 1), .level (-1)]).mapping.maxLvl = 20 := by
  refine ⟨by decide +kernel, by decide +kernel, by decide +kernel⟩

/-! ## C75 -/

theorem done_iff (calls : List SetupCall) : (run .fresh calls).done = true ↔ ∃ k, SetupCall.start k ∈ calls := by
  have key : ∀ (b : List SetupCall) (v : Setup), (v.run b).done = true ↔
      v.done = true ∨ ∃ k, SetupCall.start k ∈ b := by
    intro b
    induction b with
    | nil => intro v; simp [run]
    | cons c b ih =>
      intro v
      rw [run_cons, ih]
      have : (v.call c).2.done = true ↔ v.done = true ∨ ∃ k, c = .start k := by
        cases c with
        | length l =>
          simp only [call, setInitialLength]
          split
          · simp
          · split <;> simp
        | level l =>
          simp only [call, setMaximumRefinementLevel]
          split <;> simp
        | start k =>
          simp only [call, start]
          split <;> simp_all
        | _ => simp [call]
      rw [this]
      constructor
      · rintro ((h | ⟨k, rfl⟩) | ⟨k, h⟩)
        · exact .inl h
        · exact .inr ⟨k, List.mem_cons_self ..⟩
        · exact .inr ⟨k, List.mem_cons_of_mem _ h⟩
      · rintro (h | ⟨k, h⟩)
        · exact .inl (.inl h)
        · rcases List.mem_cons.1 h with h | h
          · exact .inl (.inr ⟨k, h.symm⟩)
          · exact .inr ⟨k, h⟩
  rw [key]
  constructor
  · rintro (h | h)
    · cases h
    · exact h
  · exact .inr

/-- C75: `initialize` gets past its checks exactly if a length has been accepted before and `initialize` has not
been called before, not even unsuccessfully. -/
theorem C75_initialize_iff (calls : List SetupCall) (k : Nat) :
    ((run .fresh calls).call (.start k)).1 = true ↔
      LengthAccepted calls ∧ (∀ j, SetupCall.start j ∉ calls) ∧ k ≠ 0 := by
  rw [← lengthSet_iff]
  have hd := done_iff calls
  simp only [call, start]
  split
  · rename_i h
    constructor
    · intro h'; cases h'
    · rintro ⟨-, h2, -⟩
      obtain ⟨j, hj⟩ := hd.1 h
      exact absurd hj (h2 j)
  · rename_i h
    have h2 : ∀ j, SetupCall.start j ∉ calls := fun j hj => h (hd.2 ⟨j, hj⟩)
    simp [h2]

example : ((run .fresh tinyCalls).call (.start 1)).1 = true ∧
    ((run .fresh (tinyCalls ++ [.start 1])).call (.start 1)).1 = false ∧
    ((run .fresh [.level 1]).call (.start 1)).1 = false := by
  refine ⟨by decide +kernel, by decide +kernel, by decide +kernel⟩

/-- C75: the grid which `initialize` creates has the settings given before, nothing but the level 0 cells
and is a valid starting point for everything proved about reachable states. -/
theorem C75_grid {D W : Type} {n : Nat} {dflt : D} {maxTag : Nat} (calls : List SetupCall) (k : Nat)
    {s : Sys n D W} (h : (run .fresh calls).createGrid n dflt maxTag k = .ok s) :
    Reachable (run .fresh calls).cfg dflt maxTag s ∧
    (run .fresh calls).cfg.len = (run .fresh calls).mapping.len ∧
    (run .fresh calls).cfg.maxLvl = (run .fresh calls).mapping.maxLvl.toNat ∧
    (run .fresh calls).cfg.periodic = (run .fresh calls).periodic ∧
    (run .fresh calls).cfg.hood = (run .fresh calls).hood ∧
    LengthAccepted calls ∧ ∀ j, SetupCall.start j ∉ calls := by
  unfold createGrid at h
  split at h
  · rename_i hk
    obtain ⟨h1, h2, -⟩ := (C75_initialize_iff calls k).1 hk
    exact ⟨.init h, rfl, rfl, rfl, rfl, h1, h2⟩
  · cases h

example : ∃ s : Sys 2 Nat Nat, (run .fresh tinyCalls).createGrid 2 0 146 1 = .ok s := by
  obtain ⟨s, h, -⟩ := tiny_init
  refine ⟨s, ?_⟩
  unfold createGrid
  rw [tinyCalls_cfg, if_pos (by decide +kernel)]
  exact h

/-- C75 is false: after an `initialize` that threw because the length was missing, `initialize` throws even
with a length, and the grid says that it is initialized. -/
theorem C75_retry_false : ∃ calls : List SetupCall,
    ((run .fresh []).call (.start 1)).1 = false ∧ calls = [.start 1, .length (v3 2 1 1)] ∧
    ((run .fresh [.start 1]).call (.length (v3 2 1 1))).1 = true ∧
    ((run .fresh calls).call (.start 1)).1 = false ∧ (run .fresh [.start 1]).done = true ∧
    ((run .fresh [.length (v3 2 1 1)]).call (.start 1)).1 = true :=
  ⟨_, rfl, rfl, by decide +kernel, by decide +kernel, rfl, by decide +kernel⟩

/-- C75 is false: the maximum refinement level can be changed after `initialize`, which changes what existing
ids of cells mean. -/
theorem C75_late_false : ∃ calls : List SetupCall, calls = [.length (v3 2 1 1), .start 1] ∧
    ((run .fresh [.length (v3 2 1 1)]).call (.start 1)).1 = true ∧
    ((run .fresh calls).call (.level 1)).1 = true ∧
    (run .fresh calls).mapping.getIndices 2 = v3 1 0 0 ∧
    ((run .fresh calls).call (.level 1)).2.mapping.getIndices 2 = v3 2 0 0 :=
  ⟨_, rfl, by decide +kernel, by decide +kernel, by decide +kernel, by decide +kernel⟩

/-- C75 is false: after loading a grid from a file `set_initial_length` is accepted and changes the length. -/
theorem C75_loaded_false : ∃ (len : V3 Nat) (v : Setup), load .fresh len 2 (fun _ => false) 1 "RCB" = (true, v) ∧
    v.done = true ∧ v.mapping.len = len ∧ (v.call (.length (v3 3 1 1))).1 = true ∧
    (v.call (.length (v3 3 1 1))).2.mapping.len = v3 3 1 1 ∧ len ≠ v3 3 1 1 := by
  refine ⟨v3 2 1 1, (load .fresh (v3 2 1 1) 2 (fun _ => false) 1 "RCB").2, ?_, by decide +kernel, by decide +kernel,
    by decide +kernel, by decide +kernel, by decide +kernel⟩
  rw [Prod.ext_iff]
  exact ⟨by decide +kernel, rfl⟩

/-! ## C76 -/

theorem maxPossible_nonneg (m : Mapping) (hp : ∀ d, 0 < m.len d) (hs : m.len 0 * m.len 1 * m.len 2 < 31532895852494961) :
    0 ≤ m.maxPossible := by
  have h := Mapping.C07_fitting_level_accepted (m := m) hp (given := 0) (Int.le_refl _) (by
    show Cfg.base _ (0 + 1) < _
    rw [base_one]
    show m.len 0 * m.len 1 * m.len 2 < W
    exact Nat.lt_trans hs (by decide))
  unfold Mapping.setMaxLvl at h
  split at h
  · assumption
  · cases h

/-- C76, the part that holds: if the length is set before the maximum refinement level and the grid has fewer than
31532895852494961 level 0 cells, all ids fit into 64 bits, and a negative level gives the largest level for which they
do. Missing: the other order (`C76_false`) and larger grids (C07, C08). -/
theorem C76_ids_fit_partial (a b : List SetupCall) (l : V3 Nat) (ha : ∀ k, SetupCall.level k ∉ a)
    (h : ((run .fresh a).call (.length l)).1 = true) (hs : l 0 * l 1 * l 2 < 31532895852494961) :
    (run .fresh (a ++ .length l :: b)).mapping.OK ∧
    ∀ k : Int, k < 0 → ((run .fresh (a ++ .length l :: b)).call (.level k)).2.mapping.OK ∧
      ∀ j : Int, ((run .fresh (a ++ .length l :: b)).call (.level k)).2.mapping.maxLvl < j →
        W ≤ ({ (run .fresh (a ++ .length l :: b)).mapping with maxLvl := j } : Mapping).cfg.last := by
  have hlen := (C74_length a [] l h).1
  have hbase : (run .fresh (a ++ [.length l])).mapping.OK ∧ (run .fresh (a ++ [.length l])).lengthSet = true := by
    have h0 : (run .fresh a).mapping.maxLvl = 0 := by
      have : ∀ (a : List SetupCall) (v : Setup), (∀ k, SetupCall.level k ∉ a) →
          (v.run a).mapping.maxLvl = v.mapping.maxLvl := by
        intro a v ha
        exact run_keeps (·.mapping.maxLvl) a fun c hc v => call_maxLvl v c (fun k e => absurd (e ▸ hc) (ha k))
      rw [this a .fresh ha]; rfl
    have hs' := (call_lengthSet (run .fresh a) (.length l)).2 (.inr ⟨l, rfl, h⟩)
    rw [run_append]
    refine ⟨?_, hs'⟩
    show ((run .fresh a).call (.length l)).2.mapping.OK
    simp only [call, setInitialLength] at h ⊢
    split at h
    · cases h
    · rename_i hn
      split at h
      · rename_i hr
        rw [if_neg hn, if_pos hr]
        have hpos : ∀ d, 0 < l d := by
          intro d
          rcases Nat.eq_zero_or_pos (l d) with e | e
          · have := (Mapping.C08_set_length_partial (m := (run .fresh a).mapping) l).2.2.1 ⟨d, e⟩
            rw [this] at hr; cases hr
          · exact e
        refine (Mapping.C08_set_length_partial l).2.2.2.2 hpos (by omega) ?_ hr
        show Cfg.base _ (Int.toNat (run .fresh a).mapping.maxLvl + 1) < W
        rw [h0]
        show Cfg.base _ (0 + 1) < W
        rw [base_one]
        exact Nat.lt_trans hs (by decide)
      · cases h
  have hOK : ∀ (b : List SetupCall) (v : Setup), v.mapping.OK → v.lengthSet = true →
      v.mapping.len = l → (v.run b).mapping.OK := by
    intro b
    induction b with
    | nil => intro v h1 _ _; exact h1
    | cons c b ih =>
      intro v h1 h2 h3
      rw [run_cons]
      obtain ⟨h4, h5⟩ := call_len v c h2
      refine ih _ ?_ h5 (h4.trans h3)
      cases c with
      | length k =>
        simp only [call, setInitialLength]
        rw [if_pos h2]; exact h1
      | level k =>
        simp only [call, setMaximumRefinementLevel]
        have hm := maxPossible_nonneg v.mapping h1.pos (by rw [h3]; exact hs)
        split
        · exact (Mapping.C07_accepted_level_fits_partial h1.pos (by rw [h3]; exact hs) hm (by
            unfold Mapping.setMaxLvl; rw [if_pos (Int.le_refl _)])).1
        · rename_i hk
          cases hr : (v.mapping.setMaxLvl k).1 with
          | true => exact (Mapping.C07_accepted_level_fits_partial h1.pos (by rw [h3]; exact hs) (by omega) hr).1
          | false =>
            show (v.mapping.setMaxLvl k).2.OK
            rw [Mapping.C07_rejected_no_effect hr]; exact h1
      | start k =>
        simp only [call, start]
        split <;> exact h1
      | _ => exact h1
  have e : a ++ .length l :: b = (a ++ [.length l]) ++ b := by simp
  rw [e, run_append]
  have hv := hOK b _ hbase.1 hbase.2 hlen
  have hvl := (run_len b hbase.2).1.trans hlen
  generalize run (run .fresh (a ++ [.length l])) b = v at hv hvl
  refine ⟨hv, fun k hk => ?_⟩
  have hm := maxPossible_nonneg v.mapping hv.pos (by rw [hvl]; exact hs)
  simp only [call, setMaximumRefinementLevel]
  rw [if_pos hk]
  have hacc : (v.mapping.setMaxLvl v.mapping.maxPossible).1 = true := by
    unfold Mapping.setMaxLvl; rw [if_pos (Int.le_refl _)]
  have hf := Mapping.C07_accepted_level_fits_partial hv.pos (by rw [hvl]; exact hs) hm hacc
  refine ⟨hf.1, fun j hj => ?_⟩
  rw [hf.2.1] at hj
  apply Decidable.byContradiction
  intro hW
  have := Mapping.C07_fitting_level_accepted (m := v.mapping) hv.pos (given := j) (by omega) (by omega)
  unfold Mapping.setMaxLvl at this
  rw [if_neg (by omega)] at this
  cases this

example : (∀ k, SetupCall.level k ∉ [SetupCall.hood 3, .length (v3 2 0 1)]) ∧
    ((run .fresh [.hood 3, .length (v3 2 0 1)]).call (.length (v3 2 1 1))).1 = true := by
  refine ⟨fun k h => ?_, by decide +kernel⟩
  rcases List.mem_cons.1 h with h | h
  · cases h
  · rcases List.mem_cons.1 h with h | h <;> cases h

/-- C76 is false: when the maximum refinement level is set before the length it isn't checked again. `initialize`
accepts the grid although its ids don't fit into 64 bits. In the other order the level is rejected. -/
theorem C76_false : ∃ calls : List SetupCall, calls = [.level 21, .length (v3 2 1 1)] ∧
    ((run .fresh calls).call (.start 1)).1 = true ∧ (run .fresh calls).mapping.maxLvl = 21 ∧
    W ≤ (run .fresh calls).mapping.cfg.last ∧ (run .fresh calls).mapping.lastCell < W ∧
    ((run .fresh [.length (v3 2 1 1)]).call (.level 21)).1 = false :=
  ⟨_, rfl, by decide +kernel, by decide +kernel, by decide +kernel, by decide +kernel, by decide +kernel⟩

end Setup
end Dccrg
