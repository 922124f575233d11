import Verif.SchedFile
/-!
# Executions in which a process fails

If a process fails, others can continue until they need something from it. `Break` describes executions in which all
processes communicate at the same time until process `p` fails while others call a collective function that needs a value
from it. `Break.schedule` shows that then no process ever ends, whatever their timing.
-/
namespace Dccrg
variable {n : Nat} {V α β : Type}

/-- The process calls a collective function in which it gets a value from process `p`. -/
def Prog.Needs (p : Fin n) : Prog n V α → Prop
  | .coll _ known _ _ => known p = none
  | _ => False

/-- All processes communicate at the same time until process `p` fails. Each of the others fails too or needs a value
from `p`. -/
inductive Break (p : Fin n) : (Fin n → Prog n V α) → Prop
  | stop {P : Fin n → Prog n V α} : P p = .fail → (∀ q, P q = .fail ∨ (P q).Needs p) → Break p P
  | step {P Q : Fin n → Prog n V α} : Together P Q → Break p Q → Break p P

theorem Break.congr {p : Fin n} {P Q : Fin n → Prog n V α} (h : ∀ i, P i = Q i) (hq : Break p Q) : Break p P := by
  obtain rfl : P = Q := funext h
  exact hq

theorem Prog.Needs.bind {p : Fin n} {P : Prog n V α} (h : P.Needs p) (f : α → Prog n V β) : (P.bind f).Needs p := by
  cases P with
  | coll => exact h
  | _ => exact h.elim

theorem Break.bind {p : Fin n} {P : Fin n → Prog n V α} (h : Break p P) (f : Fin n → α → Prog n V β) :
    Break p (fun i => (P i).bind (f i)) := by
  induction h with
  | stop h1 h2 =>
    refine .stop (by rw [h1]; rfl) fun q => ?_
    rcases h2 q with h | h
    · exact Or.inl (by rw [h]; rfl)
    · exact Or.inr (h.bind _)
  | step h1 _ ih => exact .step (h1.bind f) ih

theorem Break.after {p : Fin n} {P : Fin n → Prog n V α} {a : Fin n → α} (h : Lock P a) {f : Fin n → α → Prog n V β}
    (hf : Break p (fun i => f i (a i))) : Break p (fun i => (P i).bind (f i)) := by
  induction h with
  | done a => exact hf
  | step h1 _ ih => exact .step (h1.bind f) (ih hf)

/-- Programs of all processes after each of `T` communications until process `p` fails. -/
structure Halt (p : Fin n) (P : Fin n → Prog n V α) (T : Nat) (X : Nat → Fin n → Prog n V α) : Prop extends Steps P T X where
  fails : X T p = .fail
  needs : ∀ q, X T q = .fail ∨ (X T q).Needs p

theorem Break.halt {p : Fin n} {P : Fin n → Prog n V α} (h : Break p P) : ∃ T X, Halt p P T X := by
  induction h with
  | @stop P h1 h2 => exact ⟨0, fun _ => P, ⟨rfl, fun t ht => absurd ht (Nat.not_lt_zero t)⟩, h1, h2⟩
  | @step P Q h1 _ ih =>
    obtain ⟨T, X, h⟩ := ih
    refine ⟨T + 1, fun t => match t with | 0 => P | t + 1 => X t, ⟨rfl, ?_⟩, h.fails, h.needs⟩
    intro t ht
    cases t with
    | zero => show Together P (X 0); rw [h.first]; exact h1
    | succ t => exact h.step t (by omega)

/-- Processes that wait communicate. -/
theorem World.Run.comm {P : Fin n → Prog n V α} {k : Nat} {a b : World n V α} (h : World.Run k a b) (ha : a = World.init P) :
    ∀ q, b.waiting q = true → (b.prog q).comm = true := by
  induction h with
  | refl a =>
    subst ha
    intro q hq
    cases hq
  | @step k a b c p _ hs ih =>
    specialize ih ha
    intro q hq
    cases hs with
    | call hw hc =>
      by_cases e : q = p
      · subst e; exact hc
      · have hq : upd b.waiting p true q = true := hq
        rw [upd_other _ _ e] at hq
        exact ih q hq
    | coll | exch =>
      have hq : upd b.waiting p false q = true := hq
      by_cases e : q = p
      · subst e
        rw [upd_self] at hq
        cases hq
      · rw [upd_other _ _ e] at hq
        show (upd b.prog p _ q).comm = true
        rw [upd_other _ _ e]
        exact ih q hq

section
variable {P : Fin n → Prog n V α} {T : Nat} {X : Nat → Fin n → Prog n V α} {p : Fin n}

/-- No process gets past the communication that needs the process that fails. -/
theorem Halt.world (h : Halt p P T X) {a b : World n V α} {ρ : Fin n → Nat} (ha : a.At (T + 1) X ρ) (hle : ∀ q, ρ q ≤ T)
    (hc : ∀ q, a.waiting q = true → (a.prog q).comm = true) {q : Fin n} {buffered : Bool}
    (hs : World.Step buffered q a b) :
    ∃ ρ', b.At (T + 1) X ρ' ∧ b.steps ρ' = a.steps ρ + 1 ∧ ∀ q, ρ' q ≤ T := by
  by_cases hlt : ρ q < T
  · obtain ⟨ρ', h1, h2, h3, h4⟩ := ha.early h.toSteps (Nat.le_succ T) hlt hs
    refine ⟨ρ', h1, h2, fun i => ?_⟩
    by_cases e : i = q
    · subst e; omega
    · rw [h3 i e]; exact hle i
  · have hT : ρ q = T := by have := hle q; omega
    have hq := h.needs q
    rw [← hT, ← ha.prog] at hq
    cases hs with
    | call hw _ =>
      obtain ⟨h1, h2⟩ := ha.call hw (by omega) rfl
      exact ⟨ρ, h1, h2, hle⟩
    | @coll kind known v k x hw hp hk hx hb =>
      exfalso
      rw [hp] at hq
      rcases hq with hq | hq
      · cases hq
      have hp' : ρ p + (a.waiting p).toNat ≤ T := by
        have := hle p
        cases hwp : a.waiting p with
        | false => exact this
        | true =>
          have e : ρ p ≠ T := by
            intro e
            have := hc p hwp
            rw [ha.prog, e, h.fails] at this
            cases this
          show ρ p + 1 ≤ T
          omega
      have h1 := hx p hq
      obtain ⟨l, hl⟩ := preGiven_mono (X := X) p hp'
      have h2 := congrArg List.length (ha.given q)
      rw [hw, hT] at h2
      have h3 : (preGiven X q (T + 1)).length = (preGiven X q T).length + 1 := by
        rw [preGiven_succ, List.length_append, ← hT, ← ha.prog, hp, hT]; rfl
      have h4 := h.given_length p q T (Nat.le_refl T)
      rw [← h4, hl, List.length_append] at h3
      have h5 : (a.given p).length = (preGiven X p (ρ p + (a.waiting p).toNat)).length := by rw [ha.given p]
      replace h2 : (a.given q).length = (preGiven X q (T + 1)).length := h2
      rw [List.getElem?_eq_none (by omega)] at h1
      cases h1
    | exch hw hp =>
      exfalso
      rw [hp] at hq
      rcases hq with hq | hq
      · cases hq
      · exact hq

theorem Halt.run (h : Halt p P T X) {k : Nat} {b : World n V α} (hr : World.Run k (World.init P) b) :
    ∃ ρ, b.At (T + 1) X ρ ∧ b.steps ρ = k ∧ ∀ q, ρ q ≤ T := by
  generalize ha : World.init P = a at hr
  induction hr with
  | refl a =>
    subst ha
    refine ⟨_, h.toSteps.init, ?_, fun _ => Nat.zero_le _⟩
    have := sum_le (f := fun p => 2 * 0 + ((World.init P).waiting p).toNat) (m := 0) (List.finRange n)
      (fun q _ => Nat.le_refl _)
    simpa [World.steps] using this
  | step h1 hs ih =>
    obtain ⟨ρ, h2, h3, h4⟩ := ih ha
    obtain ⟨ρ', h5, h6, h7⟩ := h.world h2 h4 (h1.comm ha.symm) hs
    exact ⟨ρ', h5, by omega, h7⟩

end

/-- If processes that communicate at the same time do so until process `p` fails, and others need a value from it, then
there is no execution in which a process ends: all executions are finite, and continue at least until `p` has failed, also
if MPI doesn't buffer messages. -/
theorem Break.schedule {p : Fin n} {P : Fin n → Prog n V α} (h : Break p P) :
    ∃ K, ∀ k b, World.Run k (World.init P) b → k ≤ K ∧ (∀ q a, b.prog q ≠ .done a) ∧
      (b.prog p ≠ .fail → ∃ q c, World.Step false q b c) := by
  obtain ⟨T, X, h⟩ := h.halt
  refine ⟨n * (2 * T + 1), ?_⟩
  intro k b hr
  obtain ⟨ρ, ha, hk, hle⟩ := h.run hr
  have hst : ∀ q, ρ q < T → (b.prog q).comm = true := by
    intro q hq
    have hst := h.step (ρ q) hq
    rw [ha.prog]
    generalize X (ρ q) = A at hst
    generalize X (ρ q + 1) = B at hst
    cases hst <;> rfl
  refine ⟨?_, ?_, ?_⟩
  · have hb : ∀ q ∈ List.finRange n, 2 * ρ q + (b.waiting q).toNat ≤ 2 * T + 1 := by
      intro q _
      have := hle q
      have := Bool.toNat_le (b.waiting q)
      omega
    have := sum_le (List.finRange n) hb
    rw [List.length_finRange] at this
    rw [← hk]
    exact this
  · intro q a he
    by_cases hq : ρ q < T
    · have := hst q hq
      rw [he] at this
      cases this
    · have e : ρ q = T := by have := hle q; omega
      have := h.needs q
      rw [← e, ← ha.prog, he] at this
      rcases this with h | h
      · cases h
      · exact h
  · intro hf
    by_cases hp : ρ p < T
    · obtain ⟨q, c, hs, -⟩ := ha.progress h.toSteps hp
      exact ⟨q, c, hs⟩
    · have e : ρ p = T := by have := hle p; omega
      rw [ha.prog, e, h.fails] at hf
      exact absurd rfl hf

/-! ## Processes that end although another one has failed -/

/-- All processes communicate at the same time some number of times. -/
inductive Meet : (Fin n → Prog n V α) → (Fin n → Prog n V α) → Prop
  | refl (P : Fin n → Prog n V α) : Meet P P
  | step {P Q R : Fin n → Prog n V α} : Together P Q → Meet Q R → Meet P R

theorem Meet.congr {P Q R : Fin n → Prog n V α} (h : ∀ i, P i = Q i) (hq : Meet Q R) : Meet P R := by
  obtain rfl : P = Q := funext h
  exact hq

theorem Meet.after {P : Fin n → Prog n V α} {a : Fin n → α} (h : Lock P a) {f : Fin n → α → Prog n V β}
    {Q : Fin n → Prog n V β} (hf : Meet (fun i => f i (a i)) Q) : Meet (fun i => (P i).bind (f i)) Q := by
  induction h with
  | done a => exact hf
  | step h1 _ ih => exact .step (h1.bind f) (ih hf)

theorem Meet.steps {P Q : Fin n → Prog n V α} (h : Meet P Q) : ∃ T X, Steps P T X ∧ X T = Q := by
  induction h with
  | refl P => exact ⟨0, fun _ => P, ⟨rfl, fun t ht => absurd ht (Nat.not_lt_zero t)⟩, rfl⟩
  | @step P Q R h1 _ ih =>
    obtain ⟨T, X, h, e⟩ := ih
    refine ⟨T + 1, fun t => match t with | 0 => P | t + 1 => X t, ⟨rfl, ?_⟩, e⟩
    intro t ht
    cases t with
    | zero => show Together P (X 0); rw [h.first]; exact h1
    | succ t => exact h.step t (by omega)

/-- The process ends with `a` without anything from others. -/
inductive Prog.Alone : Prog n V α → α → Prop
  | done (a : α) : Alone (.done a) a
  | coll {kind : Nat} {known : Fin n → Option V} {v : V} {k : (Fin n → V) → Prog n V α} {a : α} (x : Fin n → V) :
      (∀ q, known q = some (x q)) → Alone (k x) a → Alone (.coll kind known v k) a

theorem World.Step.weaken {a b : World n V α} {p : Fin n} (h : World.Step false p a b) : World.Step true p a b := by
  cases h with
  | call h1 h2 => exact .call h1 h2
  | coll h1 h2 h3 h4 _ => exact .coll h1 h2 h3 h4 nofun
  | exch h1 h2 h3 h4 _ => exact .exch h1 h2 h3 h4 nofun

theorem Prog.Alone.run {R : Prog n V α} {r : α} (h : R.Alone r) {q : Fin n} {k : Nat} {a b : World n V α}
    (hr : World.Run k a b) (hp : b.prog q = R) (hw : b.waiting q = false) :
    ∃ k c, World.Run k a c ∧ c.prog q = .done r ∧ ∀ i, i ≠ q → c.prog i = b.prog i := by
  induction h generalizing k b with
  | done r => exact ⟨k, b, hr, hp, fun _ _ => rfl⟩
  | @coll kind known v f r x hx _ ih =>
    have h1 := World.Run.step hr (World.Step.call (buffered := true) hw (by rw [hp]; rfl))
    have h2 := h1.step (World.Step.coll (p := q) (x := x) (upd_self ..) hp
      (fun i y hi => by rw [hx i] at hi; injection hi) (fun i hi => by rw [hx i] at hi; cases hi) nofun)
    obtain ⟨k', c, h3, h4, h5⟩ := ih h2 (upd_self ..) (upd_self ..)
    refine ⟨k', c, h3, h4, fun i hi => ?_⟩
    rw [h5 i hi]
    exact upd_other _ _ hi

theorem Steps.reach {P : Fin n → Prog n V α} {T : Nat} {X : Nat → Fin n → Prog n V α} (h : Steps P T X) (d : Nat) :
    ∀ {k : Nat} {a : World n V α} {ρ : Fin n → Nat}, World.Run k (World.init P) a → a.At T X ρ →
      n * (2 * T) ≤ a.steps ρ + d →
      ∃ k b, World.Run k (World.init P) b ∧ ∀ q, b.prog q = X T q ∧ b.waiting q = false := by
  induction d with
  | zero =>
    intro k a ρ hr ha hd
    have hb : ∀ q ∈ List.finRange n, 2 * ρ q + (a.waiting q).toNat ≤ 2 * T := by
      intro q _
      have := ha.le q
      omega
    have hle := sum_le (List.finRange n) hb
    rw [List.length_finRange] at hle
    have he := sum_eq (List.finRange n) hb (by rw [List.length_finRange]; exact Nat.le_antisymm hle hd)
    refine ⟨k, a, hr, fun q => ?_⟩
    have h1 := he q (List.mem_finRange q)
    have h2 := ha.le q
    have h3 : ρ q = T := by omega
    refine ⟨by rw [ha.prog, h3], ?_⟩
    rw [h3] at h2
    cases hw : a.waiting q with
    | false => rfl
    | true =>
      rw [hw] at h2
      exact absurd h2 (Nat.not_succ_le_self T)
  | succ d ih =>
    intro k a ρ hr ha hd
    by_cases hq : ∃ q, ρ q < T
    · obtain ⟨q, hq⟩ := hq
      obtain ⟨p, b, hs, hp⟩ := ha.progress h hq
      obtain ⟨ρ', h1, h2, -⟩ := ha.early h (Nat.le_refl T) hp hs
      exact ih (hr.step hs.weaken) h1 (by omega)
    · refine ⟨k, a, hr, fun q => ?_⟩
      have h2 := ha.le q
      have h3 : ρ q = T := by
        have : ¬ ρ q < T := fun h => hq ⟨q, h⟩
        omega
      refine ⟨by rw [ha.prog, h3], ?_⟩
      rw [h3] at h2
      cases hw : a.waiting q with
      | false => rfl
      | true =>
        rw [hw] at h2
        exact absurd h2 (Nat.not_succ_le_self T)

/-- If processes communicate at the same time until one of them needs nothing more from others, then there is an execution
in which it ends although others are still where they were. -/
theorem Meet.alone {P Q : Fin n → Prog n V α} (h : Meet P Q) {q : Fin n} {r : α} (hq : (Q q).Alone r) :
    ∃ k b, World.Run k (World.init P) b ∧ b.prog q = .done r ∧ ∀ i, i ≠ q → b.prog i = Q i := by
  obtain ⟨T, X, hs, rfl⟩ := h.steps
  obtain ⟨k, b, h1, h2⟩ := hs.reach (n * (2 * T)) (World.Run.refl _) hs.init (Nat.le_add_left ..)
  obtain ⟨k', c, h3, h4, h5⟩ := hq.run h1 (h2 q).1 (h2 q).2
  exact ⟨k', c, h3, h4, fun i hi => by rw [h5 i hi]; exact (h2 i).1⟩

end Dccrg
