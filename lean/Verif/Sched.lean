import Verif.Async
/-!
# Processes that run at their own pace

Programs of processes which communicate with collective functions of MPI and with messages, and all of their executions.
A process continues from a collective function when the processes whose values it needs have called it, and from waiting
for messages when they have been sent; everything else happens in any order. MPI may also make processes wait longer: until
all of them have called a collective function and until messages that they have sent have been received. Results are shown
for processes that don't wait longer than they must, and that processes never wait for each other forever if they wait for
as long as MPI allows.

`Lock` describes the one execution in which all processes communicate at the same time. `Lock.schedule` shows that if it
ends then every execution does, with the same result, and none of them can stop before that.
-/
namespace Dccrg
variable {n : Nat} {V α β : Type}

/-! ## Programs -/

/-- Program of one process between its communications. -/
inductive Prog (n : Nat) (V α : Type) where
  /-- End with a result. -/
  | done (a : α)
  /-- End with an exception, abort, endless loop or undefined behavior. -/
  | fail
  /-- Call of collective function `kind` with value `v`, which gives values of all processes: `MPI_Allgather`,
  `MPI_Allgatherv` and `MPI_Allreduce` (dccrg_mpi_support.hpp:130-140, 200-215, 250-258). If `known q` is a value then the
  function uses it for process `q`, whether or not that process has called the function: what others than the root give to
  `MPI_Bcast`, or a process which has nothing to give to `MPI_Allgatherv`. -/
  | coll (kind : Nat) (known : Fin n → Option V) (v : V) (k : (Fin n → V) → Prog n V α)
  /-- Start receives and sends and wait for all of them: `S q` are tags and values of messages to process `q` and `R q`
  tags of messages from process `q` (`MPI_Irecv`, `MPI_Isend` and `MPI_Wait`, dccrg.hpp:10758-11264). -/
  | exch (S : Fin n → List (Nat × V)) (R : Fin n → List Nat) (k : (Fin n → List V) → Prog n V α)

/-- Continue with the result. -/
def Prog.bind : Prog n V α → (α → Prog n V β) → Prog n V β
  | .done a, f => f a
  | .fail, _ => .fail
  | .coll kind known v k, f => .coll kind known v fun x => (k x).bind f
  | .exch S R k, f => .exch S R fun x => (k x).bind f

/-- Whether the process communicates next. -/
def Prog.comm : Prog n V α → Bool
  | .coll .. => true
  | .exch .. => true
  | _ => false

/-- Value with which the next collective function is called. -/
def Prog.given : Prog n V α → List (Nat × V)
  | .coll kind _ v _ => [(kind, v)]
  | _ => []

/-- Messages with given tag sent to a process. -/
def Prog.sends (dst : Fin n) (tag : Nat) : Prog n V α → List V
  | .exch S _ _ => ((S dst).filter fun x => x.1 == tag).map (·.2)
  | _ => []

/-- Number of receives with given tag from a process. -/
def Prog.recvs (src : Fin n) (tag : Nat) : Prog n V α → Nat
  | .exch _ R _ => (R src).count tag
  | _ => 0

/-! ## Executions -/

/-- Processes and everything that they have given to MPI. -/
structure World (n : Nat) (V α : Type) where
  prog : Fin n → Prog n V α
  /-- The process has called the function with which it communicates next and hasn't returned from it. -/
  waiting : Fin n → Bool
  /-- Values given to collective functions so far. -/
  given : Fin n → List (Nat × V)
  /-- Values of messages sent so far. -/
  sent : Chan n → List V
  /-- Number of receives started so far. -/
  started : Chan n → Nat

/-- Nothing has happened. -/
def World.init (P : Fin n → Prog n V α) : World n V α where
  prog := P
  waiting _ := false
  given _ := []
  sent _ := []
  started _ := 0

/-- All messages that process `p` has sent have been received. -/
def World.Taken (a : World n V α) (p : Fin n) : Prop := ∀ ch : Chan n, ch.src = p → (a.sent ch).length ≤ a.started ch

/-- Process `p` makes one step. The k-th call of a collective function on one process and the k-th ones on others belong
together, and they must call the same function. The k-th receive of messages with same source, destination and tag gets
the k-th such message. If not `buffered` then sending ends only when the message has been received, and a collective
function only when all processes have called it. -/
inductive World.Step (buffered : Bool) (p : Fin n) : World n V α → World n V α → Prop
  | call {a : World n V α} : a.waiting p = false → (a.prog p).comm = true →
      Step buffered p a { a with
        waiting := upd a.waiting p true
        given := upd a.given p (a.given p ++ (a.prog p).given)
        sent := fun ch => if ch.src = p then a.sent ch ++ (a.prog p).sends ch.dst ch.tag else a.sent ch
        started := fun ch => if ch.dst = p then a.started ch + (a.prog p).recvs ch.src ch.tag else a.started ch }
  | coll {a : World n V α} {kind : Nat} {known : Fin n → Option V} {v : V} {k : (Fin n → V) → Prog n V α}
      {x : Fin n → V} :
      a.waiting p = true → a.prog p = .coll kind known v k →
      (∀ q y, known q = some y → x q = y) →
      (∀ q, known q = none → (a.given q)[(a.given p).length - 1]? = some (kind, x q)) →
      (buffered = false → ∀ q, ∃ y, (a.given q)[(a.given p).length - 1]? = some (kind, y)) →
      Step buffered p a { a with prog := upd a.prog p (k x), waiting := upd a.waiting p false }
  | exch {a : World n V α} {S : Fin n → List (Nat × V)} {R : Fin n → List Nat} {k : (Fin n → List V) → Prog n V α}
      {x : Fin n → List V} :
      a.waiting p = true → a.prog p = .exch S R k → (∀ q, (x q).length = (R q).length) →
      (∀ q (j : Nat) tag, (R q)[j]? = some tag → (x q)[j]? = (a.sent ⟨q, p, tag⟩)[a.started ⟨q, p, tag⟩ - 1]?) →
      (buffered = false → a.Taken p) →
      Step buffered p a { a with prog := upd a.prog p (k x), waiting := upd a.waiting p false }

/-- `k` steps of some processes. -/
inductive World.Run : Nat → World n V α → World n V α → Prop
  | refl (a : World n V α) : Run 0 a a
  | step {k : Nat} {a b c : World n V α} {p : Fin n} : Run k a b → World.Step true p b c → Run (k + 1) a c

/-! ## All processes at the same time -/

/-- All processes communicate once. -/
inductive Together : (Fin n → Prog n V α) → (Fin n → Prog n V α) → Prop
  | coll (kind : Nat) (known : Fin n → Option V) (v : Fin n → V) (k : Fin n → (Fin n → V) → Prog n V α) :
      Together (fun i => .coll kind known (v i) (k i)) (fun i => k i fun q => (known q).getD (v q))
  | exch (S : Fin n → Fin n → List (Nat × V)) (R : Fin n → Fin n → List Nat) (k : Fin n → (Fin n → List V) → Prog n V α) :
      (∀ p q, (S p q).map (·.1) = R q p) → (∀ p q, (R p q).Nodup) →
      Together (fun i => .exch (S i) (R i) (k i)) (fun i => k i fun p => (S p i).map (·.2))

/-- Execution in which all processes communicate at the same time, and its results. -/
inductive Lock : (Fin n → Prog n V α) → (Fin n → α) → Prop
  | done (r : Fin n → α) : Lock (fun i => .done (r i)) r
  | step {P Q : Fin n → Prog n V α} {r : Fin n → α} : Together P Q → Lock Q r → Lock P r

theorem Together.bind {P Q : Fin n → Prog n V α} (h : Together P Q) (f : Fin n → α → Prog n V β) :
    Together (fun i => (P i).bind (f i)) (fun i => (Q i).bind (f i)) := by
  cases h with
  | coll kind known v k => exact .coll kind known v fun i x => (k i x).bind (f i)
  | exch S R k h1 h2 => exact .exch S R (fun i x => (k i x).bind (f i)) h1 h2

theorem Lock.bind {P : Fin n → Prog n V α} {a : Fin n → α} (h : Lock P a) {f : Fin n → α → Prog n V β} {r : Fin n → β}
    (hf : Lock (fun i => f i (a i)) r) : Lock (fun i => (P i).bind (f i)) r := by
  induction h with
  | done a => exact hf
  | step h1 _ ih => exact .step (h1.bind f) (ih hf)

/-- Programs of all processes after each of `T` communications. -/
structure Steps (P : Fin n → Prog n V α) (T : Nat) (X : Nat → Fin n → Prog n V α) : Prop where
  first : X 0 = P
  step : ∀ t, t < T → Together (X t) (X (t + 1))

/-- Programs of all processes after each communication, until all of them end. -/
structure Trace (P : Fin n → Prog n V α) (r : Fin n → α) (T : Nat) (X : Nat → Fin n → Prog n V α) : Prop
    extends Steps P T X where
  last : X T = fun i => .done (r i)

theorem Lock.trace {P : Fin n → Prog n V α} {r : Fin n → α} (h : Lock P r) : ∃ T X, Trace P r T X := by
  induction h with
  | done r => exact ⟨0, fun _ i => .done (r i), ⟨rfl, fun t ht => absurd ht (Nat.not_lt_zero t)⟩, rfl⟩
  | @step P Q r h1 _ ih =>
    obtain ⟨T, X, h⟩ := ih
    refine ⟨T + 1, fun t => match t with | 0 => P | t + 1 => X t, ⟨rfl, ?_⟩, h.last⟩
    intro t ht
    cases t with
    | zero => show Together P (X 0); rw [h.first]; exact h1
    | succ t => exact h.step t (by omega)

/-! ## Every execution agrees -/

section
variable {P : Fin n → Prog n V α} {r : Fin n → α} {T B : Nat} {X : Nat → Fin n → Prog n V α}

/-- Values given to collective functions before communication `e`. -/
def preGiven (X : Nat → Fin n → Prog n V α) (p : Fin n) (e : Nat) : List (Nat × V) :=
  (List.range e).flatMap fun t => (X t p).given

def preSent (X : Nat → Fin n → Prog n V α) (ch : Chan n) (e : Nat) : List V :=
  (List.range e).flatMap fun t => (X t ch.src).sends ch.dst ch.tag

def preStarted (X : Nat → Fin n → Prog n V α) (ch : Chan n) : Nat → Nat
  | 0 => 0
  | e + 1 => preStarted X ch e + (X e ch.dst).recvs ch.src ch.tag

theorem preGiven_succ (p : Fin n) (e : Nat) : preGiven X p (e + 1) = preGiven X p e ++ (X e p).given := by
  simp [preGiven, List.range_succ]

theorem preSent_succ (ch : Chan n) (e : Nat) :
    preSent X ch (e + 1) = preSent X ch e ++ (X e ch.src).sends ch.dst ch.tag := by
  simp [preSent, List.range_succ]

theorem preGiven_mono (p : Fin n) {e e' : Nat} (h : e ≤ e') : ∃ l, preGiven X p e' = preGiven X p e ++ l := by
  induction e' with
  | zero => obtain rfl : e = 0 := by omega
            exact ⟨[], by simp⟩
  | succ m ih =>
    by_cases he : e = m + 1
    · subst he; exact ⟨[], by simp⟩
    · obtain ⟨l, hl⟩ := ih (by omega)
      exact ⟨l ++ (X m p).given, by rw [preGiven_succ, hl, List.append_assoc]⟩

theorem preStarted_mono (ch : Chan n) {e e' : Nat} (h : e ≤ e') : preStarted X ch e ≤ preStarted X ch e' := by
  induction e' with
  | zero => obtain rfl : e = 0 := by omega
            exact Nat.le_refl _
  | succ m ih =>
    by_cases he : e = m + 1
    · subst he; exact Nat.le_refl _
    · exact Nat.le_trans (ih (by omega)) (Nat.le_add_right ..)

theorem preSent_mono (ch : Chan n) {e e' : Nat} (h : e ≤ e') : ∃ l, preSent X ch e' = preSent X ch e ++ l := by
  induction e' with
  | zero => obtain rfl : e = 0 := by omega
            exact ⟨[], by simp⟩
  | succ m ih =>
    by_cases he : e = m + 1
    · subst he; exact ⟨[], by simp⟩
    · obtain ⟨l, hl⟩ := ih (by omega)
      exact ⟨l ++ (X m ch.src).sends ch.dst ch.tag, by rw [preSent_succ, hl, List.append_assoc]⟩

theorem filter_count (S : List (Nat × V)) (tag : Nat) :
    ((S.filter fun x => x.1 == tag).map (·.2)).length = (S.map (·.1)).count tag := by
  rw [List.length_map]
  induction S with
  | nil => rfl
  | cons a S ih => rw [List.filter_cons, List.map_cons, List.count_cons]; split <;> simp_all

theorem Together.given_length {P Q : Fin n → Prog n V α} (h : Together P Q) (p q : Fin n) :
    (P p).given.length = (P q).given.length := by cases h <;> rfl

theorem Together.recvs_eq {P Q : Fin n → Prog n V α} (h : Together P Q) (ch : Chan n) :
    (P ch.dst).recvs ch.src ch.tag = ((P ch.src).sends ch.dst ch.tag).length := by
  cases h with
  | coll => rfl
  | exch S R k h1 h2 =>
    show (R ch.dst ch.src).count ch.tag = _
    rw [← h1]; exact (filter_count _ _).symm

theorem Steps.given_length (h : Steps P T X) (p q : Fin n) (e : Nat) (he : e ≤ T) :
    (preGiven X p e).length = (preGiven X q e).length := by
  induction e with
  | zero => rfl
  | succ e ih =>
    rw [preGiven_succ, preGiven_succ, List.length_append, List.length_append, ih (by omega),
      (h.step e (by omega)).given_length p q]

theorem Steps.started_eq (h : Steps P T X) (ch : Chan n) (e : Nat) (he : e ≤ T) :
    preStarted X ch e = (preSent X ch e).length := by
  induction e with
  | zero => rfl
  | succ e ih => rw [preStarted, preSent_succ, List.length_append, ih (by omega), (h.step e (by omega)).recvs_eq ch]

/-- State of an execution: process `p` has communicated `ρ p` times. -/
structure World.At (T : Nat) (X : Nat → Fin n → Prog n V α) (ρ : Fin n → Nat) (a : World n V α) : Prop where
  prog : ∀ p, a.prog p = X (ρ p) p
  le : ∀ p, ρ p + (a.waiting p).toNat ≤ T
  given : ∀ p, a.given p = preGiven X p (ρ p + (a.waiting p).toNat)
  sent : ∀ ch, a.sent ch = preSent X ch (ρ ch.src + (a.waiting ch.src).toNat)
  started : ∀ ch, a.started ch = preStarted X ch (ρ ch.dst + (a.waiting ch.dst).toNat)

theorem Steps.init (h : Steps P T X) : (World.init P).At B X (fun _ => 0) :=
  ⟨fun p => by rw [h.first]; rfl, fun _ => Nat.zero_le _, fun _ => rfl, fun _ => rfl, fun _ => rfl⟩

/-- What a process gets from a collective function. -/
theorem World.At.coll (h : Steps P T X) {a : World n V α} {ρ : Fin n → Nat} (ha : a.At B X ρ) {p : Fin n}
    (hlt : ρ p < T) {kind : Nat}
    {known : Fin n → Option V} {v : V} {k : (Fin n → V) → Prog n V α} (hw : a.waiting p = true)
    (hp : a.prog p = .coll kind known v k) :
    ∃ y : Fin n → V, X (ρ p + 1) p = k y ∧
      (∀ x : Fin n → V, (∀ q y, known q = some y → x q = y) →
        (∀ q, known q = none → (a.given q)[(a.given p).length - 1]? = some (kind, x q)) → x = y) ∧
      (∀ q z, known q = some z → y q = z) ∧
      ((∀ q, ρ p + 1 ≤ ρ q + (a.waiting q).toNat) →
        ∀ q, ∃ z, (a.given q)[(a.given p).length - 1]? = some (kind, z) ∧ (known q = none → y q = z)) := by
  have hx := ha.prog p
  rw [hp] at hx
  have hg := ha.given p
  rw [hw] at hg
  replace hg : a.given p = preGiven X p (ρ p + 1) := hg
  have hl := fun q => h.given_length p q (ρ p) (by omega)
  have hst := h.step (ρ p) hlt
  generalize hP : X (ρ p) = A at hst hx
  generalize hQ : X (ρ p + 1) = B at hst
  cases hst with
  | exch => cases hx
  | coll kind' known' v' k' =>
    injection hx with e1 e2 e3 e4
    subst e1 e2 e3 e4
    have hidx : (a.given p).length - 1 = (preGiven X p (ρ p)).length := by
      rw [hg, preGiven_succ, hP, List.length_append]; rfl
    refine ⟨_, rfl, ?_, fun q z hz => by rw [hz]; rfl, ?_⟩
    · intro x hk hx
      funext q
      cases hn : known q with
      | some y => exact hk q y hn
      | none =>
      have hq := hx q hn
      rw [hidx, hl q, ha.given q] at hq
      have hge : ρ p + 1 ≤ ρ q + (a.waiting q).toNat := by
        apply Nat.lt_of_not_le
        intro hle
        obtain ⟨l, hl⟩ := preGiven_mono (X := X) q hle
        rw [hl, List.getElem?_eq_none (by simp)] at hq
        cases hq
      obtain ⟨l, hl⟩ := preGiven_mono (X := X) q hge
      rw [hl, preGiven_succ, hP, List.append_assoc, List.getElem?_append_right (Nat.le_refl _), Nat.sub_self] at hq
      injection hq with hq
      injection hq with _ hq
      exact hq.symm
    · intro hge q
      refine ⟨v' q, ?_, fun hn => by rw [hn]; rfl⟩
      rw [hidx, hl q, ha.given q]
      obtain ⟨l, hl⟩ := preGiven_mono (X := X) q (hge q)
      rw [hl, preGiven_succ, hP, List.append_assoc, List.getElem?_append_right (Nat.le_refl _), Nat.sub_self]
      rfl

theorem filter_tag {S : List (Nat × V)} (hn : (S.map (·.1)).Nodup) {j tag : Nat}
    (hj : (S.map (·.1))[j]? = some tag) :
    ∃ v, (S.map (·.2))[j]? = some v ∧ (S.filter fun x => x.1 == tag).map (·.2) = [v] := by
  induction S generalizing j with
  | nil => simp at hj
  | cons a S ih =>
    rw [List.map_cons, List.nodup_cons] at hn
    cases j with
    | zero =>
      simp only [List.map_cons, List.getElem?_cons_zero, Option.some.injEq] at hj
      refine ⟨a.2, rfl, ?_⟩
      have : S.filter (fun x => x.1 == tag) = [] := by
        rw [List.filter_eq_nil_iff]
        intro x hx e
        apply hn.1
        rw [hj, ← (by simpa using e : x.1 = tag)]
        exact List.mem_map.2 ⟨x, hx, rfl⟩
      rw [List.filter_cons, if_pos (by simpa using hj), this]; rfl
    | succ j =>
      simp only [List.map_cons, List.getElem?_cons_succ] at hj
      obtain ⟨v, h1, h2⟩ := ih hn.2 hj
      refine ⟨v, h1, ?_⟩
      have hne : a.1 ≠ tag := by
        intro e
        apply hn.1
        rw [e]
        exact List.mem_of_getElem? hj
      rw [List.filter_cons, if_neg (by simpa using hne), h2]

/-- What a process gets from messages. -/
theorem World.At.exch (h : Steps P T X) {a : World n V α} {ρ : Fin n → Nat} (ha : a.At B X ρ) {p : Fin n} (hlt : ρ p < T)
    {S : Fin n → List (Nat × V)} {R : Fin n → List Nat} {k : (Fin n → List V) → Prog n V α}
    (hw : a.waiting p = true) (hp : a.prog p = .exch S R k) :
    ∃ y : Fin n → List V, X (ρ p + 1) p = k y ∧ (∀ q, (y q).length = (R q).length) ∧
      (∀ x : Fin n → List V, (∀ q, (x q).length = (R q).length) →
        (∀ q (j : Nat) tag, (R q)[j]? = some tag → (x q)[j]? = (a.sent ⟨q, p, tag⟩)[a.started ⟨q, p, tag⟩ - 1]?) → x = y) ∧
      ((∀ q, ρ p + 1 ≤ ρ q + (a.waiting q).toNat) →
        (∀ q (j : Nat) tag, (R q)[j]? = some tag → (y q)[j]? = (a.sent ⟨q, p, tag⟩)[a.started ⟨q, p, tag⟩ - 1]?) ∧
        a.Taken p) := by
  have hx := ha.prog p
  rw [hp] at hx
  have hst := h.step (ρ p) hlt
  have hse := fun ch => h.started_eq ch (ρ p) (by omega)
  have hse' := fun ch => h.started_eq ch (ρ p + 1) (by omega)
  generalize hP : X (ρ p) = A at hst hx
  generalize hQ : X (ρ p + 1) = B at hst
  cases hst with
  | coll => cases hx
  | exch S' R' k' h1 h2 =>
    injection hx with e1 e2 e3
    subst e1 e2 e3
    -- value of one message
    have key : ∀ q (j : Nat) tag, (R' p q)[j]? = some tag → ∃ v, ((S' q p).map (·.2))[j]? = some v ∧
        a.started ⟨q, p, tag⟩ - 1 = (preSent X ⟨q, p, tag⟩ (ρ p)).length ∧
        preSent X ⟨q, p, tag⟩ (ρ p + 1) = preSent X ⟨q, p, tag⟩ (ρ p) ++ [v] := by
      intro q j tag hj
      obtain ⟨v, hv1, hv2⟩ := filter_tag (S := S' q p) (by rw [h1]; exact h2 p q) (by rw [h1]; exact hj)
      have hs : preSent X ⟨q, p, tag⟩ (ρ p + 1) = preSent X ⟨q, p, tag⟩ (ρ p) ++ [v] := by
        rw [preSent_succ, hP]; exact congrArg _ hv2
      refine ⟨v, hv1, ?_, hs⟩
      have h3 := ha.started ⟨q, p, tag⟩
      replace h3 : _ = preStarted X ⟨q, p, tag⟩ (ρ p + (a.waiting p).toNat) := h3
      rw [hw] at h3
      replace h3 : _ = preStarted X ⟨q, p, tag⟩ (ρ p + 1) := h3
      rw [h3, hse', hs, List.length_append]; rfl
    have hlen : ∀ q, ((S' q p).map (·.2)).length = (R' p q).length := by
      intro q; rw [← h1, List.length_map, List.length_map]
    refine ⟨fun q => (S' q p).map (·.2), rfl, hlen, ?_, ?_⟩
    · intro x hxl hxv
      funext q
      apply List.ext_getElem?
      intro j
      cases hj : (R' p q)[j]? with
      | none =>
        have := List.getElem?_eq_none_iff.1 hj
        rw [List.getElem?_eq_none (by rw [hxl]; exact this), List.getElem?_eq_none (by rw [hlen]; exact this)]
      | some tag =>
        obtain ⟨v, hv, hst, hs⟩ := key q j tag hj
        have hjl : j < (x q).length := by
          rw [hxl]; exact (List.getElem?_eq_some_iff.1 hj).1
        have hval := hxv q j tag hj
        rw [hst, ha.sent] at hval
        replace hval : (x q)[j]? = (preSent X ⟨q, p, tag⟩ (ρ q + (a.waiting q).toNat))[_]? := hval
        have hge : ρ p + 1 ≤ ρ q + (a.waiting q).toNat := by
          apply Nat.lt_of_not_le
          intro hle
          obtain ⟨l, hl⟩ := preSent_mono (X := X) ⟨q, p, tag⟩ hle
          rw [hl, List.getElem?_eq_none (l := preSent X _ _) (by simp), List.getElem?_eq_none_iff] at hval
          omega
        obtain ⟨l, hl⟩ := preSent_mono (X := X) ⟨q, p, tag⟩ hge
        rw [hl, hs, List.append_assoc, List.getElem?_append_right (Nat.le_refl _), Nat.sub_self] at hval
        rw [hval, hv]; rfl
    · intro hge
      refine ⟨?_, ?_⟩
      · intro q j tag hj
        obtain ⟨v, hv, hst, hs⟩ := key q j tag hj
        rw [hst, ha.sent]
        show _ = (preSent X ⟨q, p, tag⟩ (ρ q + (a.waiting q).toNat))[_]?
        obtain ⟨l, hl⟩ := preSent_mono (X := X) ⟨q, p, tag⟩ (hge q)
        rw [hl, hs, List.append_assoc, List.getElem?_append_right (Nat.le_refl _), Nat.sub_self]
        exact hv
      · intro ch hch
        subst hch
        rw [ha.sent, ha.started, hw]
        show (preSent X ch (ρ ch.src + 1)).length ≤ _
        rw [← hse']
        exact preStarted_mono ch (hge ch.dst)

/-- Number of steps made. -/
def World.steps (ρ : Fin n → Nat) (a : World n V α) : Nat :=
  ((List.finRange n).map fun p => 2 * ρ p + (a.waiting p).toNat).sum

theorem sum_upd {f g : Fin n → Nat} {p : Fin n} (hp : g p = f p + 1) (ho : ∀ q, q ≠ p → g q = f q) :
    ((List.finRange n).map g).sum = ((List.finRange n).map f).sum + 1 := by
  have key : ∀ l : List (Fin n), l.Nodup → (l.map g).sum = (l.map f).sum + if p ∈ l then 1 else 0 := by
    intro l hl
    induction l with
    | nil => rfl
    | cons a l ih =>
      rw [List.nodup_cons] at hl
      rw [List.map_cons, List.map_cons, List.sum_cons, List.sum_cons, ih hl.2]
      by_cases ha : a = p
      · subst ha
        rw [if_neg hl.1, if_pos (List.mem_cons_self ..), hp]; omega
      · rw [ho a ha]
        by_cases hm : p ∈ l
        · rw [if_pos hm, if_pos (List.mem_cons_of_mem _ hm)]; omega
        · rw [if_neg hm, if_neg (by simp only [List.mem_cons, not_or]; exact ⟨fun e => ha e.symm, hm⟩)]; omega
  rw [key _ (List.nodup_finRange n), if_pos (List.mem_finRange p)]

/-- A process returns. -/
theorem World.At.advance {a : World n V α} {ρ : Fin n → Nat} (ha : a.At B X ρ) {p : Fin n}
    (hw : a.waiting p = true) {A : Prog n V α} (hA : X (ρ p + 1) p = A) :
    ∃ ρ', World.At B X ρ' { a with prog := upd a.prog p A, waiting := upd a.waiting p false } ∧
      World.steps ρ' { a with prog := upd a.prog p A, waiting := upd a.waiting p false } = a.steps ρ + 1 ∧
      (∀ q, q ≠ p → ρ' q = ρ q) ∧ ρ' p + (upd a.waiting p false p).toNat ≤ ρ p + 1 := by
  have hsame : ∀ q, upd ρ p (ρ p + 1) q + (upd a.waiting p false q).toNat = ρ q + (a.waiting q).toNat := by
    intro q
    by_cases hq : q = p
    · subst hq
      rw [upd_self, upd_self, hw]; rfl
    · rw [upd_other _ _ hq, upd_other _ _ hq]
  refine ⟨upd ρ p (ρ p + 1), ⟨?_, ?_, ?_, ?_, ?_⟩, ?_, fun q hq => upd_other _ _ hq, ?_⟩
  · intro q
    show upd a.prog p A q = _
    by_cases hq : q = p
    · subst hq
      rw [upd_self, upd_self, hA]
    · rw [upd_other _ _ hq, upd_other _ _ hq]; exact ha.prog q
  · intro q
    show upd ρ p (ρ p + 1) q + (upd a.waiting p false q).toNat ≤ B
    rw [hsame]; exact ha.le q
  · intro q
    show a.given q = preGiven X q (upd ρ p (ρ p + 1) q + (upd a.waiting p false q).toNat)
    rw [hsame]; exact ha.given q
  · intro ch
    show a.sent ch = preSent X ch (upd ρ p (ρ p + 1) ch.src + (upd a.waiting p false ch.src).toNat)
    rw [hsame]; exact ha.sent ch
  · intro ch
    show a.started ch = preStarted X ch (upd ρ p (ρ p + 1) ch.dst + (upd a.waiting p false ch.dst).toNat)
    rw [hsame]; exact ha.started ch
  · apply sum_upd (p := p)
    · show 2 * upd ρ p (ρ p + 1) p + (upd a.waiting p false p).toNat = _
      rw [upd_self, upd_self, hw]
      show 2 * (ρ p + 1) + 0 = 2 * ρ p + 1 + 1
      omega
    · intro q hq
      show 2 * upd ρ p (ρ p + 1) q + (upd a.waiting p false q).toNat = _
      rw [upd_other _ _ hq, upd_other _ _ hq]
  · rw [upd_self, upd_self]
    exact Nat.le_refl _

/-- A process calls the function with which it communicates. -/
theorem World.At.call {a : World n V α} {ρ : Fin n → Nat} (ha : a.At B X ρ) {p : Fin n} (hw : a.waiting p = false)
    (hB : ρ p + 1 ≤ B) {b : World n V α} (hb : b = { a with
        waiting := upd a.waiting p true
        given := upd a.given p (a.given p ++ (a.prog p).given)
        sent := fun ch => if ch.src = p then a.sent ch ++ (a.prog p).sends ch.dst ch.tag else a.sent ch
        started := fun ch => if ch.dst = p then a.started ch + (a.prog p).recvs ch.src ch.tag else a.started ch }) :
    b.At B X ρ ∧ b.steps ρ = a.steps ρ + 1 := by
  subst hb
  refine ⟨⟨ha.prog, ?_, ?_, ?_, ?_⟩, ?_⟩
  · intro q
    by_cases hq : q = p
    · subst hq
      show ρ q + (upd a.waiting q true q).toNat ≤ B
      rw [upd_self]
      exact hB
    · show ρ q + (upd a.waiting p true q).toNat ≤ B
      rw [upd_other _ _ hq]; exact ha.le q
  · intro q
    show upd a.given p _ q = preGiven X q (ρ q + (upd a.waiting p true q).toNat)
    by_cases hq : q = p
    · subst hq
      rw [upd_self, upd_self, ha.given, hw, ha.prog]
      exact (preGiven_succ q (ρ q)).symm
    · rw [upd_other _ _ hq, upd_other _ _ hq]; exact ha.given q
  · intro ch
    show (if ch.src = p then _ else _) = preSent X ch (ρ ch.src + (upd a.waiting p true ch.src).toNat)
    by_cases hq : ch.src = p
    · rw [if_pos hq, ha.sent, hq, hw, upd_self, ha.prog, ← hq]
      exact (preSent_succ ch (ρ ch.src)).symm
    · rw [if_neg hq, upd_other _ _ hq]; exact ha.sent ch
  · intro ch
    show (if ch.dst = p then _ else _) = preStarted X ch (ρ ch.dst + (upd a.waiting p true ch.dst).toNat)
    by_cases hq : ch.dst = p
    · rw [if_pos hq, ha.started, hq, hw, upd_self, ha.prog, ← hq]
      rfl
    · rw [if_neg hq, upd_other _ _ hq]; exact ha.started ch
  · apply sum_upd (p := p)
    · show 2 * ρ p + (upd a.waiting p true p).toNat = _
      rw [upd_self, hw]; rfl
    · intro q hq
      show 2 * ρ q + (upd a.waiting p true q).toNat = _
      rw [upd_other _ _ hq]

/-- A step of a process before communication `T`. -/
theorem World.At.early (h : Steps P T X) {a b : World n V α} {ρ : Fin n → Nat} (ha : a.At B X ρ) (hB : T ≤ B) {p : Fin n}
    (hlt : ρ p < T) {buffered : Bool} (hs : World.Step buffered p a b) :
    ∃ ρ', b.At B X ρ' ∧ b.steps ρ' = a.steps ρ + 1 ∧ (∀ q, q ≠ p → ρ' q = ρ q) ∧
      ρ' p + (b.waiting p).toNat ≤ ρ p + 1 := by
  cases hs with
  | call hw hc =>
    obtain ⟨h1, h2⟩ := ha.call hw (by omega) rfl
    refine ⟨ρ, h1, h2, fun _ _ => rfl, ?_⟩
    show ρ p + (upd a.waiting p true p).toNat ≤ ρ p + 1
    rw [upd_self]
    exact Nat.le_refl _
  | @coll kind known v k x hw hp hk hx hb =>
    obtain ⟨y, hy, hu, -⟩ := ha.coll h hlt hw hp
    obtain rfl := hu x hk hx
    exact ha.advance hw hy
  | @exch S R k x hw hp hl hx ht =>
    obtain ⟨y, hy, -, hu, -⟩ := ha.exch h hlt hw hp
    obtain rfl := hu x hl hx
    exact ha.advance hw hy

/-- Every step leads to a state of the same kind. -/
theorem World.At.step (h : Trace P r T X) {a b : World n V α} {ρ : Fin n → Nat} (ha : a.At T X ρ) {p : Fin n}
    {buffered : Bool} (hs : World.Step buffered p a b) : ∃ ρ', b.At T X ρ' ∧ b.steps ρ' = a.steps ρ + 1 := by
  have hlt : ρ p < T := by
    have h1 := ha.le p
    cases hs with
    | call hw hc =>
      have : ρ p ≠ T := by
        intro e
        rw [ha.prog, e, h.last] at hc
        cases hc
      omega
    | coll hw => rw [hw] at h1; exact h1
    | exch hw => rw [hw] at h1; exact h1
  obtain ⟨ρ', h1, h2, -⟩ := ha.early h.toSteps (Nat.le_refl T) hlt hs
  exact ⟨ρ', h1, h2⟩

theorem exists_min (f : Fin n → Nat) (p0 : Fin n) : ∃ p, ∀ q, f p ≤ f q := by
  have key : ∀ l : List (Fin n), l ≠ [] → ∃ p, ∀ q ∈ l, f p ≤ f q := by
    intro l
    induction l with
    | nil => intro h; exact absurd rfl h
    | cons a l ih =>
      intro _
      by_cases hl : l = []
      · subst hl
        exact ⟨a, fun q hq => by rw [List.mem_singleton.1 hq]; exact Nat.le_refl _⟩
      · obtain ⟨p, hp⟩ := ih hl
        by_cases h : f a ≤ f p
        · refine ⟨a, fun q hq => ?_⟩
          rcases List.mem_cons.1 hq with e | hq
          · rw [e]; exact Nat.le_refl _
          · exact Nat.le_trans h (hp q hq)
        · refine ⟨p, fun q hq => ?_⟩
          rcases List.mem_cons.1 hq with e | hq
          · rw [e]; omega
          · exact hp q hq
  obtain ⟨p, hp⟩ := key (List.finRange n) (List.ne_nil_of_mem (List.mem_finRange p0))
  exact ⟨p, fun q => hp q (List.mem_finRange q)⟩

/-- Some process can continue until all have ended, also if MPI doesn't buffer messages. -/
theorem World.At.progress (h : Steps P T X) {a : World n V α} {ρ : Fin n → Nat} (ha : a.At B X ρ) {p0 : Fin n}
    (h0 : ρ p0 < T) : ∃ p b, World.Step false p a b ∧ ρ p < T := by
  obtain ⟨p, hp⟩ := exists_min (fun q => 2 * ρ q + (a.waiting q).toNat) p0
  cases hw : a.waiting p with
  | false =>
    have hlt : ρ p < T := by
      have h2 : 2 * ρ p + (a.waiting p).toNat ≤ 2 * ρ p0 + (a.waiting p0).toNat := hp p0
      have h1 := Bool.toNat_le (a.waiting p0)
      omega
    refine ⟨p, _, .call hw ?_, hlt⟩
    rw [ha.prog]
    have hst := h.step (ρ p) hlt
    generalize X (ρ p) = A at hst
    generalize X (ρ p + 1) = B at hst
    cases hst <;> rfl
  | true =>
    have hge : ∀ q, ρ p + 1 ≤ ρ q + (a.waiting q).toNat := by
      intro q
      have h2 : 2 * ρ p + (a.waiting p).toNat ≤ 2 * ρ q + (a.waiting q).toNat := hp q
      rw [hw] at h2
      replace h2 : 2 * ρ p + 1 ≤ 2 * ρ q + (a.waiting q).toNat := h2
      have h1 := Bool.toNat_le (a.waiting q)
      omega
    have hlt : ρ p < T := by
      have h2 : 2 * ρ p + (a.waiting p).toNat ≤ 2 * ρ p0 + (a.waiting p0).toNat := hp p0
      rw [hw] at h2
      replace h2 : 2 * ρ p + 1 ≤ 2 * ρ p0 + (a.waiting p0).toNat := h2
      have h1 := Bool.toNat_le (a.waiting p0)
      omega
    cases hx : a.prog p with
    | coll kind known v k =>
      obtain ⟨y, -, -, hk, hy⟩ := ha.coll h hlt hw hx
      refine ⟨p, _, .coll hw hx hk (fun q hn => ?_) fun _ q => ?_, hlt⟩
      · obtain ⟨z, h1, h2⟩ := hy hge q
        rw [h2 hn]; exact h1
      · obtain ⟨z, h1, -⟩ := hy hge q
        exact ⟨z, h1⟩
    | exch S R k =>
      obtain ⟨y, -, hl, -, hy⟩ := ha.exch h hlt hw hx
      exact ⟨p, _, .exch hw hx hl (hy hge).1 (fun _ => (hy hge).2), hlt⟩
    | done x =>
      exfalso
      rw [ha.prog] at hx
      have hst := h.step (ρ p) hlt
      generalize X (ρ p) = A at hst hx
      generalize X (ρ p + 1) = B at hst
      cases hst <;> cases hx
    | fail =>
      exfalso
      rw [ha.prog] at hx
      have hst := h.step (ρ p) hlt
      generalize X (ρ p) = A at hst hx
      generalize X (ρ p + 1) = B at hst
      cases hst <;> cases hx

theorem World.At.run (h : Trace P r T X) {a b : World n V α} {ρ : Fin n → Nat} (ha : a.At T X ρ) {k : Nat}
    (hr : World.Run k a b) : ∃ ρ', b.At T X ρ' ∧ b.steps ρ' = a.steps ρ + k := by
  induction hr with
  | refl => exact ⟨ρ, ha, rfl⟩
  | step _ hs ih =>
    obtain ⟨ρ1, h1, e1⟩ := ih ha
    obtain ⟨ρ2, h2, e2⟩ := h1.step h hs
    exact ⟨ρ2, h2, by omega⟩

end

theorem sum_le {f : Fin n → Nat} {m : Nat} (l : List (Fin n)) (h : ∀ q ∈ l, f q ≤ m) : (l.map f).sum ≤ l.length * m := by
  induction l with
  | nil => exact Nat.zero_le _
  | cons a l ih =>
    rw [List.map_cons, List.sum_cons, List.length_cons, Nat.succ_mul]
    have h1 := h a (List.mem_cons_self ..)
    have h2 := ih fun q hq => h q (List.mem_cons_of_mem _ hq)
    omega

theorem sum_eq {f : Fin n → Nat} {m : Nat} (l : List (Fin n)) (h : ∀ q ∈ l, f q ≤ m) (he : (l.map f).sum = l.length * m) :
    ∀ q ∈ l, f q = m := by
  induction l with
  | nil => intro q hq; cases hq
  | cons a l ih =>
    rw [List.map_cons, List.sum_cons, List.length_cons, Nat.succ_mul] at he
    have h1 := h a (List.mem_cons_self ..)
    have h2 := sum_le l fun q hq => h q (List.mem_cons_of_mem _ hq)
    intro q hq
    rcases List.mem_cons.1 hq with e | hq
    · rw [e]; omega
    · exact ih (fun q hq => h q (List.mem_cons_of_mem _ hq)) (by omega) q hq

/-- If processes that communicate at the same time end with results `r` then so does every execution: there is a number of
steps after which every execution has ended with these results, and until then some process can continue, also without
buffering. Whoever has ended has done so with its result in `r`, and no process fails. -/
theorem Lock.schedule {P : Fin n → Prog n V α} {r : Fin n → α} (h : Lock P r) :
    ∃ K, ∀ k b, World.Run k (World.init P) b → k ≤ K ∧ (k = K → ∀ p, b.prog p = .done (r p)) ∧
      (k < K → ∃ p c, World.Step false p b c) ∧ (∀ p a, b.prog p = .done a → a = r p) ∧ ∀ p, b.prog p ≠ .fail := by
  obtain ⟨T, X, ht⟩ := h.trace
  refine ⟨n * (2 * T), ?_⟩
  intro k b hr
  obtain ⟨ρ, ha, hk⟩ := ht.init.run ht hr
  have h0 : (World.init P).steps (fun _ => 0) = 0 := by
    have := sum_le (f := fun p => 2 * 0 + ((World.init P).waiting p).toNat) (m := 0) (List.finRange n)
      (fun q _ => Nat.le_refl _)
    simpa [World.steps] using this
  rw [h0, Nat.zero_add] at hk
  have hb : ∀ q ∈ List.finRange n, 2 * ρ q + (b.waiting q).toNat ≤ 2 * T := by
    intro q _
    have := ha.le q
    omega
  have hle := sum_le (List.finRange n) hb
  rw [List.length_finRange] at hle
  have hend : ∀ p a, b.prog p = .done a → ρ p = T := by
    intro p a he
    apply Classical.byContradiction
    intro hne
    have hlt : ρ p < T := by have := ha.le p; omega
    rw [ha.prog] at he
    have hst := ht.step (ρ p) hlt
    generalize X (ρ p) = A at hst he
    generalize X (ρ p + 1) = B at hst
    cases hst <;> cases he
  refine ⟨by rw [← hk]; exact hle, ?_, ?_, ?_, ?_⟩
  · intro e p
    have := sum_eq (List.finRange n) hb (by rw [List.length_finRange, ← e]; exact hk) p (List.mem_finRange p)
    have h1 := Bool.toNat_le (b.waiting p)
    have h2 := ha.le p
    have h3 : ρ p = T := by omega
    rw [ha.prog, h3, ht.last]
  · intro hlt
    apply Classical.byContradiction
    intro hn
    have hall : ∀ q, 2 * ρ q + (b.waiting q).toNat = 2 * T := by
      intro q
      have h2 := ha.le q
      have : ¬ ρ q < T := fun hq => by
        obtain ⟨p, c, hs, -⟩ := ha.progress ht.toSteps hq
        exact hn ⟨p, c, hs⟩
      omega
    have : ((List.finRange n).map fun q => 2 * ρ q + (b.waiting q).toNat).sum = n * (2 * T) := by
      rw [List.map_congr_left fun q _ => hall q, List.map_const', List.sum_replicate_nat, List.length_finRange]
    have hk' : _ = k := hk
    unfold World.steps at hk'
    omega
  · intro p a he
    have := hend p a he
    rw [ha.prog, this, ht.last] at he
    injection he with he
    exact he.symm
  · intro p he
    have h2 := ha.le p
    by_cases e : ρ p = T
    · rw [ha.prog, e, ht.last] at he; cases he
    · rw [ha.prog] at he
      have hst := ht.step (ρ p) (by omega)
      generalize X (ρ p) = A at hst he
      generalize X (ρ p + 1) = B at hst
      cases hst <;> cases he

end Dccrg
