import Verif.Props.Split
/-!
# Calculating while data of remote neighbors is on its way

Model of the loop for which split-phase updates and iterators over inner and outer cells exist
(examples/game_of_life.cpp:125-145): every process starts an update, handles cells without neighbors on other processes,
waits for receives, handles its other cells, and changes those only after waiting for sends. Processes proceed at their
own pace and messages arrive in any order, see `Verif/Async.lean`.
-/
namespace Dccrg
variable {n : Nat} {D K : Type}

/-- What a process does next: start or wait for an update, calculate something from neighbors of a cell, change data of a
cell. -/
inductive Instr where
  | startRecvs
  | startSends
  | waitRecvs
  | waitSends
  | count (c : Nat)
  | change (c : Nat)

/-- One turn (examples/game_of_life.cpp:129-144). -/
def turnOf (inner outer : List Nat) : List Instr :=
  [.startRecvs, .startSends] ++ inner.map .count ++ [.waitRecvs] ++ outer.map .count ++ inner.map .change ++
  [.waitSends] ++ outer.map .change

/-- Some number of turns (examples/game_of_life.cpp:125). -/
def turnsOf (inner outer : List Nat) : Nat → List Instr
  | 0 => []
  | k + 1 => turnOf inner outer ++ turnsOf inner outer k

/-- What does not change in the loop: lists of cells to send and receive, cells of every process, their neighbors, inner
and outer cells, what is calculated from neighbors (examples/game_of_life.cpp:53-66) and how a cell changes
(examples/game_of_life.cpp:72-80). -/
structure Loop (n : Nat) (D K : Type) where
  single : Bool
  sends : Nat → Fin n → Fin n → List Nat
  recvs : Nat → Fin n → Fin n → List Nat
  dflt : D
  mine : Fin n → Nat → Bool
  nbrs : Fin n → Nat → List (Nat × V3 Int)
  inner : Fin n → List Nat
  outer : Fin n → List Nat
  count : Nat → List ((Nat × V3 Int) × Option D) → K
  rule : Nat → D → K → D

/-- State of all processes and of MPI: data and copies, what has been calculated for cells but is not sent
(`live_neighbor_count`, examples/game_of_life.cpp:26), what processes still have to do. -/
structure Game (n : Nat) (D K : Type) where
  a : Async n D
  kept : Fin n → Nat → K
  todo : Fin n → List Instr

/-- Data of a cell that a process sees through `neighbor.data`. -/
def Loop.see (o : Loop n D K) (a : Async n D) (i : Fin n) (c : Nat) : Option D :=
  if o.mine i c then some (a.data i c) else a.copy i c

/-- What a process calculates from neighbors (examples/game_of_life.cpp:53-66). -/
def Loop.value (o : Loop n D K) (a : Async n D) (i : Fin n) (c : Nat) : K :=
  o.count c ((o.nbrs i c).map fun x => (x, o.see a i x.1))

/-- Calls to dccrg and changes of data. -/
def Loop.event (o : Loop n D K) (x : Game n D K) (i : Fin n) : Instr → Option (Event n D)
  | .startRecvs => some (.startRecvs i)
  | .startSends => some (.startSends i)
  | .waitRecvs => some (.waitRecvs i)
  | .waitSends => some (.waitSends i)
  | .count _ => none
  | .change c => some (.write i c (o.rule c (x.a.data i c) (x.kept i c)))

/-- MPI or one of the processes does something. -/
inductive Loop.Step (o : Loop n D K) : Game n D K → Game n D K → Prop
  | mpi {x : Game n D K} {b : Async n D} (e : Event n D) (he : e.OfMpi)
      (h : Async.Step o.single o.sends o.recvs o.dflt e x.a b) : Step o x { x with a := b }
  | call {x : Game n D K} {b : Async n D} (i : Fin n) {t : Instr} {l : List Instr} {e : Event n D}
      (ht : x.todo i = t :: l) (he : o.event x i t = some e)
      (h : Async.Step o.single o.sends o.recvs o.dflt e x.a b) :
      Step o x { x with a := b, todo := upd x.todo i l }
  | count {x : Game n D K} (i : Fin n) {c : Nat} {l : List Instr} (ht : x.todo i = .count c :: l) :
      Step o x { x with
        kept := upd x.kept i fun y => if y = c then o.value x.a i c else x.kept i y
        todo := upd x.todo i l }

/-- Any number of steps. -/
inductive Loop.Run (o : Loop n D K) : Game n D K → Game n D K → Prop
  | refl (x : Game n D K) : Run o x x
  | step {x y z : Game n D K} : Run o x y → o.Step y z → Run o x z

/-- All processes begin `T` turns. -/
def Loop.start (o : Loop n D K) (a : Async n D) (kept : Fin n → Nat → K) (T : Nat) : Game n D K where
  a := a
  kept := kept
  todo i := turnsOf (o.inner i) (o.outer i) T

/-! ## Parts of a turn -/

section
variable (inner outer : List Nat)

def part5 (k : Nat) (l : List Nat) : List Instr := l.map .change ++ turnsOf inner outer k
def part4 (k : Nat) (l : List Nat) : List Instr := l.map .change ++ .waitSends :: part5 inner outer k outer
def part3 (k : Nat) (l : List Nat) : List Instr := l.map .count ++ part4 inner outer k inner
def part2 (k : Nat) (l : List Nat) : List Instr := l.map .count ++ .waitRecvs :: part3 inner outer k outer

theorem turnsOf_succ (k : Nat) :
    turnsOf inner outer (k + 1) = .startRecvs :: .startSends :: part2 inner outer k inner := by
  unfold turnsOf turnOf part2 part3 part4 part5
  simp
end

/-- What is required of cells and their neighbors. -/
structure Loop.Ok (o : Loop n D K) (U : Nat → Nat → Option D) : Prop where
  rounds : RoundsMatch o.sends o.recvs
  inner : ∀ i c, c ∈ o.inner i → o.mine i c = true ∧ (∀ x ∈ o.nbrs i c, o.mine i x.1 = true) ∧
    ∀ r q, c ∉ o.sends r i q
  outer : ∀ i c, c ∈ o.outer i → o.mine i c = true ∧ c ∉ o.inner i ∧
    ∀ x ∈ o.nbrs i c, o.mine i x.1 = true ∨ o.mine i x.1 = false ∧ ∃ p, o.mine p x.1 = true ∧ ∀ r, x.1 ∈ o.recvs r i p
  all : ∀ i c, o.mine i c = true → c ∈ o.inner i ∨ c ∈ o.outer i
  innerOnce : ∀ i, (o.inner i).Nodup
  outerOnce : ∀ i, (o.outer i).Nodup
  next : ∀ i c r d, o.mine i c = true → U r c = some d →
    U (r + 1) c = some (o.rule c d (o.count c ((o.nbrs i c).map fun x => (x, U r x.1))))

/-- Where a process is in its loop: numbers of sends and receives that it has started and waited for, its data and
calculated values. -/
inductive Spot (inner outer : List Nat) (mine : Nat → Bool) (U : Nat → Nat → Option D) (N : Nat → Nat → K) (T : Nat)
    (data : Nat → D) (kept : Nat → K) (ss sd rs rd : Nat) : List Instr → Prop
  | turn (r k : Nat) (hT : r + k = T) (e1 : ss = r) (e2 : sd = r) (e3 : rs = r) (e4 : rd = r)
      (hd : ∀ c, mine c = true → some (data c) = U r c) :
      Spot inner outer mine U N T data kept ss sd rs rd (turnsOf inner outer k)
  | sends (r k : Nat) (hT : r + (k + 1) = T) (e1 : ss = r) (e2 : sd = r) (e3 : rs = r + 1) (e4 : rd = r)
      (hd : ∀ c, mine c = true → some (data c) = U r c) :
      Spot inner outer mine U N T data kept ss sd rs rd (.startSends :: part2 inner outer k inner)
  | inner (r k : Nat) (l' l : List Nat) (hl : inner = l' ++ l) (hT : r + (k + 1) = T)
      (e1 : ss = r + 1) (e2 : sd = r) (e3 : rs = r + 1) (e4 : rd = r)
      (hd : ∀ c, mine c = true → some (data c) = U r c) (hk : ∀ c ∈ l', kept c = N r c) :
      Spot inner outer mine U N T data kept ss sd rs rd (part2 inner outer k l)
  | outer (r k : Nat) (l' l : List Nat) (hl : outer = l' ++ l) (hT : r + (k + 1) = T)
      (e1 : ss = r + 1) (e2 : sd = r) (e3 : rs = r + 1) (e4 : rd = r + 1)
      (hd : ∀ c, mine c = true → some (data c) = U r c) (hk : ∀ c, c ∈ inner ∨ c ∈ l' → kept c = N r c) :
      Spot inner outer mine U N T data kept ss sd rs rd (part3 inner outer k l)
  | change (r k : Nat) (l' l : List Nat) (hl : inner = l' ++ l) (hT : r + (k + 1) = T)
      (e1 : ss = r + 1) (e2 : sd = r) (e3 : rs = r + 1) (e4 : rd = r + 1)
      (hd : ∀ c, mine c = true → some (data c) = if c ∈ l' then U (r + 1) c else U r c)
      (hk : ∀ c, c ∈ inner ∨ c ∈ outer → kept c = N r c) :
      Spot inner outer mine U N T data kept ss sd rs rd (part4 inner outer k l)
  | last (r k : Nat) (l' l : List Nat) (hl : outer = l' ++ l) (hT : r + (k + 1) = T)
      (e1 : ss = r + 1) (e2 : sd = r + 1) (e3 : rs = r + 1) (e4 : rd = r + 1)
      (hd : ∀ c, mine c = true → some (data c) = if c ∈ inner ∨ c ∈ l' then U (r + 1) c else U r c)
      (hk : ∀ c, c ∈ inner ∨ c ∈ outer → kept c = N r c) :
      Spot inner outer mine U N T data kept ss sd rs rd (part5 inner outer k l)

/-- Values calculated from neighbors when data of cells is given by `U`. -/
def Loop.wanted (o : Loop n D K) (U : Nat → Nat → Option D) (i : Fin n) (r c : Nat) : K :=
  o.count c ((o.nbrs i c).map fun x => (x, U r x.1))

/-- Where process `i` is. -/
def Loop.Where (o : Loop n D K) (U : Nat → Nat → Option D) (T : Nat) (x : Game n D K) (i : Fin n) : Prop :=
  Spot (o.inner i) (o.outer i) (o.mine i) U (o.wanted U i) T (x.a.data i) (x.kept i) (x.a.sendsStarted i)
    (x.a.sendsDone i) (x.a.recvsStarted i) (x.a.recvsDone i) (x.todo i)

/-- Invariant of the loop. -/
def Loop.Inv (o : Loop n D K) (U : Nat → Nat → Option D) (T : Nat) (x : Game n D K) : Prop :=
  (∃ snap m, x.a.Good o.single o.sends o.recvs snap m ∧
    ∀ r p c, o.mine p c = true → r < x.a.sendsStarted p → some (snap r p c) = U r c) ∧
  ∀ i, o.Where U T x i

theorem Loop.start_inv {o : Loop n D K} {U : Nat → Nat → Option D} {a : Async n D} (ha : a.Idle)
    (hd : ∀ i c, o.mine i c = true → some (a.data i c) = U 0 c) (kept : Fin n → Nat → K) (T : Nat) :
    o.Inv U T (o.start a kept T) := by
  refine ⟨⟨fun _ _ _ => o.dflt, _, ha.good, fun r p c _ h => ?_⟩, fun i => ?_⟩
  · have h : r < a.sendsStarted p := h
    rw [ha.sendsStarted] at h
    omega
  · exact .turn 0 T (by omega) (ha.sendsStarted i) (ha.sendsDone i) (ha.recvsStarted i) (ha.recvsDone i) (hd i)

section
variable {o : Loop n D K} {U : Nat → Nat → Option D} {T : Nat} {x y : Game n D K}

theorem some_kept {o : Loop n D K} (hO : o.Ok U) {i : Fin n} {r c : Nat} {d : D} {v : K} (hm : o.mine i c = true)
    (hd : some d = U r c) (hv : v = o.wanted U i r c) : some (o.rule c d v) = U (r + 1) c := by
  rw [hO.next i c r d hm hd.symm, hv]
  rfl

/-- Inner cells see data of their turn. -/
theorem value_inner (hO : o.Ok U) {a : Async n D} {i : Fin n} {r c : Nat} (hc : c ∈ o.inner i)
    (hd : ∀ c, o.mine i c = true → some (a.data i c) = U r c) : o.value a i c = o.wanted U i r c := by
  unfold Loop.value Loop.wanted
  congr 1
  refine List.map_congr_left fun x hx => ?_
  have := (hO.inner i c hc).2.1 x hx
  unfold Loop.see
  rw [if_pos this, hd _ this]

/-- Outer cells see data of their turn. -/
theorem value_outer (hO : o.Ok U) {a : Async n D} {i : Fin n} {r c : Nat} (hc : c ∈ o.outer i)
    (hd : ∀ c, o.mine i c = true → some (a.data i c) = U r c) {snap : Nat → Fin n → Nat → D} {m : Chan n → Nat}
    (hG : a.Good o.single o.sends o.recvs snap m)
    (hS : ∀ r p c, o.mine p c = true → r < a.sendsStarted p → some (snap r p c) = U r c)
    (e3 : a.recvsStarted i = r + 1) (e4 : a.recvsDone i = r + 1) : o.value a i c = o.wanted U i r c := by
  unfold Loop.value Loop.wanted
  congr 1
  refine List.map_congr_left fun x hx => ?_
  unfold Loop.see
  rcases (hO.outer i c hc).2.2 x hx with h | ⟨h, p, hp, hr⟩
  · rw [if_pos h, hd _ h]
  · rw [if_neg (by rw [h]; decide)]
    have hlt : r < a.recvsDone i := by rw [e4]; omega
    rw [hG.copied hO.rounds hlt (hr r) (fun r' p' h1 h2 => by omega),
      hS r p x.1 hp (hG.sent hO.rounds hlt (hr r))]

/-- Steps of MPI change nothing that processes know. -/
theorem ofMpi_same {a b : Async n D} {e : Event n D} (he : e.OfMpi)
    (h : Async.Step o.single o.sends o.recvs o.dflt e a b) : b.data = a.data ∧ b.sendsStarted = a.sendsStarted ∧
      b.sendsDone = a.sendsDone ∧ b.recvsStarted = a.recvsStarted ∧ b.recvsDone = a.recvsDone := by
  cases h with
  | buffer => exact ⟨rfl, rfl, rfl, rfl, rfl⟩
  | deliver => exact ⟨rfl, rfl, rfl, rfl, rfl⟩
  | _ => exact absurd he id

theorem snap_ofMpi {a : Async n D} {snap : Nat → Fin n → Nat → D} {e : Event n D} (he : e.OfMpi) :
    e.snap a snap = snap := by
  cases e <;> first | rfl | exact absurd he id

theorem Loop.step_inv (hO : o.Ok U) (hI : o.Inv U T x) (h : o.Step x y) : o.Inv U T y := by
  obtain ⟨⟨snap, m, hG, hS⟩, hW⟩ := hI
  cases h with
  | @mpi b e he h =>
    obtain ⟨m', hG'⟩ := hG.step hO.rounds h
    obtain ⟨e1, e2, e3, e4, e5⟩ := ofMpi_same he h
    rw [snap_ofMpi he] at hG'
    refine ⟨⟨snap, m', hG', fun r p c => by show _ → r < b.sendsStarted p → _; rw [e2]; exact hS r p c⟩, fun i => ?_⟩
    show Spot _ _ _ _ _ _ (b.data i) (x.kept i) (b.sendsStarted i) (b.sendsDone i) (b.recvsStarted i) (b.recvsDone i) _
    rw [e1, e2, e3, e4, e5]
    exact hW i
  | @count i c l ht =>
    refine ⟨⟨snap, m, hG, hS⟩, fun j => ?_⟩
    show Spot _ _ _ _ _ _ (x.a.data j) (upd x.kept i _ j) (x.a.sendsStarted j) (x.a.sendsDone j) (x.a.recvsStarted j)
      (x.a.recvsDone j) (upd x.todo i l j)
    by_cases hj : j = i
    · subst hj
      rw [upd_self, upd_self]
      have hw := hW j
      unfold Loop.Where at hw
      generalize htt : x.todo j = t at hw
      rw [ht] at htt
      cases hw with
      | turn r k =>
        cases k with
        | zero => cases htt
        | succ k => rw [turnsOf_succ] at htt; cases htt
      | sends => cases htt
      | inner r k l' l2 hl hT e1 e2 e3 e4 hd hk =>
        cases l2 with
        | nil => cases htt
        | cons c2 l2 =>
          injection htt with h1 h2
          injection h1 with h1
          subst h1; subst h2
          refine .inner r k (l' ++ [c]) l2 (by rw [hl]; simp) hT e1 e2 e3 e4 hd (fun c' hc' => ?_)
          show (if c' = c then _ else _) = _
          split
          · next e =>
            subst e
            exact value_inner hO (by rw [hl]; simp) hd
          · next e =>
            rcases List.mem_append.1 hc' with h | h
            · exact hk c' h
            · exact absurd (List.mem_singleton.1 h) e
      | outer r k l' l2 hl hT e1 e2 e3 e4 hd hk =>
        cases l2 with
        | nil =>
          exfalso
          unfold part3 part4 at htt
          cases hin : o.inner j with
          | nil => rw [hin] at htt; cases htt
          | cons => rw [hin] at htt; cases htt
        | cons c2 l2 =>
          injection htt with h1 h2
          injection h1 with h1
          subst h1; subst h2
          refine .outer r k (l' ++ [c]) l2 (by rw [hl]; simp) hT e1 e2 e3 e4 hd (fun c' hc' => ?_)
          show (if c' = c then _ else _) = _
          split
          · next e =>
            subst e
            exact value_outer hO (by rw [hl]; simp) hd hG hS e3 e4
          · next e =>
            rcases hc' with h | h
            · exact hk c' (Or.inl h)
            · rcases List.mem_append.1 h with h | h
              · exact hk c' (Or.inr h)
              · exact absurd (List.mem_singleton.1 h) e
      | change r k l' l2 =>
        exfalso
        cases l2 with
        | nil => cases htt
        | cons => cases htt
      | last r k l' l2 =>
        exfalso
        cases l2 with
        | nil =>
          cases k with
          | zero => cases htt
          | succ k => unfold part5 at htt; rw [turnsOf_succ] at htt; cases htt
        | cons => cases htt
    · rw [upd_other _ _ hj, upd_other _ _ hj]
      exact hW j
  | @call b i t l e ht he h =>
    obtain ⟨m', hG'⟩ := hG.step hO.rounds h
    have key : (∀ j, j ≠ i → b.data j = x.a.data j ∧ b.sendsStarted j = x.a.sendsStarted j ∧
        b.sendsDone j = x.a.sendsDone j ∧ b.recvsStarted j = x.a.recvsStarted j ∧ b.recvsDone j = x.a.recvsDone j) ∧
        Spot (o.inner i) (o.outer i) (o.mine i) U (o.wanted U i) T (b.data i) (x.kept i) (b.sendsStarted i)
          (b.sendsDone i) (b.recvsStarted i) (b.recvsDone i) l ∧
        ∀ r p c, o.mine p c = true → r < b.sendsStarted p → some (e.snap x.a snap r p c) = U r c := by
      have hw := hW i
      unfold Loop.Where at hw
      generalize htt : x.todo i = tt at hw
      rw [ht] at htt
      cases t with
      | startRecvs =>
        injection he with he
        subst he
        cases h
        refine ⟨fun j hj => ⟨rfl, rfl, rfl, upd_other _ _ hj, rfl⟩, ?_, hS⟩
        show Spot _ _ _ _ _ _ (x.a.data i) _ (x.a.sendsStarted i) (x.a.sendsDone i)
          (upd x.a.recvsStarted i (x.a.recvsStarted i + 1) i) (x.a.recvsDone i) _
        rw [upd_self]
        cases hw with
        | turn r k hT e1 e2 e3 e4 hd =>
          cases k with
          | zero => cases htt
          | succ k =>
            rw [turnsOf_succ] at htt
            injection htt with _ h2
            subst h2
            exact .sends r k hT e1 e2 (by omega) e4 hd
        | sends => cases htt
        | inner r k l' l2 => cases l2 <;> cases htt
        | outer r k l' l2 =>
          exfalso
          cases l2 with
          | nil => unfold part3 part4 at htt; cases hin : o.inner i <;> (rw [hin] at htt; cases htt)
          | cons => cases htt
        | change r k l' l2 => cases l2 <;> cases htt
        | last r k l' l2 hl hT e1 e2 e3 e4 hd hk =>
          cases l2 with
          | cons => cases htt
          | nil =>
            cases k with
            | zero => cases htt
            | succ k =>
              unfold part5 at htt
              rw [turnsOf_succ] at htt
              injection htt with _ h2
              subst h2
              refine .sends (r + 1) k (by omega) e1 e2 (by omega) e4 (fun c hc => ?_)
              rw [hd c hc, if_pos]
              rcases hO.all i c hc with h | h
              · exact Or.inl h
              · rw [hl, List.append_nil] at h; exact Or.inr h
      | startSends =>
        injection he with he
        subst he
        cases h
        cases hw with
        | turn r k =>
          cases k with
          | zero => cases htt
          | succ k => rw [turnsOf_succ] at htt; cases htt
        | sends r k hT e1 e2 e3 e4 hd =>
          injection htt with _ h2
          subst h2
          refine ⟨fun j hj => ⟨rfl, upd_other _ _ hj, rfl, rfl, rfl⟩, ?_, fun r' p c hc hr => ?_⟩
          · show Spot _ _ _ _ _ _ (x.a.data i) _ (upd x.a.sendsStarted i (x.a.sendsStarted i + 1) i) (x.a.sendsDone i)
              (x.a.recvsStarted i) (x.a.recvsDone i) _
            rw [upd_self]
            exact .inner r k [] _ rfl hT (by omega) e2 e3 e4 hd (fun c hc => by cases hc)
          · have hr : r' < upd x.a.sendsStarted i (x.a.sendsStarted i + 1) p := hr
            show some (if p = i ∧ r' = x.a.sendsStarted i then _ else _) = _
            split
            · next e => obtain ⟨e, e'⟩ := e; subst e; rw [e', e1]; exact hd c hc
            · next e =>
              refine hS r' p c hc ?_
              by_cases hp : p = i
              · subst hp; rw [upd_self] at hr
                have : r' ≠ x.a.sendsStarted p := fun h => e ⟨rfl, h⟩
                omega
              · rwa [upd_other _ _ hp] at hr
        | inner r k l' l2 => cases l2 <;> cases htt
        | outer r k l' l2 =>
          exfalso
          cases l2 with
          | nil => unfold part3 part4 at htt; cases hin : o.inner i <;> (rw [hin] at htt; cases htt)
          | cons => cases htt
        | change r k l' l2 => cases l2 <;> cases htt
        | last r k l' l2 =>
          exfalso
          cases l2 with
          | nil =>
            cases k with
            | zero => cases htt
            | succ k => unfold part5 at htt; rw [turnsOf_succ] at htt; cases htt
          | cons => cases htt
      | waitRecvs =>
        injection he with he
        subst he
        cases h
        refine ⟨fun j hj => ⟨rfl, rfl, rfl, rfl, upd_other _ _ hj⟩, ?_, hS⟩
        show Spot _ _ _ _ _ _ (x.a.data i) _ (x.a.sendsStarted i) (x.a.sendsDone i)
          (x.a.recvsStarted i) (upd x.a.recvsDone i (x.a.recvsStarted i) i) _
        rw [upd_self]
        cases hw with
        | turn r k =>
          cases k with
          | zero => cases htt
          | succ k => rw [turnsOf_succ] at htt; cases htt
        | sends => cases htt
        | inner r k l' l2 hl hT e1 e2 e3 e4 hd hk =>
          cases l2 with
          | cons => cases htt
          | nil =>
            injection htt with _ h2
            subst h2
            refine .outer r k [] _ rfl hT e1 e2 e3 e3 hd (fun c hc => ?_)
            rcases hc with h | h
            · rw [hl, List.append_nil] at h; exact hk c h
            · cases h
        | outer r k l' l2 =>
          exfalso
          cases l2 with
          | nil => unfold part3 part4 at htt; cases hin : o.inner i <;> (rw [hin] at htt; cases htt)
          | cons => cases htt
        | change r k l' l2 => cases l2 <;> cases htt
        | last r k l' l2 =>
          exfalso
          cases l2 with
          | nil =>
            cases k with
            | zero => cases htt
            | succ k => unfold part5 at htt; rw [turnsOf_succ] at htt; cases htt
          | cons => cases htt
      | waitSends =>
        injection he with he
        subst he
        cases h
        refine ⟨fun j hj => ⟨rfl, rfl, upd_other _ _ hj, rfl, rfl⟩, ?_, hS⟩
        show Spot _ _ _ _ _ _ (x.a.data i) _ (x.a.sendsStarted i) (upd x.a.sendsDone i (x.a.sendsStarted i) i)
          (x.a.recvsStarted i) (x.a.recvsDone i) _
        rw [upd_self]
        have finish : ∀ (r k : Nat) (l' : List Nat), o.inner i = l' → r + (k + 1) = T → x.a.sendsStarted i = r + 1 →
            x.a.recvsStarted i = r + 1 → x.a.recvsDone i = r + 1 →
            (∀ c, o.mine i c = true → some (x.a.data i c) = if c ∈ l' then U (r + 1) c else U r c) →
            (∀ c, c ∈ o.inner i ∨ c ∈ o.outer i → x.kept i c = o.wanted U i r c) →
            Spot (o.inner i) (o.outer i) (o.mine i) U (o.wanted U i) T (x.a.data i) (x.kept i) (x.a.sendsStarted i)
              (x.a.sendsStarted i) (x.a.recvsStarted i) (x.a.recvsDone i) (part5 (o.inner i) (o.outer i) k (o.outer i)) := by
          intro r k l' hl hT e1 e3 e4 hd hk
          refine .last r k [] _ rfl hT e1 e1 e3 e4 (fun c hc => ?_) hk
          rw [hd c hc, hl]
          simp
        cases hw with
        | turn r k =>
          cases k with
          | zero => cases htt
          | succ k => rw [turnsOf_succ] at htt; cases htt
        | sends => cases htt
        | inner r k l' l2 => cases l2 <;> cases htt
        | outer r k l' l2 hl hT e1 e2 e3 e4 hd hk =>
          cases l2 with
          | nil =>
            cases hin : o.inner i with
            | nil =>
              have h2 : l = part5 (o.inner i) (o.outer i) k (o.outer i) := by
                unfold part3 part4 at htt
                have hin' := hin
                revert htt
                generalize part5 (o.inner i) (o.outer i) k (o.outer i) = z
                rw [hin]
                intro htt
                injection htt
              rw [← hin, h2]
              refine finish r k [] hin hT e1 e3 e4 (fun c hc => ?_) (fun c hc => ?_)
              · rw [if_neg (by simp)]; exact hd c hc
              · rw [hl, List.append_nil] at hc; exact hk c hc
            | cons =>
              exfalso
              unfold part3 part4 at htt
              rw [hin] at htt; cases htt
          | cons => cases htt
        | change r k l' l2 hl hT e1 e2 e3 e4 hd hk =>
          cases l2 with
          | cons => cases htt
          | nil =>
            injection htt with _ h2
            subst h2
            exact finish r k l' (by rw [hl, List.append_nil]) hT e1 e3 e4 hd hk
        | last r k l' l2 =>
          exfalso
          cases l2 with
          | nil =>
            cases k with
            | zero => cases htt
            | succ k => unfold part5 at htt; rw [turnsOf_succ] at htt; cases htt
          | cons => cases htt
      | count c => cases he
      | change c =>
        injection he with he
        subst he
        cases h
        refine ⟨fun j hj => ⟨upd_other _ _ hj, rfl, rfl, rfl, rfl⟩, ?_, hS⟩
        show Spot _ _ _ _ _ _ (upd x.a.data i _ i) _ (x.a.sendsStarted i) (x.a.sendsDone i)
          (x.a.recvsStarted i) (x.a.recvsDone i) _
        rw [upd_self]
        have first : ∀ (r k : Nat) (l' l2 : List Nat), o.inner i = l' ++ c :: l2 → r + (k + 1) = T →
            x.a.sendsStarted i = r + 1 → x.a.sendsDone i = r → x.a.recvsStarted i = r + 1 → x.a.recvsDone i = r + 1 →
            (∀ c, o.mine i c = true → some (x.a.data i c) = if c ∈ l' then U (r + 1) c else U r c) →
            (∀ c, c ∈ o.inner i ∨ c ∈ o.outer i → x.kept i c = o.wanted U i r c) →
            Spot (o.inner i) (o.outer i) (o.mine i) U (o.wanted U i) T
              (fun y => if y = c then o.rule c (x.a.data i c) (x.kept i c) else x.a.data i y) (x.kept i) (x.a.sendsStarted i)
              (x.a.sendsDone i) (x.a.recvsStarted i) (x.a.recvsDone i) (part4 (o.inner i) (o.outer i) k l2) := by
          intro r k l' l2 hl hT e1 e2 e3 e4 hd hk
          refine .change r k (l' ++ [c]) l2 (by rw [hl]; simp) hT e1 e2 e3 e4 (fun y hy => ?_) hk
          have hcl : c ∉ l' := by
            have := hO.innerOnce i
            rw [hl, List.nodup_append] at this
            exact fun h => this.2.2 c h c (List.mem_cons_self ..) rfl
          have hci : c ∈ o.inner i := by rw [hl]; simp
          show some (if y = c then _ else _) = _
          by_cases hyc : y = c
          · subst hyc
            rw [if_pos rfl, if_pos (by simp)]
            refine some_kept hO hy ?_ (hk y (Or.inl hci))
            rw [hd y hy, if_neg hcl]
          · rw [if_neg hyc, hd y hy]
            simp [hyc]
        cases hw with
        | turn r k =>
          cases k with
          | zero => cases htt
          | succ k => rw [turnsOf_succ] at htt; cases htt
        | sends => cases htt
        | inner r k l' l2 => cases l2 <;> cases htt
        | outer r k l' l2 hl hT e1 e2 e3 e4 hd hk =>
          cases l2 with
          | nil =>
            cases hin : o.inner i with
            | nil =>
              exfalso
              unfold part3 part4 at htt
              rw [hin] at htt; cases htt
            | cons c2 l3 =>
              have h2 : c = c2 ∧ l = part4 (o.inner i) (o.outer i) k l3 := by
                unfold part3 at htt
                have : part4 (o.inner i) (o.outer i) k (o.inner i) = .change c2 :: part4 (o.inner i) (o.outer i) k l3 := by
                  unfold part4
                  generalize part5 (o.inner i) (o.outer i) k (o.outer i) = z
                  rw [hin]
                  rfl
                rw [List.map_nil, List.nil_append, this] at htt
                injection htt with h1 h2
                injection h1 with h1
                exact ⟨h1, h2⟩
              obtain ⟨h1, h2⟩ := h2
              subst h1
              rw [← hin, h2]
              refine first r k [] l3 hin hT e1 e2 e3 e4 (fun c hc => ?_) (fun c hc => ?_)
              · rw [if_neg (by simp)]; exact hd c hc
              · rw [hl, List.append_nil] at hc; exact hk c hc
          | cons => cases htt
        | change r k l' l2 hl hT e1 e2 e3 e4 hd hk =>
          cases l2 with
          | nil => cases htt
          | cons c2 l2 =>
            injection htt with h1 h2
            injection h1 with h1
            subst h1; subst h2
            exact first r k l' l2 hl hT e1 e2 e3 e4 hd hk
        | last r k l' l2 hl hT e1 e2 e3 e4 hd hk =>
          cases l2 with
          | nil =>
            exfalso
            cases k with
            | zero => cases htt
            | succ k => unfold part5 at htt; rw [turnsOf_succ] at htt; cases htt
          | cons c2 l2 =>
            injection htt with h1 h2
            injection h1 with h1
            subst h1; subst h2
            refine .last r k (l' ++ [c]) l2 (by rw [hl]; simp) hT e1 e2 e3 e4 (fun y hy => ?_) hk
            have hcl : c ∉ l' := by
              have := hO.outerOnce i
              rw [hl, List.nodup_append] at this
              exact fun h => this.2.2 c h c (List.mem_cons_self ..) rfl
            have hco : c ∈ o.outer i := by rw [hl]; simp
            show some (if y = c then _ else _) = _
            by_cases hyc : y = c
            · subst hyc
              rw [if_pos rfl, if_pos (by simp)]
              refine some_kept hO hy ?_ (hk y (Or.inr hco))
              rw [hd y hy, if_neg]
              rintro (h | h)
              · exact (hO.outer i y hco).2.1 h
              · exact hcl h
            · rw [if_neg hyc, hd y hy]
              simp [hyc]
    obtain ⟨k1, k2, k3⟩ := key
    refine ⟨⟨_, m', hG', k3⟩, fun j => ?_⟩
    show Spot _ _ _ _ _ _ (b.data j) (x.kept j) (b.sendsStarted j) (b.sendsDone j) (b.recvsStarted j)
      (b.recvsDone j) (upd x.todo i l j)
    by_cases hj : j = i
    · subst hj
      rw [upd_self]
      exact k2
    · obtain ⟨e1, e2, e3, e4, e5⟩ := k1 j hj
      rw [upd_other _ _ hj, e1, e2, e3, e4, e5]
      exact hW j

theorem Loop.Run.inv (hO : o.Ok U) (hI : o.Inv U T x) (h : o.Run x y) : o.Inv U T y := by
  induction h with
  | refl => exact hI
  | step _ hs ih => exact Loop.step_inv hO ih hs

theorem Loop.Where.counts {i : Fin n} (h : o.Where U T x i) :
    x.a.sendsStarted i ≤ x.a.recvsStarted i ∧ x.a.sendsStarted i ≤ T ∧
    (x.todo i = [] → x.a.sendsStarted i = T ∧ ∀ c, o.mine i c = true →
      (o.mine i c = true → c ∈ o.inner i ∨ c ∈ o.outer i) → some (x.a.data i c) = U T c) := by
  unfold Loop.Where at h
  generalize x.todo i = t at h
  cases h with
  | turn r k hT e1 e2 e3 e4 hd =>
    refine ⟨by omega, by omega, fun h => ?_⟩
    cases k with
    | zero =>
      have : r = T := by omega
      subst this
      exact ⟨e1, fun c hc _ => hd c hc⟩
    | succ k => rw [turnsOf_succ] at h; cases h
  | sends r k => exact ⟨by omega, by omega, fun h => by cases h⟩
  | inner r k l' l => exact ⟨by omega, by omega, fun h => by cases l <;> cases h⟩
  | outer r k l' l =>
    refine ⟨by omega, by omega, fun h => ?_⟩
    exfalso
    unfold part3 part4 at h
    cases l with
    | nil => cases hin : o.inner i <;> (rw [hin] at h; cases h)
    | cons => cases h
  | change r k l' l => exact ⟨by omega, by omega, fun h => by cases l <;> cases h⟩
  | last r k l' l hl hT e1 e2 e3 e4 hd hk =>
    refine ⟨by omega, by omega, fun h => ?_⟩
    cases l with
    | cons => cases h
    | nil =>
      cases k with
      | succ k => unfold part5 at h; rw [turnsOf_succ] at h; cases h
      | zero =>
        have : r + 1 = T := by omega
        refine ⟨by omega, fun c hc hall => ?_⟩
        rw [hd c hc, ← this, if_pos]
        rcases hall hc with h | h
        · exact Or.inl h
        · rw [hl, List.append_nil] at h; exact Or.inr h

/-- What holds when a process is about to do something. -/
def Loop.Ready (o : Loop n D K) (x : Game n D K) (i : Fin n) : Instr → Prop
  | .startRecvs => x.a.recvsDone i = x.a.recvsStarted i
  | .startSends => True
  | .waitRecvs => x.a.sendsStarted i = x.a.recvsStarted i
  | .waitSends => x.a.sendsStarted i = x.a.recvsStarted i
  | .count c => o.mine i c = true ∧
      ((∀ y ∈ o.nbrs i c, o.mine i y.1 = true) ∨ x.a.recvsDone i = x.a.recvsStarted i)
  | .change c => ∀ r q, x.a.sendsDone i ≤ r → r < x.a.sendsStarted i → c ∉ o.sends r i q

theorem Loop.Where.ready (hO : o.Ok U) {i : Fin n} (h : o.Where U T x i) {t : Instr} {l : List Instr}
    (ht : x.todo i = t :: l) : o.Ready x i t := by
  unfold Loop.Where at h
  generalize htt : x.todo i = tt at h
  rw [ht] at htt
  have hchange : ∀ (l2 : List Nat) z, (∀ c ∈ l2, c ∈ o.inner i) → x.a.sendsStarted i = x.a.recvsStarted i →
      t :: l = l2.map Instr.change ++ Instr.waitSends :: z → o.Ready x i t := by
    intro l2 z hl he htt
    cases l2 with
    | nil => injection htt with h1 _; subst h1; exact he
    | cons c l2 =>
      injection htt with h1 _
      subst h1
      exact fun r q _ _ => (hO.inner i c (hl c (List.mem_cons_self ..))).2.2 r q
  cases h with
  | turn r k hT e1 e2 e3 e4 hd =>
    cases k with
    | zero => cases htt
    | succ k =>
      rw [turnsOf_succ] at htt
      injection htt with h1 _
      subst h1
      exact e4.trans e3.symm
  | sends r k => injection htt with h1 _; subst h1; trivial
  | inner r k l' l2 hl hT e1 e2 e3 e4 hd hk =>
    cases l2 with
    | nil => injection htt with h1 _; subst h1; exact e1.trans e3.symm
    | cons c l2 =>
      injection htt with h1 _
      subst h1
      have := hO.inner i c (by rw [hl]; simp)
      exact ⟨this.1, Or.inl this.2.1⟩
  | outer r k l' l2 hl hT e1 e2 e3 e4 hd hk =>
    cases l2 with
    | nil => exact hchange (o.inner i) _ (fun _ h => h) (e1.trans e3.symm) htt
    | cons c l2 =>
      injection htt with h1 _
      subst h1
      exact ⟨(hO.outer i c (by rw [hl]; simp)).1, Or.inr (e4.trans e3.symm)⟩
  | change r k l' l2 hl hT e1 e2 e3 e4 hd hk =>
    exact hchange l2 _ (fun c h => by rw [hl]; exact List.mem_append_right _ h) (e1.trans e3.symm) htt
  | last r k l' l2 hl hT e1 e2 e3 e4 hd hk =>
    cases l2 with
    | nil =>
      cases k with
      | zero => cases htt
      | succ k =>
        unfold part5 at htt
        rw [turnsOf_succ] at htt
        injection htt with h1 _
        subst h1
        exact e4.trans e3.symm
    | cons c l2 =>
      injection htt with h1 _
      subst h1
      intro r' q h1 h2
      omega

/-- Until all have finished something can be done. -/
theorem Loop.Inv.progress (hO : o.Ok U) (hI : o.Inv U T x) {i : Fin n} (hi : x.todo i ≠ []) : ∃ y, o.Step x y := by
  obtain ⟨⟨snap, m, hG, hS⟩, hW⟩ := hI
  by_cases hd : ∃ p b, Async.Step o.single o.sends o.recvs o.dflt (.deliver p) x.a b
  · obtain ⟨p, b, h⟩ := hd
    exact ⟨_, .mpi (.deliver p) trivial h⟩
  obtain ⟨k1, k2⟩ := hG.stuck (dflt := o.dflt) (fun p b h => hd ⟨p, b, h⟩)
  suffices ∀ k i, x.a.sendsStarted i = k → x.todo i ≠ [] → ∃ y, o.Step x y from this _ i rfl hi
  intro k
  induction k using Nat.strongRecOn with
  | ind k ih =>
    intro i hk hi
    cases ht : x.todo i with
    | nil => exact absurd ht hi
    | cons t l =>
      have hr := (hW i).ready hO ht
      by_cases hall : ∀ p, x.a.sendsStarted i ≤ x.a.sendsStarted p
      · cases t with
        | startRecvs =>
          exact ⟨_, .call i ht rfl (.startRecvs i fun r p p' c h1 h2 => by
            have : x.a.recvsDone i = x.a.recvsStarted i := hr
            omega)⟩
        | startSends => exact ⟨_, .call i ht rfl (.startSends i)⟩
        | waitRecvs =>
          refine ⟨_, .call i ht rfl (.waitRecvs i (k1 i fun p => ?_))⟩
          rw [← (show x.a.sendsStarted i = x.a.recvsStarted i from hr)]
          exact hall p
        | waitSends =>
          refine ⟨_, .call i ht rfl (.waitSends i fun z hz e => absurd e (k2 i (fun q => ?_) z hz))⟩
          exact Nat.le_trans (hall q) (hW q).counts.1
        | count c => exact ⟨_, .count i ht⟩
        | change c => exact ⟨_, .call i ht rfl (.write i c _ hr)⟩
      · obtain ⟨p, hp⟩ := Classical.not_forall.1 hall
        refine ih (x.a.sendsStarted p) (by omega) p rfl fun h => ?_
        have := ((hW p).counts.2.2 h).1
        have := (hW i).counts.2.1
        omega

/-- Number of things that processes have to do. -/
def Game.left (x : Game n D K) : Nat := ((List.finRange n).map fun i => (x.todo i).length).sum

theorem sum_upd_lt {f g : Fin n → Nat} (i : Fin n) (h : ∀ j, j ≠ i → f j = g j) (hi : f i < g i) :
    ((List.finRange n).map f).sum < ((List.finRange n).map g).sum := by
  have key : ∀ l : List (Fin n), (l.map f).sum ≤ (l.map g).sum ∧ (i ∈ l → (l.map f).sum < (l.map g).sum) := by
    intro l
    induction l with
    | nil => exact ⟨Nat.le_refl _, fun h => by cases h⟩
    | cons j l ih =>
      rw [List.map_cons, List.map_cons, List.sum_cons, List.sum_cons]
      have hj : f j ≤ g j := by
        by_cases e : j = i
        · subst e; omega
        · rw [h j e]; exact Nat.le_refl _
      refine ⟨by omega, fun hm => ?_⟩
      rcases List.mem_cons.1 hm with e | e
      · subst e; have := ih.1; omega
      · have := ih.2 e; omega
  exact (key _).2 (List.mem_finRange i)

/-- Every step leaves less to do for processes, or the same for processes and less for MPI. -/
theorem Loop.Step.less (h : o.Step x y) :
    y.left < x.left ∨ y.left = x.left ∧ y.a.remaining < x.a.remaining := by
  have key : ∀ (i : Fin n) (t : Instr) (l : List Instr) (a : Async n D) (kept : Fin n → Nat → K), x.todo i = t :: l →
      Game.left { a := a, kept := kept, todo := upd x.todo i l } < x.left := by
    intro i t l a kept ht
    refine sum_upd_lt i (fun j hj => ?_) ?_
    · show (upd x.todo i l j).length = _
      rw [upd_other _ _ hj]
    · show (upd x.todo i l i).length < _
      rw [upd_self, ht]
      exact Nat.lt_succ_self _
  cases h with
  | mpi e he h => exact Or.inr ⟨rfl, remaining_step he h⟩
  | call i ht => exact Or.inl (key i _ _ _ _ ht)
  | count i ht => exact Or.inl (key i _ _ _ _ ht)

theorem Loop.finite (f : Nat → Game n D K) (h : ∀ k, o.Step (f k) (f (k + 1))) : False := by
  suffices ∀ a b, ∀ f : Nat → Game n D K, (f 0).left = a → (f 0).a.remaining = b → (∀ k, o.Step (f k) (f (k + 1))) → False from
    this _ _ f rfl rfl h
  intro a
  induction a using Nat.strongRecOn with
  | ind a iha =>
    intro b
    induction b using Nat.strongRecOn with
    | ind b ihb =>
      intro f ha hb h
      rcases (h 0).less with h1 | ⟨h1, h2⟩
      · exact iha _ (by rw [← ha]; exact h1) _ (fun k => f (k + 1)) rfl rfl fun k => h (k + 1)
      · exact ihb _ (by rw [← hb]; exact h2) (fun k => f (k + 1)) (by rw [← ha]; exact h1) rfl fun k => h (k + 1)

/-- All processes can finish. -/
theorem Loop.Inv.finishes (hO : o.Ok U) (hI : o.Inv U T x) : ∃ y, o.Run x y ∧ ∀ i, y.todo i = [] := by
  suffices ∀ a b, ∀ z, o.Run x z → z.left = a → z.a.remaining = b → ∃ y, o.Run x y ∧ ∀ i, y.todo i = [] from
    this _ _ x (.refl x) rfl rfl
  intro a
  induction a using Nat.strongRecOn with
  | ind a iha =>
    intro b
    induction b using Nat.strongRecOn with
    | ind b ihb =>
      intro z hz ha hb
      by_cases hf : ∀ i, z.todo i = []
      · exact ⟨z, hz, hf⟩
      · obtain ⟨i, hi⟩ := Classical.not_forall.1 hf
        obtain ⟨y, hy⟩ := (hz.inv hO hI).progress hO hi
        rcases hy.less with h1 | ⟨h1, h2⟩
        · exact iha _ (by rw [← ha]; exact h1) _ y (.step hz hy) rfl rfl
        · exact ihb _ (by rw [← hb]; exact h2) y (.step hz hy) (by rw [← ha]; exact h1) rfl
end
end Dccrg
