import Verif.Collective
/-!
# C49: collective communication
-/
namespace Dccrg

theorem gatherv_eq (pre : List Nat) (values : List (List Nat)) (x : Nat) :
    gatherv (pre ++ List.replicate (values.map List.length).sum x)
      (displacements (values.map List.length) pre.length) values = pre ++ values.flatten := by
  induction values generalizing pre with
  | nil => simp [gatherv, displacements]
  | cons v values ih =>
    rw [List.map_cons, displacements, gatherv]
    have : writeAt (pre ++ List.replicate (v.length :: values.map List.length).sum x) pre.length v =
        (pre ++ v) ++ List.replicate (values.map List.length).sum x := by
      unfold writeAt
      rw [List.take_left, ← List.drop_drop, List.drop_left, List.drop_replicate, List.sum_cons, Nat.add_sub_cancel_left]
    rw [this, show v.length + pre.length = (pre ++ v).length by rw [List.length_append]; omega, ih]
    simp

theorem fillResult_eq (pre : List Nat) (values : List (List Nat)) :
    fillResult (pre ++ values.flatten) (values.map List.length) pre.length = values := by
  induction values generalizing pre with
  | nil => rfl
  | cons v values ih =>
    rw [List.map_cons, fillResult, List.flatten_cons]
    congr 1
    · apply List.ext_getElem
      · simp
      · intro i h1 h2
        rw [List.getElem_map, List.getElem_range, List.getD_eq_getElem?_getD, List.getElem?_append_right (by omega),
          Nat.add_sub_cancel_left, List.getElem?_append_left h2, List.getElem?_eq_getElem h2]
        rfl
    · have := ih (pre ++ v)
      rw [List.append_assoc, List.length_append] at this
      exact this

/-- C49: every process gets the values of all processes, unchanged and in rank order, if there are not too many in
total. -/
theorem C49_gather (values : List (List Nat)) (h : (values.map List.length).sum ≤ intMax) :
    allGather values = .ok values := by
  have hv : ∀ v ∈ values, v.length ≤ (values.map List.length).sum := by
    clear h
    induction values with
    | nil => intro v hv; cases hv
    | cons w values ih =>
      intro v hv
      rw [List.map_cons, List.sum_cons]
      rcases List.mem_cons.1 hv with e | e
      · subst e; omega
      · have := ih v e; omega
  have hd : ∀ (l : List Nat) (k : Nat), ∀ d ∈ displacements l k, d ≤ k + l.sum := by
    intro l
    induction l with
    | nil => intro k d hd; cases hd
    | cons c l ih =>
      intro k d hd
      rw [displacements] at hd
      rw [List.sum_cons]
      rcases List.mem_cons.1 hd with e | e
      · omega
      · have := ih _ d e; omega
  unfold allGather
  simp only []
  rw [if_neg, if_neg]
  · have e1 := gatherv_eq [] values (W - 1)
    have e2 := fillResult_eq [] values
    simp only [List.nil_append, List.length_nil] at e1 e2
    rw [e1, e2]
  · rintro ⟨d, h1, h2⟩
    have := hd _ _ d h1
    omega
  · rintro ⟨v, h1, h2⟩
    have := hv v h1
    omega

example : allGather [[3, 5], [], [7]] = .ok [[3, 5], [], [7]] := C49_gather _ (by decide)

/-- C49: no result is returned, it aborts, when a process has too many values. -/
theorem C49_too_many (values : List (List Nat)) (v : List Nat) (hv : v ∈ values) (h : v.length > intMax) :
    allGather values = .throws := by
  unfold allGather
  exact if_pos ⟨v, hv, h⟩

/-- C49: the sum of values of all processes modulo 2^64, for every order of adding them. -/
theorem C49_reduce (n : Nat) (v : Nat → Nat) (hv : ∀ i, i < n → v i < 2 ^ 64) (t : Tree)
    (ht : t.ranks.Perm (List.range n)) : allReduce v t = ((List.range n).map v).sum % 2 ^ 64 := by
  have key : ∀ t : Tree, (∀ i ∈ t.ranks, v i < 2 ^ 64) → allReduce v t = (t.ranks.map v).sum % 2 ^ 64 := by
    intro t
    induction t with
    | leaf i =>
      intro h
      have := h i (List.mem_singleton.2 rfl)
      simp [allReduce, Tree.ranks, Nat.mod_eq_of_lt this]
    | node l r ih1 ih2 =>
      intro h
      rw [allReduce, ih1 fun i hi => h i (List.mem_append_left _ hi), ih2 fun i hi => h i (List.mem_append_right _ hi),
        Tree.ranks, List.map_append, List.sum_append]
      unfold wadd W
      omega
  rw [key t fun i hi => hv i (List.mem_range.1 (ht.mem_iff.1 hi)), List.Perm.sum_nat (ht.map v)]

example : ∃ t : Tree, t.ranks.Perm (List.range 3) ∧ allReduce (fun i => if i = 0 then 2 ^ 64 - 1 else i) t = 2 :=
  ⟨.node (.leaf 2) (.node (.leaf 0) (.leaf 1)), by decide, by decide⟩

theorem foldl_wadd {α : Type} (v : α → Nat) (l : List α) (a : Nat) :
    (l.foldl (fun r p => wadd r (v p)) a) % 2 ^ 64 = (a + (l.map v).sum) % 2 ^ 64 := by
  induction l generalizing a with
  | nil => simp
  | cons x l ih =>
    rw [List.foldl_cons, ih, List.map_cons, List.sum_cons]
    unfold wadd W
    omega

theorem foldl_wadd_lt {α : Type} (v : α → Nat) (l : List α) {a : Nat} (h : a < 2 ^ 64) :
    l.foldl (fun r p => wadd r (v p)) a < 2 ^ 64 := by
  induction l generalizing a with
  | nil => exact h
  | cons x l ih => exact ih (Nat.mod_lt _ (by decide))

/-- C49: each process gets the sum of its own value and the values of processes it has given, modulo 2^64, when processes
give each other; does not depend on the order in which processes are listed. -/
theorem C49_some {n : Nat} (N : Fin n → List (Fin n)) (v : Fin n → Nat) (hv : ∀ i, v i < 2 ^ 64)
    (h : ∀ i p, p ∈ N i ↔ i ∈ N p) :
    ∃ r, someReduce N v = .ok r ∧ ∀ i, r i = (v i + ((N i).map v).sum) % 2 ^ 64 := by
  unfold someReduce
  rw [if_neg]
  · refine ⟨_, rfl, fun i => ?_⟩
    rw [← foldl_wadd, Nat.mod_eq_of_lt (foldl_wadd_lt v (N i) (hv i))]
  · rintro ⟨i, p, h1, h2⟩
    exact h2 ((h i p).1 h1)

/-- C49: does not return on a process that gives one which does not give it. -/
theorem C49_some_mismatch {n : Nat} (N : Fin n → List (Fin n)) (v : Fin n → Nat) {i p : Fin n} (h1 : p ∈ N i)
    (h2 : i ∉ N p) : someReduce N v = .hangs := by
  unfold someReduce
  exact if_pos ⟨i, p, h1, h2⟩

example : ∃ (N : Fin 3 → List (Fin 3)), (∀ i p, p ∈ N i ↔ i ∈ N p) ∧ N 0 = [1] ∧ N 1 = [0, 2] :=
  ⟨fun i => if i = 0 then [1] else if i = 1 then [0, 2] else [1], by decide, rfl, rfl⟩

end Dccrg
