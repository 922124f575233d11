import Verif.Partitioner
/-!
# C51: hierarchical partitioning
-/
namespace Dccrg

/-- Processes with given ranks get the same part number on levels from 0 to `l`. -/
def SameParts (perPart : List Nat) (l : Nat) (r r' : Nat) : Prop :=
  ∀ j : Nat, j ≤ l → getPartNumber perPart r j = getPartNumber perPart r' j

theorem getPartNumber_ok {ks : List Nat} {r l : Nat} (hl : l < ks.length) :
    getPartNumber ks r (l : Int) = .ok (partLoop (ks.take (l + 1)) r 0) := by
  unfold getPartNumber
  rw [if_neg (by omega)]
  rfl

theorem sameParts_zero {k : Nat} {ks : List Nat} {r r' : Nat} :
    SameParts (k :: ks) 0 r r' ↔ r / k = r' / k := by
  constructor
  · intro h
    have := h 0 (Nat.le_refl 0)
    rw [getPartNumber_ok (by simp), getPartNumber_ok (by simp)] at this
    injection this
  · intro h j hj
    obtain rfl : j = 0 := by omega
    rw [getPartNumber_ok (by simp), getPartNumber_ok (by simp)]
    show Out.ok (r / k) = Out.ok (r' / k)
    rw [h]

theorem partLoop_init {ks : List Nat} (h : ks ≠ []) (r a b : Nat) : partLoop ks r a = partLoop ks r b := by
  cases ks with
  | nil => exact absurd rfl h
  | cons k ks => rfl

theorem sameParts_succ {k : Nat} {ks : List Nat} {l r r' : Nat} (hl : l < ks.length) :
    SameParts (k :: ks) (l + 1) r r' ↔ r / k = r' / k ∧ SameParts ks l (r % k) (r' % k) := by
  have hne : ∀ j, j < ks.length → ks.take (j + 1) ≠ [] := by
    intro j hj e
    have := congrArg List.length e
    rw [List.length_take, List.length_nil] at this
    omega
  have step : ∀ j r, j < ks.length → getPartNumber (k :: ks) r ((j + 1 : Nat) : Int) = getPartNumber ks (r % k) (j : Int) := by
    intro j r hj
    rw [getPartNumber_ok (by simpa using hj), getPartNumber_ok hj]
    exact congrArg Out.ok (partLoop_init (hne j hj) _ _ _)
  constructor
  · intro h
    refine ⟨sameParts_zero.1 fun j hj => h j (by omega), fun j hj => ?_⟩
    have := h (j + 1) (by omega)
    rwa [step j r (by omega), step j r' (by omega)] at this
  · rintro ⟨h1, h2⟩ j hj
    cases j with
    | zero => exact sameParts_zero.2 h1 0 (Nat.le_refl 0)
    | succ j =>
      rw [step j r (by omega), step j r' (by omega)]
      exact h2 j (by omega)

/-- C51: the part number is defined for levels that exist and only for those. -/
theorem C51_levels (ks : List Nat) (r : Nat) (l : Int) :
    (∃ k, getPartNumber ks r l = .ok k) ↔ 0 ≤ l ∧ l < ks.length := by
  unfold getPartNumber
  split
  · constructor
    · rintro ⟨k, h⟩; cases h
    · omega
  · constructor
    · intro _; omega
    · intro _; exact ⟨_, rfl⟩

/-- C51: a part of a level, that is, processes with the same part number on that level and all levels before it, is
within as many consecutive processes as were given for the level. -/
theorem C51_size {ks : List Nat} (hpos : ∀ k ∈ ks, 0 < k) {l : Nat} (hl : l < ks.length) {r r' : Nat}
    (h : SameParts ks l r r') : r < r' + ks[l] := by
  induction ks generalizing l r r' with
  | nil => cases hl
  | cons k ks ih =>
    have hk := hpos k (List.mem_cons_self ..)
    have e1 := Nat.div_add_mod r k
    have e2 := Nat.div_add_mod r' k
    cases l with
    | zero =>
      rw [sameParts_zero] at h
      have := Nat.mod_lt r hk
      show r < r' + k
      rw [h] at e1
      omega
    | succ l =>
      rw [sameParts_succ (by simpa using hl)] at h
      have := ih (fun x hx => hpos x (List.mem_cons_of_mem _ hx)) (by simpa using hl) h.2
      show r < r' + ks[l]'(by simpa using hl)
      rw [h.1] at e1
      omega

/-- C51: if the number of processes of each level divides the ones of previous levels then parts of a level are exactly
blocks of as many consecutive processes as were given. -/
theorem C51_blocks {ks : List Nat} (hpos : ∀ k ∈ ks, 0 < k) (hdiv : ks.Pairwise fun a b => b ∣ a) {l : Nat}
    (hl : l < ks.length) (r r' : Nat) : SameParts ks l r r' ↔ r / ks[l] = r' / ks[l] := by
  induction ks generalizing l r r' with
  | nil => cases hl
  | cons k ks ih =>
    cases l with
    | zero => exact sameParts_zero
    | succ l =>
      have hl' : l < ks.length := by simpa using hl
      rw [sameParts_succ hl', ih (fun x hx => hpos x (List.mem_cons_of_mem _ hx)) hdiv.of_cons hl']
      show _ ↔ r / ks[l] = r' / ks[l]
      have hm : 0 < ks[l] := hpos _ (List.mem_cons_of_mem _ (List.getElem_mem hl'))
      obtain ⟨q, hq⟩ := (List.pairwise_cons.1 hdiv).1 _ (List.getElem_mem hl')
      generalize hme : ks[l] = m at *
      have hk := hpos k (List.mem_cons_self ..)
      have key : ∀ r, r / m = q * (r / k) + r % k / m ∧ r % k / m < q := by
        intro r
        constructor
        · have e : r = m * (q * (r / k)) + r % k := by
            have := Nat.div_add_mod r k
            rw [← Nat.mul_assoc, ← hq]; omega
          conv => lhs; rw [e]
          rw [Nat.add_comm, Nat.add_mul_div_left _ _ hm, Nat.add_comm]
        · rw [Nat.div_lt_iff_lt_mul hm, Nat.mul_comm, ← hq]
          exact Nat.mod_lt _ hk
      obtain ⟨a1, a2⟩ := key r
      obtain ⟨b1, b2⟩ := key r'
      rw [a1, b1]
      constructor
      · rintro ⟨h1, h2⟩; rw [h1, h2]
      · intro h
        have hq0 : 0 < q := Nat.lt_of_le_of_lt (Nat.zero_le _) a2
        have h1 : (q * (r / k) + r % k / m) / q = (q * (r' / k) + r' % k / m) / q := by rw [h]
        rw [Nat.mul_add_div hq0, Nat.mul_add_div hq0, Nat.div_eq_of_lt a2, Nat.div_eq_of_lt b2, Nat.add_zero,
          Nat.add_zero] at h1
        rw [h1] at h
        exact ⟨h1, Nat.add_left_cancel h⟩

/-- C51: if the last level has one process per part then different processes have different part numbers on some level. -/
theorem C51_distinct {ks : List Nat} (hpos : ∀ k ∈ ks, 0 < k) {l : Nat} (hl : l < ks.length) (h1 : ks[l] = 1)
    {r r' : Nat} (h : SameParts ks l r r') : r = r' := by
  have a := C51_size hpos hl h
  have b := C51_size hpos hl (fun j hj => (h j hj).symm)
  omega

/-- 12 processes in parts of 6, those in parts of 2 and those in parts of 1. -/
example : (∀ k ∈ [6, 2, 1], 0 < k) ∧ [6, 2, 1].Pairwise (fun a b => b ∣ a) ∧
    (List.range 12).map (fun r => getPartNumber [6, 2, 1] r 1) = [0, 0, 1, 1, 2, 2, 0, 0, 1, 1, 2, 2].map Out.ok ∧
    SameParts [6, 2, 1] 1 8 9 ∧ ¬ SameParts [6, 2, 1] 1 3 9 := by
  refine ⟨by decide, by decide, rfl, ?_, ?_⟩
  · rw [C51_blocks (by decide) (by decide) (by decide)]; decide
  · rw [C51_blocks (by decide) (by decide) (by decide)]; decide

/-- Sizes that do not divide each other: parts have at most the given number of processes. -/
example : (List.range 8).map (fun r => getPartNumber [4, 3] r 1) = [0, 0, 0, 1, 0, 0, 0, 1].map Out.ok := rfl

end Dccrg
