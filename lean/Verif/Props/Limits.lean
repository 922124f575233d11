import Verif.LimitsExact
import Verif.Props.Mapping
/-!
# C07, C08: limits on grid length and maximum refinement level
-/
namespace Dccrg
namespace Mapping
variable {m : Mapping}

theorem updateLastCell_ok (hp : ∀ d, 0 < m.len d) (hn : 0 ≤ m.maxLvl) (hf : m.cfg.last < W) :
    m.updateLastCell.OK := by
  have h : ({ m with lastCell := m.cfg.last } : Mapping).OK := ⟨hp, hn, hf, rfl⟩
  have e := sumLevels_eq h 0 (m.cfg.maxLvl + 1) (Nat.le_refl _) (by
    rw [Nat.zero_add]; exact hf)
  refine ⟨hp, hn, hf, ?_⟩
  have em : (m.maxLvl + 1).toNat = m.cfg.maxLvl + 1 := by
    have : m.cfg.maxLvl = m.maxLvl.toNat := rfl
    omega
  show m.sumLevels 0 (m.maxLvl + 1).toNat = _
  rw [em]
  refine Eq.trans ?_ (Eq.trans e (Nat.zero_add _))
  have : ∀ k, m.sumLevels 0 k = sumLevels { m with lastCell := m.cfg.last } 0 k := by
    intro k
    induction k with
    | zero => rfl
    | succ k ih => rw [sumLevels, sumLevels, ih]; rfl
  exact this _

/-- The default constructed mapping is usable. -/
theorem init_ok : init.OK where
  pos := by rw [forall_fin3]; decide
  nonneg := by decide
  fits := by decide
  last := by decide

theorem total_cfg (m : Mapping) (hp : ∀ d, 0 < m.len d) (hs : m.len 0 * m.len 1 * m.len 2 < W) : m.total = m.cfg.total := by
  obtain ⟨_, _, _, h3⟩ := le3 (hp 0) (hp 1) (hp 2)
  unfold total
  rw [wmul_eq (a := m.len 0) (by omega), wmul_eq (by omega)]
  rfl

theorem accepted_passes (m : Mapping) (hp : ∀ d, 0 < m.len d) (hs : m.len 0 * m.len 1 * m.len 2 < W) {given : Int}
    (h0 : 0 ≤ given) : (m.setMaxLvl given).1 = true ↔ Passes m.cfg.total given.toNat := by
  have htot := total_cfg m hp hs
  have hpos : 0 < m.cfg.total := Cfg.total_pos (g := m.cfg) hp
  have e : (m.setMaxLvl given).1 = true ↔ given.toNat + 1 < maxPossibleLoop m.total 343 0 (curSeq m.total 0) := by
    unfold setMaxLvl maxPossible
    show _ ↔ _ < maxPossibleLoop m.total 343 0 0
    split
    · exact ⟨fun _ => by omega, fun _ => rfl⟩
    · exact ⟨fun h => (by cases h), fun h => by omega⟩
  rw [e, htot]
  constructor
  · exact fun h i hi => loop_bound _ 343 0 i (Nat.zero_le _) (by omega)
  · intro h
    refine loop_passes _ _ 343 0 ?_ (Nat.zero_le _) h
    apply Decidable.byContradiction
    intro hg
    rcases (passes_exact hpos hs _).1 (h.mono (show 22 ≤ given.toNat by omega)) with h1 | h1 | h1 | h1
    · simp only [exact, Nat.reducePow] at h1
      omega
    · omega
    · omega
    · omega

/-- C07: exactly these levels are accepted for a grid with fewer than 2^64 level 0 cells: those for which all ids fit into 64 bits
and, wrongly because of rounding, level 1 for 270 numbers of level 0 cells, level 2 for 33 and level 3 for 2. -/
theorem C07_accepted_iff (hp : ∀ d, 0 < m.len d) (hs : m.len 0 * m.len 1 * m.len 2 < W) {given : Int} (h0 : 0 ≤ given) :
    (m.setMaxLvl given).1 = true ↔ ({ m with maxLvl := given } : Mapping).cfg.last < W ∨
      (given = 1 ∧ 2049638230412172402 ≤ m.len 0 * m.len 1 * m.len 2 ∧ m.len 0 * m.len 1 * m.len 2 ≤ 2049638230412172671) ∨
      (given = 2 ∧ 252695124297391119 ≤ m.len 0 * m.len 1 * m.len 2 ∧ m.len 0 * m.len 1 * m.len 2 ≤ 252695124297391151) ∨
      (given = 3 ∧ 31532895852494961 ≤ m.len 0 * m.len 1 * m.len 2 ∧ m.len 0 * m.len 1 * m.len 2 ≤ 31532895852494962) := by
  have e : ∀ k, ({ m with maxLvl := given } : Mapping).cfg.base k = m.cfg.base k := by
    intro k
    induction k with
    | zero => rfl
    | succ k ih => rw [Cfg.base_succ, Cfg.base_succ, ih]; rfl
  have hl : ({ m with maxLvl := given } : Mapping).cfg.last = exact m.cfg.total (given.toNat + 1) := by
    rw [exact_eq_base, ← e]; rfl
  rw [accepted_passes m hp hs h0, passes_exact (Cfg.total_pos (g := m.cfg) hp) hs, hl]
  have ht : m.cfg.total = m.len 0 * m.len 1 * m.len 2 := rfl
  rw [ht]
  generalize m.len 0 * m.len 1 * m.len 2 = t
  have h1 : given.toNat = 1 ↔ given = 1 := by omega
  have h2 : given.toNat = 2 ↔ given = 2 := by omega
  have h3 : given.toNat = 3 ↔ given = 3 := by omega
  rw [h1, h2, h3]
  rfl

/-- C07, the part that holds: with fewer than 31532895852494961 level 0 cells an accepted non-negative
maximum refinement level keeps all ids within 64 bits (and every shift defined).
Missing: some larger grids, for which the floating point check accepts too large a level
(`C07_accepted_iff`, `C07_false`), and negative levels, which are accepted as well (`C07_negative_accepted`). -/
theorem C07_accepted_level_fits_partial (hp : ∀ d, 0 < m.len d)
    (hs : m.len 0 * m.len 1 * m.len 2 < 31532895852494961) {given : Int} (h0 : 0 ≤ given)
    (hacc : (m.setMaxLvl given).1 = true) :
    (m.setMaxLvl given).2.OK ∧ (m.setMaxLvl given).2.maxLvl = given ∧
    (m.setMaxLvl given).2.len = m.len := by
  have hfit : ({ m with maxLvl := given } : Mapping).cfg.last < W := by
    rcases (C07_accepted_iff hp (Nat.lt_trans hs (by decide)) h0).1 hacc with h | h | h | h
    · exact h
    · omega
    · omega
    · omega
  unfold setMaxLvl at hacc ⊢
  split at hacc
  · rename_i hg
    rw [if_pos hg]
    exact ⟨updateLastCell_ok (m := { m with maxLvl := given }) hp h0 hfit, rfl, rfl⟩
  · exact absurd hacc (by simp)

example : (∀ d, 0 < sample.len d) ∧ sample.len 0 * sample.len 1 * sample.len 2 < 31532895852494961 ∧
    (sample.setMaxLvl 19).1 = true ∧ (sample.setMaxLvl 21).1 = false := by
  refine ⟨sample_ok.pos, by decide, by decide +kernel, by decide +kernel⟩

/-- The other direction of C07: a non-negative level for which all ids fit into 64 bits is accepted,
so the grid can be refined as much as the ids allow. -/
theorem C07_fitting_level_accepted (hp : ∀ d, 0 < m.len d) {given : Int} (h0 : 0 ≤ given)
    (hfit : ({ m with maxLvl := given } : Mapping).cfg.last < W) : (m.setMaxLvl given).1 = true := by
  refine (C07_accepted_iff hp ?_ h0).2 (Or.inl hfit)
  refine Nat.lt_of_le_of_lt ?_ hfit
  show ({ m with maxLvl := given } : Mapping).cfg.total ≤ Cfg.base _ (given.toNat + 1)
  rw [← exact_eq_base]
  have := exact_mono ({ m with maxLvl := given } : Mapping).cfg.total (show 1 ≤ given.toNat + 1 by omega)
  simpa [exact] using this

example : (∀ d, 0 < sample.len d) ∧
    ({ sample with maxLvl := 20 } : Mapping).cfg.last < W ∧
    W ≤ ({ sample with maxLvl := 21 } : Mapping).cfg.last :=
  ⟨sample_ok.pos, by decide +kernel, by decide +kernel⟩

/-- A level that is not accepted leaves the mapping unchanged. -/
theorem C07_rejected_no_effect {given : Int} (h : (m.setMaxLvl given).1 = false) :
    (m.setMaxLvl given).2 = m := by
  unfold setMaxLvl at h ⊢
  split at h
  · exact absurd h (by simp)
  · rename_i hg; rw [if_neg hg]

/-- C07 is false in general: a grid length that is accepted, with a maximum refinement level that
is accepted, for which the number of cells exceeds 64 bits and `get_last_cell()` is 2. -/
theorem C07_false : ∃ (len : V3 Nat) (given : Int), (∀ d, 0 < len d ∧ len d < W) ∧ 0 ≤ given ∧
    (init.setLength len).1 = true ∧ ((init.setLength len).2.setMaxLvl given).1 = true ∧
    W ≤ ((init.setLength len).2.setMaxLvl given).2.cfg.last ∧
    ((init.setLength len).2.setMaxLvl given).2.lastCell = 2 :=
  ⟨v3 2049638230412172402 1 1, 1, by rw [forall_fin3]; decide, by decide, by decide +kernel,
    by decide +kernel, by decide +kernel, by decide +kernel⟩

/-- Every negative maximum refinement level is accepted, by all grids with fewer than 2^64 level 0 cells, and gives a mapping without
any cells. -/
theorem C07_negative_accepted (hp : ∀ d, 0 < m.len d) (hs : m.len 0 * m.len 1 * m.len 2 < W) (given : Int) (h : given < 0) :
    (m.setMaxLvl given).1 = true ∧ (m.setMaxLvl given).2.lastCell = 0 := by
  have hmp : 0 ≤ m.maxPossible := by
    have := (accepted_passes m hp hs (given := 0) (Int.le_refl _)).2
      ((passes_exact (Cfg.total_pos (g := m.cfg) hp) hs 0).2 (Or.inl (by
        have e : m.cfg.total = m.len 0 * m.len 1 * m.len 2 := rfl
        have e' : W = 2 ^ 64 := rfl
        simp only [exact, Nat.pow_zero]
        omega)))
    unfold setMaxLvl at this
    split at this
    · assumption
    · cases this
  unfold setMaxLvl
  rw [if_pos (by omega)]
  refine ⟨rfl, ?_⟩
  show sumLevels _ 0 (given + 1).toNat = 0
  rw [show (given + 1).toNat = 0 by omega]
  rfl

example : (∀ d, 0 < sample.len d) ∧ sample.len 0 * sample.len 1 * sample.len 2 < W := ⟨sample_ok.pos, by decide⟩

/-- C08, the part that holds: a rejected length has no effect, an accepted one is stored, zero
lengths are rejected, every length whose level 0 cells fit into 64 bits is accepted, and if all
cells up to the current maximum refinement level fit the mapping is usable afterwards.
Missing: rejection of lengths whose product does not fit (`C08_false`). -/
theorem C08_set_length_partial (given : V3 Nat) :
    ((m.setLength given).1 = false → (m.setLength given).2 = m) ∧
    ((m.setLength given).1 = true → (m.setLength given).2.len = given) ∧
    ((∃ d, given d = 0) → (m.setLength given).1 = false) ∧
    ((∀ d, 0 < given d) → given 0 * given 1 * given 2 < W → (m.setLength given).1 = true) ∧
    ((∀ d, 0 < given d) → 0 ≤ m.maxLvl → ({ m with len := given } : Mapping).cfg.last < W →
      (m.setLength given).1 = true → (m.setLength given).2.OK) := by
  refine ⟨?_, ?_, ?_, ?_, ?_⟩
  · unfold setLength
    split <;> simp
  · intro h
    unfold setLength at h ⊢
    unfold gridLengthSet at h ⊢
    split at h
    · exact absurd h (by simp)
    · rename_i l hl
      show l = given
      split at hl
      · exact absurd hl (by simp)
      · split at hl
        · exact absurd hl (by simp)
        · exact (Option.some.inj hl).symm
  · intro h
    rw [exists_fin3] at h
    unfold setLength gridLengthSet
    rw [if_pos h]
  · intro hp hW
    have hp' := forall_fin3.1 hp
    have hWv : W = 2 ^ 64 := rfl
    have hnot : ¬ dbl (dbl (dbl (given 0) + dbl (given 1)) + dbl (given 2)) > dbl (W - 1) := by
      rw [dbl_max]
      have := sum_check hp'.1 hp'.2.1 hp'.2.2 hW
      omega
    unfold setLength gridLengthSet
    rw [if_neg (by omega), if_neg hnot]
  · intro hp hn hf h
    unfold setLength at h ⊢
    split at h
    · exact absurd h (by simp)
    · rename_i l hl
      have e : l = given := by
        unfold gridLengthSet at hl
        split at hl
        · exact absurd hl (by simp)
        · split at hl
          · exact absurd hl (by simp)
          · exact (Option.some.inj hl).symm
      subst e
      exact updateLastCell_ok (m := { m with len := l }) hp hn hf

example : (init.setLength (v3 2 3 1)).1 = true ∧ (sample.setLength (v3 7 3 5)).1 = true ∧
    ({ sample with len := v3 7 3 5 } : Mapping).cfg.last < W := by decide +kernel

/-- C08 is false of the code: 2^32 x 2^32 x 1 cells are accepted although their number, 2^64,
does not fit, and the grid then has no valid cell at all. -/
theorem C08_false : ∃ given : V3 Nat, (∀ d, given d < W) ∧ W ≤ given 0 * given 1 * given 2 ∧
    (init.setLength given).1 = true ∧ (init.setLength given).2.lastCell = 0 :=
  ⟨v3 (2 ^ 32) (2 ^ 32) 1, by rw [forall_fin3]; decide, by decide, by decide +kernel,
    by decide +kernel⟩

/-- C08, what is checked instead: the sum of lengths. Apart from sums within 8192 of 2^64, where rounding matters, lengths
above zero are accepted exactly if their sum fits into 64 bits. -/
theorem C08_sum (given : V3 Nat) (hp : ∀ d, 0 < given d) :
    (given 0 + given 1 + given 2 + 4096 ≤ W → (m.setLength given).1 = true) ∧
    (W + 8192 ≤ given 0 + given 1 + given 2 → (m.setLength given).1 = false) := by
  have hp' := forall_fin3.1 hp
  have hW : W = 2 ^ 64 := rfl
  have u1 := dbl_upper (given 0)
  have u2 := dbl_upper (given 1)
  have u3 := dbl_upper (given 2)
  have u4 := dbl_upper (dbl (given 0) + dbl (given 1))
  have l1 := dbl_lower (given 0)
  have l2 := dbl_lower (given 1)
  have l3 := dbl_lower (given 2)
  have l4 := dbl_lower (dbl (given 0) + dbl (given 1))
  have l5 := dbl_lower (dbl (dbl (given 0) + dbl (given 1)) + dbl (given 2))
  have t := @dbl_le_two_pow_64 (dbl (dbl (given 0) + dbl (given 1)) + dbl (given 2))
  unfold setLength gridLengthSet
  rw [if_neg (by omega), dbl_max]
  generalize dbl (given 0) = a' at *
  generalize dbl (given 1) = b' at *
  generalize dbl (given 2) = c' at *
  generalize dbl (a' + b') = d' at *
  generalize dbl (d' + c') = e' at *
  constructor
  · intro h
    rw [if_neg (by have := t (by omega); omega)]
  · intro h
    rw [if_pos (by omega)]

/-- Three times 2^62 fits into 64 bits as a sum, three times 2^63 does not. -/
example : (∀ d : Fin 3, 0 < 2 ^ 62) ∧ 2 ^ 62 + 2 ^ 62 + 2 ^ 62 + 4096 ≤ W ∧ W + 8192 ≤ 2 ^ 63 + 2 ^ 63 + 2 ^ 63 := by
  decide +kernel

end Mapping
end Dccrg
