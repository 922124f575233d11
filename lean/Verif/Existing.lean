import Verif.Sample
/-!
# `get_existing_cell` with arbitrary level ranges
-/
namespace Dccrg
open Cfg

/-- `Mapping::get_cell_from_indices(indices, level)` for indices inside of the grid
(dccrg_mapping.hpp:154-216). -/
def cellFrom (g : Cfg) (p : V3 Nat) (l : Int) : Nat :=
  if l < 0 ∨ l > g.maxLvl then 0 else g.cellAt l.toNat p

/-- Loop of `get_existing_cell` (dccrg.hpp:11399-11408), `k` iterations from level `l` down. -/
def existingLoopI (g : Cfg) (E : Nat → Bool) (p : V3 Nat) : Int → Nat → Nat
  | _, 0 => 0
  | l, k + 1 => if E (cellFrom g p l) then cellFrom g p l else existingLoopI g E p (l - 1) k

/-- `Dccrg::get_existing_cell(indices, min, max)` (dccrg.hpp:11379-11412). -/
def existingI (g : Cfg) (E : Nat → Bool) (p : V3 Nat) (lo hi : Int) : Nat :=
  if ¬ g.InGrid p then 0
  else if lo > hi then 0
  else existingLoopI g E p hi (hi - lo + 1).toNat

theorem existingLoopI_eq {g : Cfg} {E : Nat → Bool} (hw : g.WF) (ht : Tiled g E) {p : V3 Nat}
    (hp : g.InGrid p) {b : Nat} (he : E b = true) (hm : g.Mem p b) (l : Int) (k : Nat) :
    existingLoopI g E p l k = if l - k < g.lvl b ∧ (g.lvl b : Int) ≤ l then b else 0 := by
  have hvb := ht.valid b he
  have hlb := lvl_le hvb
  have h0 : E 0 = false := by
    cases h : E 0 with
    | false => rfl
    | true => have := (ht.valid 0 h).1; omega
  induction k generalizing l with
  | zero => rw [if_neg (by omega)]; rfl
  | succ k ih =>
    rw [existingLoopI, ih]
    by_cases hl : l = g.lvl b
    · have : cellFrom g p l = b := by
        unfold cellFrom
        rw [if_neg (by omega), hl, Int.toNat_natCast]
        exact cellAt_of_mem hw hvb hm
      rw [this, if_pos he, if_pos (by omega)]
    · have : E (cellFrom g p l) = false := by
        unfold cellFrom
        by_cases hr : l < 0 ∨ l > g.maxLvl
        · rw [if_pos hr]; exact h0
        · rw [if_neg hr]
          exact ht.cellAt_ne hp he hm (by omega) (by omega)
      rw [this]
      simp only [Bool.false_eq_true, if_false]
      by_cases hc : l - 1 - k < g.lvl b ∧ (g.lvl b : Int) ≤ l - 1
      · rw [if_pos hc, if_pos (by omega)]
      · rw [if_neg hc, if_neg (by omega)]

theorem existingI_eq {g : Cfg} {E : Nat → Bool} (hw : g.WF) (ht : Tiled g E) {p : V3 Nat}
    (hp : g.InGrid p) {b : Nat} (he : E b = true) (hm : g.Mem p b) (lo hi : Int) :
    existingI g E p lo hi = if lo ≤ g.lvl b ∧ (g.lvl b : Int) ≤ hi then b else 0 := by
  unfold existingI
  rw [if_neg (by simpa using hp)]
  by_cases h : lo > hi
  · rw [if_pos h, if_neg (by omega)]
  · rw [if_neg h, existingLoopI_eq hw ht hp he hm]
    by_cases hc : lo ≤ g.lvl b ∧ (g.lvl b : Int) ≤ hi
    · rw [if_pos hc, if_pos (by omega)]
    · rw [if_neg hc, if_neg (by omega)]

/-- The version used by neighbor searches is the same function. -/
theorem existing_eq_existingI {g : Cfg} {E : Nat → Bool} (hw : g.WF) (ht : Tiled g E) {p : V3 Nat}
    {lo hi : Nat} (h : hi ≤ g.maxLvl) : existing g E p lo hi = existingI g E p lo hi := by
  by_cases hp : g.InGrid p
  · obtain ⟨b, he, hm⟩ := ht.cover p hp
    rw [ht.existing_eq hw hp he hm h, existingI_eq hw ht hp he hm]
    by_cases hc : lo ≤ g.lvl b ∧ g.lvl b ≤ hi
    · rw [if_pos hc, if_pos (by omega)]
    · rw [if_neg hc, if_neg (by omega)]
  · unfold existing existingI; rw [if_pos hp, if_pos hp]

end Dccrg
