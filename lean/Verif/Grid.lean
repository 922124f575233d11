import Verif.MapTree
/-!
# Existing cells and the periodic cover of the grid

`Dccrg::cell_process` (dccrg.hpp:7282) maps every existing cell to its owner. Functions that only
ask whether a cell exists (`cell_process.count(cell) > 0`) take the set of existing cells
`E : Nat → Bool`.

In periodic dimensions the grid is unrolled: a *cover point* is any integer triple, `wrap` maps it to
an index triple of the grid. Non-periodic dimensions are not unrolled (`InCover`).
-/
namespace Dccrg

namespace Cfg
variable (g : Cfg)

/-- Cover point that is inside of the grid in every non-periodic dimension. -/
def InCover (q : V3 Int) : Prop := ∀ d, g.periodic d = true ∨ (0 ≤ q d ∧ q d < g.n d)

instance (q : V3 Int) : Decidable (g.InCover q) := inferInstanceAs (Decidable (∀ _, _))

/-- Index triple of a cover point. -/
def wrap (q : V3 Int) : V3 Nat := fun d => (q d % (g.n d : Int)).toNat

/-- `lo` is the lower corner of a periodic image of cell `c`. -/
def Lift (c : Nat) (lo : V3 Int) : Prop :=
  ∀ d, (g.n d : Int) ∣ lo d - g.idx c d ∧ (g.periodic d = false → lo d = g.idx c d)

end Cfg

/-- Cover point `q` is in the cube with lower corner `lo` and side `s`. -/
def InBox (lo : V3 Int) (s : Nat) (q : V3 Int) : Prop := ∀ d, lo d ≤ q d ∧ q d < lo d + s

instance (lo : V3 Int) (s : Nat) (q : V3 Int) : Decidable (InBox lo s q) :=
  inferInstanceAs (Decidable (∀ _, _))

/-- Existing cells tile the grid: only valid cells exist and every index triple is in exactly one. -/
structure Tiled (g : Cfg) (E : Nat → Bool) : Prop where
  valid : ∀ c, E c = true → g.Valid c
  cover : ∀ p, g.InGrid p → ∃ c, E c = true ∧ g.Mem p c
  unique : ∀ p a b, E a = true → E b = true → g.Mem p a → g.Mem p b → a = b

/-- `Dccrg::get_child` (dccrg.hpp:9749-9775): first child if it exists, otherwise the cell if it
exists, otherwise `error_cell`. For invalid ids every lookup fails. -/
def getChild (g : Cfg) (E : Nat → Bool) (c : Nat) : Nat :=
  if ¬ g.Valid c then 0
  else if g.lvl c = g.maxLvl then (if E c then c else 0)
  else
    let k := g.cellAt (g.lvl c + 1) (g.idx c)
    if E k then k else if E c then c else 0

/-- Loop of `get_existing_cell` (dccrg.hpp:11399-11408): levels from `lo + k` down to `lo`. -/
def existingLoop (g : Cfg) (E : Nat → Bool) (p : V3 Nat) (lo : Nat) : Nat → Nat
  | 0 => if E (g.cellAt lo p) then g.cellAt lo p else 0
  | k + 1 => if E (g.cellAt (lo + (k + 1)) p) then g.cellAt (lo + (k + 1)) p
             else existingLoop g E p lo k

/-- `Dccrg::get_existing_cell(indices, min, max)` (dccrg.hpp:11379-11412) for
`0 ≤ min`, `max ≤` maximum refinement level. -/
def existing (g : Cfg) (E : Nat → Bool) (p : V3 Nat) (lo hi : Nat) : Nat :=
  if ¬ g.InGrid p then 0
  else if lo > hi then 0
  else existingLoop g E p lo (hi - lo)

namespace Cfg
variable {g : Cfg}

theorem n_pos (hw : g.WF) (d : Fin 3) : 0 < g.n d := Nat.mul_pos (hw d) (Nat.pow_pos (by omega))

theorem wrap_cast (hw : g.WF) (q : V3 Int) (d : Fin 3) : (g.wrap q d : Int) = q d % (g.n d : Int) := by
  have := n_pos hw d
  exact Int.toNat_of_nonneg (Int.emod_nonneg _ (by omega))

theorem wrap_inGrid (hw : g.WF) (q : V3 Int) : g.InGrid (g.wrap q) := fun d => by
  have h1 := wrap_cast hw q d
  have h2 := Int.emod_lt_of_pos (q d) (b := (g.n d : Int)) (by have := n_pos hw d; omega)
  omega

theorem wrap_of_range {q : V3 Int} {d : Fin 3} (h : 0 ≤ q d ∧ q d < g.n d) :
    (g.wrap q d : Int) = q d := by
  rw [wrap, Int.emod_eq_of_lt h.1 h.2]; omega

theorem wrap_nat {p : V3 Nat} (hp : g.InGrid p) : g.wrap (fun d => (p d : Int)) = p := by
  funext d
  have := wrap_of_range (g := g) (q := fun d => (p d : Int)) (d := d) ⟨by simp, by have := hp d; simpa using this⟩
  exact Int.ofNat.inj this

theorem inCover_nat {p : V3 Nat} (hp : g.InGrid p) : g.InCover (fun d => (p d : Int)) := fun d =>
  Or.inr ⟨by simp, by have := hp d; simpa using this⟩

theorem n_dvd_sub_wrap (hw : g.WF) (q : V3 Int) (d : Fin 3) : (g.n d : Int) ∣ q d - g.wrap q d := by
  rw [wrap_cast hw]
  exact Int.dvd_self_sub_emod

/-- Cover point congruent to an index triple of the grid. -/
theorem wrap_eq (hw : g.WF) {q : V3 Int} {p : V3 Nat} (hp : g.InGrid p)
    (h : ∀ d, (g.n d : Int) ∣ q d - p d) : g.wrap q = p := by
  funext d
  have h1 := wrap_cast hw q d
  have h2 : q d % (g.n d : Int) = (p d : Int) % (g.n d : Int) :=
    (Int.emod_emod_of_dvd _ (Int.dvd_refl _)).symm.trans (by
      rw [Int.emod_emod_of_dvd _ (Int.dvd_refl _)]
      exact (Int.emod_eq_emod_iff_emod_sub_eq_zero).2 (Int.emod_eq_zero_of_dvd (h d)))
  rw [h2, Int.emod_eq_of_lt (by omega) (by have := hp d; omega)] at h1
  exact Int.ofNat.inj h1

theorem side_dvd_n {c : Nat} (h : g.Valid c) (d : Fin 3) : (g.side c : Int) ∣ g.n d := by
  rw [n_eq (lvl_le h) d, side]
  exact Int.natCast_dvd_natCast.2 (Nat.dvd_mul_left _ _)

theorem lift_self (c : Nat) : g.Lift c (fun d => (g.idx c d : Int)) := fun d => by simp

theorem lift_dvd (hw : g.WF) {c : Nat} (h : g.Valid c) {lo : V3 Int} (hl : g.Lift c lo) (d : Fin 3) :
    (g.side c : Int) ∣ lo d := by
  have h1 := Int.dvd_trans (side_dvd_n h d) (hl d).1
  have h2 : (g.side c : Int) ∣ g.idx c d := Int.natCast_dvd_natCast.2 (side_dvd_idx hw h d)
  have := Int.dvd_add h1 h2
  rwa [Int.sub_add_cancel] at this

theorem lift_mem (hw : g.WF) {c : Nat} (h : g.Valid c) {lo : V3 Int} (hl : g.Lift c lo) {q : V3 Int}
    (hq : InBox lo (g.side c) q) (d : Fin 3) : (g.wrap q d : Int) = g.idx c d + (q d - lo d) := by
  have hi := idx_add_side_le hw h
  have : ∀ d, 0 ≤ q d - lo d ∧ q d - lo d < g.side c := fun d => by have := hq d; omega
  have e := wrap_eq hw (q := q) (p := fun d => g.idx c d + (q d - lo d).toNat)
    (fun d => by
      show g.idx c d + (q d - lo d).toNat < _
      have := hi d; have := hq d; omega)
    (fun d => by
      have h1 := (hl d).1
      have h2 := this d
      have h3 : q d - ((g.idx c d + (q d - lo d).toNat : Nat) : Int) = lo d - g.idx c d := by omega
      rw [h3]; exact h1)
  have h4 := congrFun e d
  have := this d
  omega

theorem mem_of_box (hw : g.WF) {c : Nat} (h : g.Valid c) {lo : V3 Int} (hl : g.Lift c lo) {q : V3 Int}
    (hq : InBox lo (g.side c) q) : g.Mem (g.wrap q) c := fun d => by
  have h1 := lift_mem hw h hl hq d
  have h2 := hq d
  omega

theorem inCover_of_box (hw : g.WF) {c : Nat} (h : g.Valid c) {lo : V3 Int} (hl : g.Lift c lo)
    {q : V3 Int} (hq : InBox lo (g.side c) q) : g.InCover q := fun d => by
  have h2 := hq d
  have h3 := idx_add_side_le hw h d
  cases hp : g.periodic d with
  | true => exact Or.inl rfl
  | false =>
    have := (hl d).2 hp
    exact Or.inr (by omega)

/-- Lower corner of the image of a cell around a cover point. -/
theorem exists_lift (hw : g.WF) {c : Nat} {q : V3 Int} (hc : g.InCover q)
    (hm : g.Mem (g.wrap q) c) :
    g.Lift c (fun d => q d - (g.wrap q d - g.idx c d)) ∧
    InBox (fun d => q d - (g.wrap q d - g.idx c d)) (g.side c) q := by
  constructor
  · intro d
    refine ⟨?_, fun hp => ?_⟩
    · have := n_dvd_sub_wrap hw q d
      have e : q d - (g.wrap q d - g.idx c d) - (g.idx c d : Int) = q d - g.wrap q d := by omega
      show _ ∣ q d - (g.wrap q d - g.idx c d) - (g.idx c d : Int)
      rw [e]; exact this
    · rcases hc d with h | h
      · rw [hp] at h; cases h
      · have := wrap_of_range (g := g) h
        show q d - (g.wrap q d - g.idx c d) = _
        omega
  · intro d
    have := hm d
    show q d - (g.wrap q d - g.idx c d) ≤ _ ∧ _ < q d - (g.wrap q d - g.idx c d) + _
    omega

theorem lift_unique (hw : g.WF) {c : Nat} (h : g.Valid c) {lo lo' : V3 Int} (hl : g.Lift c lo)
    (hl' : g.Lift c lo') {q : V3 Int} (hq : InBox lo (g.side c) q) (hq' : InBox lo' (g.side c) q) :
    lo = lo' := by
  funext d
  have h1 := lift_mem hw h hl hq d
  have h2 := lift_mem hw h hl' hq' d
  omega

end Cfg

open Cfg

section tiled
variable {g : Cfg} {E : Nat → Bool}

/-- Two existing cells that share an index triple are the same cell. -/
theorem Tiled.leaf_lift (hw : g.WF) (ht : Tiled g E) {q : V3 Int} (hq : g.InCover q) :
    ∃ b lo, E b = true ∧ g.Lift b lo ∧ InBox lo (g.side b) q := by
  obtain ⟨b, hb, hm⟩ := ht.cover _ (wrap_inGrid hw q)
  obtain ⟨h1, h2⟩ := exists_lift hw hq hm
  exact ⟨b, _, hb, h1, h2⟩

theorem Tiled.lift_eq (hw : g.WF) (ht : Tiled g E) {a b : Nat} {la lb q : V3 Int} (ha : E a = true)
    (hb : E b = true) (hla : g.Lift a la) (hlb : g.Lift b lb) (hqa : InBox la (g.side a) q)
    (hqb : InBox lb (g.side b) q) : a = b ∧ la = lb := by
  have e := ht.unique _ a b ha hb (mem_of_box hw (ht.valid _ ha) hla hqa)
    (mem_of_box hw (ht.valid _ hb) hlb hqb)
  subst e
  exact ⟨rfl, lift_unique hw (ht.valid _ ha) hla hlb hqa hqb⟩

/-- An existing cell has no existing first child. -/
theorem Tiled.no_child (hw : g.WF) (ht : Tiled g E) {c : Nat} (hc : E c = true)
    (hl : g.lvl c < g.maxLvl) {k : Nat} (hk : k ∈ g.children c) : E k = false := by
  cases he : E k with
  | false => rfl
  | true =>
    have hv := ht.valid c hc
    have hm := mem_of_mem_children hw hv hl hk (mem_idx k)
    have e := ht.unique _ k c he hc (mem_idx k) hm
    have := ((children_spec hw hv hl).1 hk).2.1
    rw [e] at this
    omega

theorem first_child (hw : g.WF) {c : Nat} (hv : g.Valid c) (hl : g.lvl c < g.maxLvl) :
    g.cellAt (g.lvl c + 1) (g.idx c) ∈ g.children c := by
  rw [children_spec hw hv hl]
  have hi := idx_inGrid hw hv
  refine ⟨cellAt_valid hi (by omega), lvl_cellAt hi (by omega), ?_⟩
  have hv' := cellAt_valid hi (l := g.lvl c + 1) (by omega)
  have hl' := lvl_cellAt hi (l := g.lvl c + 1) (by omega)
  apply eq_of_mem_lvl hw (parent_valid hw hv') hv (by rw [lvl_parent hw hv', hl']; omega)
    (mem_parent hw hv' (mem_cellAt hi (by omega))) (mem_idx c)

/-- `cell == get_child(cell)` holds exactly for existing cells. -/
theorem Tiled.getChild_eq_iff (hw : g.WF) (ht : Tiled g E) {c : Nat} (hc : c ≠ 0) :
    getChild g E c = c ↔ E c = true := by
  unfold getChild
  by_cases hv : g.Valid c
  · rw [if_neg (by simpa using hv)]
    by_cases hm : g.lvl c = g.maxLvl
    · rw [if_pos hm]
      by_cases he : E c = true
      · simp [he]
      · simp [he]; omega
    · rw [if_neg hm]
      have hl : g.lvl c < g.maxLvl := by have := lvl_le hv; omega
      have hk := first_child hw hv hl
      have hne : g.cellAt (g.lvl c + 1) (g.idx c) ≠ c := by
        intro e
        have := ((children_spec hw hv hl).1 hk).2.1
        rw [e] at this; omega
      by_cases he : E c = true
      · have := ht.no_child hw he hl hk
        simp [this, he]
      · by_cases hek : E (g.cellAt (g.lvl c + 1) (g.idx c)) = true
        · simp [hek, he, hne]
        · simp [hek, he]; omega
  · rw [if_pos (by simpa using hv)]
    constructor
    · intro e; omega
    · intro he; exact absurd (ht.valid c he) hv

theorem existingLoop_zero {p : V3 Nat} {lo k : Nat}
    (h : ∀ l, lo ≤ l → l ≤ lo + k → E (g.cellAt l p) = false) : existingLoop g E p lo k = 0 := by
  induction k with
  | zero => simp [existingLoop, h lo (by omega) (by omega)]
  | succ k ih =>
    rw [existingLoop, h (lo + (k + 1)) (by omega) (by omega)]
    simpa using ih (fun l h1 h2 => h l h1 (by omega))

theorem existingLoop_found {p : V3 Nat} {lo k b l : Nat} (hl : lo ≤ l) (hl' : l ≤ lo + k)
    (hb : g.cellAt l p = b) (he : E b = true)
    (h : ∀ m, m ≠ l → lo ≤ m → m ≤ lo + k → E (g.cellAt m p) = false) :
    existingLoop g E p lo k = b := by
  induction k with
  | zero =>
    have : l = lo := by omega
    subst this
    simp [existingLoop, hb, he]
  | succ k ih =>
    rw [existingLoop]
    by_cases e : l = lo + (k + 1)
    · rw [← e, hb, he]; simp
    · rw [h (lo + (k + 1)) (by omega) (by omega) (by omega)]
      simpa using ih (by omega) (fun m h1 h2 h3 => h m h1 h2 (by omega))

/-- Cells other than the one that covers `p` don't exist at `p`. -/
theorem Tiled.cellAt_ne (ht : Tiled g E) {p : V3 Nat} (hp : g.InGrid p) {b : Nat} (he : E b = true)
    (hm : g.Mem p b) {m : Nat} (hml : m ≤ g.maxLvl) (hne : m ≠ g.lvl b) :
    E (g.cellAt m p) = false := by
  cases hx : E (g.cellAt m p) with
  | false => rfl
  | true =>
    have e := ht.unique p _ _ hx he (mem_cellAt hp hml) hm
    have := lvl_cellAt hp hml
    rw [e] at this
    exact absurd this.symm hne

/-- `get_existing_cell` of a tiled grid. -/
theorem Tiled.existing_eq (hw : g.WF) (ht : Tiled g E) {p : V3 Nat} (hp : g.InGrid p) {b : Nat}
    (he : E b = true) (hm : g.Mem p b) {lo hi : Nat} (hhi : hi ≤ g.maxLvl) :
    existing g E p lo hi = if lo ≤ g.lvl b ∧ g.lvl b ≤ hi then b else 0 := by
  unfold existing
  rw [if_neg (by simpa using hp)]
  have hb := cellAt_of_mem hw (ht.valid b he) hm
  by_cases h1 : lo > hi
  · rw [if_pos h1, if_neg (by omega)]
  · rw [if_neg h1]
    by_cases h2 : lo ≤ g.lvl b ∧ g.lvl b ≤ hi
    · rw [if_pos h2]
      exact existingLoop_found (l := g.lvl b) h2.1 (by omega) hb he
        (fun m h3 _ h5 => ht.cellAt_ne hp he hm (by omega) h3)
    · rw [if_neg h2]
      exact existingLoop_zero (fun l h3 h4 => ht.cellAt_ne hp he hm (by omega) (by omega))

end tiled

end Dccrg
