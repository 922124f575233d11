import Verif.Nbr
/-!
# Six-directional neighbors: proofs
-/
namespace Dccrg
open Cfg

@[simp] theorem setD_same {α : Type} (p : V3 α) (d : Fin 3) (x : α) : setD p d x d = x := by
  simp [setD]

theorem setD_ne {α : Type} (p : V3 α) {d e : Fin 3} (x : α) (h : e ≠ d) : setD p d x e = p e := by
  simp [setD, h]

/-- Cover point just outside of the lower corner of a box, in negative or positive direction. -/
def nbrPt (lo : V3 Int) (s : Nat) (d : Fin 3) (pos : Bool) : V3 Int :=
  setD lo d (if pos then lo d + s else lo d - 1)

section
variable {g : Cfg} {E : Nat → Bool}

theorem inCover_nbrPt (hw : g.WF) {b : Nat} (hb : g.Valid b) {lo : V3 Int} (hl : g.Lift b lo)
    (d : Fin 3) (pos : Bool) :
    g.InCover (nbrPt lo (g.side b) d pos) ↔
      (g.periodic d = true ∨ (if pos then g.idx b d + g.side b < g.n d else 0 < g.idx b d)) := by
  have key : ∀ e, g.periodic e = true ∨ (lo e = g.idx b e ∧ 0 ≤ lo e ∧ lo e + g.side b ≤ g.n e) := by
    intro e
    cases hp : g.periodic e with
    | true => exact Or.inl rfl
    | false =>
      have := (hl e).2 hp
      have := idx_add_side_le hw hb e
      exact Or.inr (by omega)
  have hs := side_pos (g := g) b
  constructor
  · intro h
    rcases key d with h1 | h1
    · exact Or.inl h1
    · rcases h d with h2 | h2
      · exact Or.inl h2
      · right
        cases pos <;> simp [nbrPt] at h2 ⊢ <;> omega
  · intro h e
    rcases key e with h1 | h1
    · exact Or.inl h1
    · by_cases hed : e = d
      · subst hed
        rcases h with h | h
        · exact Or.inl h
        · right
          cases pos <;> simp [nbrPt] at h ⊢ <;> omega
      · right
        rw [nbrPt, setD_ne _ _ hed]; omega

theorem searchIdx_eq (hw : g.WF) {b : Nat} (hb : g.Valid b) {lo : V3 Int} (hl : g.Lift b lo)
    (d : Fin 3) (pos : Bool) :
    searchIdx g b d pos = if g.InCover (nbrPt lo (g.side b) d pos) then
      some (g.wrap (nbrPt lo (g.side b) d pos)) else none := by
  have hi := inCover_nbrPt hw hb hl d pos
  have hs := side_pos (g := g) b
  have hn := idx_add_side_le hw hb
  have hg := idx_inGrid hw hb
  -- index triples that differ from the cell's in dimension `d` only
  have key : ∀ x : Nat, x < g.n d → (g.n d : Int) ∣ nbrPt lo (g.side b) d pos d - x →
      g.wrap (nbrPt lo (g.side b) d pos) = setD (g.idx b) d x := by
    intro x hx hd
    apply wrap_eq hw
    · intro e
      by_cases hed : e = d
      · subst hed; simpa using hx
      · rw [setD_ne _ _ hed]; exact hg e
    · intro e
      by_cases hed : e = d
      · subst hed; simpa using hd
      · rw [setD_ne _ _ hed, nbrPt, setD_ne _ _ hed]; exact (hl e).1
  have hnd := hn d
  have hld := (hl d).1
  have hgd := hg d
  unfold searchIdx
  cases pos with
  | true =>
    simp only [if_true] at hi ⊢
    by_cases h1 : g.idx b d + g.side b < g.n d
    · rw [if_neg (by omega), if_pos (hi.2 (Or.inr h1)), key (g.idx b d + g.side b) h1]
      simp only [nbrPt, setD_same, if_true]
      have e : lo d + g.side b - ((g.idx b d + g.side b : Nat) : Int) = lo d - g.idx b d := by omega
      rw [e]; exact hld
    · rw [if_pos (by omega)]
      cases hp : g.periodic d with
      | true =>
        rw [if_pos rfl, if_pos (hi.2 (Or.inl hp)), key 0 (by omega)]
        simp only [nbrPt, setD_same, if_true]
        have e : lo d + g.side b - ((0 : Nat) : Int) = (lo d - g.idx b d) + g.n d := by omega
        rw [e]; exact Int.dvd_add hld (Int.dvd_refl _)
      | false =>
        rw [if_neg (by simp), if_neg]
        intro h
        rcases hi.1 h with h2 | h2
        · rw [hp] at h2; cases h2
        · exact h1 h2
  | false =>
    simp only [Bool.false_eq_true, if_false] at hi ⊢
    by_cases h1 : 0 < g.idx b d
    · rw [if_neg (by omega), if_pos (hi.2 (Or.inr h1)), key (g.idx b d - 1) (by omega)]
      simp only [nbrPt, setD_same, Bool.false_eq_true, if_false]
      have e : lo d - 1 - ((g.idx b d - 1 : Nat) : Int) = lo d - g.idx b d := by omega
      rw [e]; exact hld
    · rw [if_pos (by omega)]
      cases hp : g.periodic d with
      | true =>
        rw [if_pos rfl, if_pos (hi.2 (Or.inl hp)), key (g.n d - 1) (by omega)]
        simp only [nbrPt, setD_same, Bool.false_eq_true, if_false]
        have e : lo d - 1 - ((g.n d - 1 : Nat) : Int) = (lo d - g.idx b d) - g.n d := by omega
        rw [e]; exact Int.dvd_sub hld (Int.dvd_refl _)
      | false =>
        rw [if_neg (by simp), if_neg]
        intro h
        rcases hi.1 h with h2 | h2
        · rw [hp] at h2; cases h2
        · exact h1 h2

/-- Block of the size of a cell at given offset (in units of the cell's length) from the cell. -/
def Block (g : Cfg) (c : Nat) (o : V3 Int) (q : V3 Int) : Prop :=
  InBox (fun d => (g.idx c d : Int) + o d * g.side c) (g.side c) q

instance (g : Cfg) (c : Nat) (o q : V3 Int) : Decidable (Block g c o q) :=
  inferInstanceAs (Decidable (InBox _ _ _))

/-- Existing cell `b` is at neighborhood item `o` of cell `a`: they share an index triple. -/
def Meets (g : Cfg) (a : Nat) (o : V3 Int) (b : Nat) : Prop :=
  ∃ q, Block g a o q ∧ g.InCover q ∧ g.Mem (g.wrap q) b

/-- Refinement levels differ by at most one between every cell and cells at given neighborhood. -/
def BalancedFor (g : Cfg) (E : Nat → Bool) (H : List (V3 Int)) : Prop :=
  ∀ a b, E a = true → E b = true → ∀ o ∈ H, Meets g a o b →
    g.lvl a ≤ g.lvl b + 1 ∧ g.lvl b ≤ g.lvl a + 1

/-- Unit neighborhood item in direction `d`. -/
def unitItem (d : Fin 3) (pos : Bool) : V3 Int := setD (fun _ => 0) d (if pos then 1 else -1)

/-- Offsets of the six face neighbors. -/
def faces : List (V3 Int) :=
  [v3 0 0 (-1), v3 0 (-1) 0, v3 (-1) 0 0, v3 1 0 0, v3 0 1 0, v3 0 0 1]

theorem unitItem_mem (d : Fin 3) (pos : Bool) : unitItem d pos ∈ faces := by
  revert d pos; decide

/-- Blocks relative to any image of the cell. -/
theorem meets_of_lift (hw : g.WF) {a b : Nat} {la o q : V3 Int} (hl : g.Lift a la)
    (hq : InBox (fun d => la d + o d * g.side a) (g.side a) q) (hc : g.InCover q)
    (hm : g.Mem (g.wrap q) b) : Meets g a o b := by
  let q' : V3 Int := fun d => q d - la d + g.idx a d
  have e : g.wrap q' = g.wrap q := by
    apply wrap_eq hw (wrap_inGrid hw q)
    intro d
    have h1 := n_dvd_sub_wrap hw q d
    have h2 := (hl d).1
    have e : q' d - g.wrap q d = (q d - g.wrap q d) - (la d - g.idx a d) := by
      show q d - la d + g.idx a d - g.wrap q d = _; omega
    rw [e]; exact Int.dvd_sub h1 h2
  refine ⟨q', fun d => ?_, fun d => ?_, by rw [e]; exact hm⟩
  · have := hq d
    show (g.idx a d : Int) + o d * g.side a ≤ q d - la d + g.idx a d ∧
      q d - la d + g.idx a d < (g.idx a d : Int) + o d * g.side a + g.side a
    simp only at this
    omega
  · cases hp : g.periodic d with
    | true => exact Or.inl rfl
    | false =>
      have h1 := (hl d).2 hp
      rcases hc d with h | h
      · rw [hp] at h; cases h
      · right
        show 0 ≤ q d - la d + g.idx a d ∧ q d - la d + g.idx a d < _
        omega

theorem nbrPt_block {lo : V3 Int} {s : Nat} (hs : 0 < s) (d : Fin 3) (pos : Bool) :
    InBox (fun e => lo e + unitItem d pos e * s) s (nbrPt lo s d pos) := by
  intro e
  by_cases hed : e = d
  · subst hed
    cases pos <;> simp [nbrPt, unitItem] <;> omega
  · rw [nbrPt, setD_ne _ _ hed]
    simp only [unitItem, setD_ne _ _ hed, Int.zero_mul]
    omega

/-- Six-directional neighbors of a tiled grid with balanced faces. -/
theorem nbr6_eq (hw : g.WF) (ht : Tiled g E) (hbal : BalancedFor g E faces) {b : Nat}
    (hb : E b = true) {lo : V3 Int} (hl : g.Lift b lo) (d : Fin 3) (pos : Bool) {a : Nat}
    (ha : E a = true) (hq : g.InCover (nbrPt lo (g.side b) d pos))
    (hm : g.Mem (g.wrap (nbrPt lo (g.side b) d pos)) a) : nbr6 g E b d pos = a := by
  have hv := ht.valid b hb
  unfold nbr6
  rw [searchIdx_eq hw hv hl, if_pos hq]
  have h1 := hbal b a hb ha _ (unitItem_mem d pos)
    (meets_of_lift hw hl (nbrPt_block (side_pos b) d pos) hq hm)
  have h2 := lvl_le hv
  have h3 := lvl_le (ht.valid a ha)
  simp only
  rw [ht.existing_eq hw (wrap_inGrid hw _) ha hm (by split <;> omega), if_pos]
  constructor
  · omega
  · split <;> omega

theorem nbr6_none (hw : g.WF) {b : Nat} (hv : g.Valid b) {lo : V3 Int} (hl : g.Lift b lo) (d : Fin 3)
    (pos : Bool) (hq : ¬ g.InCover (nbrPt lo (g.side b) d pos)) : nbr6 g E b d pos = 0 := by
  unfold nbr6
  rw [searchIdx_eq hw hv hl, if_neg hq]

end
end Dccrg
