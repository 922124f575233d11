import Verif.NbrSix
/-!
# The search loop of `find_neighbors_of`: every step goes to the adjacent existing cell, keeps track
of its location and the loop ends.
-/
namespace Dccrg
open Cfg

theorem int_div_le {a b k : Int} (hk : 0 < k) (h : a ≤ b) : a / k ≤ b / k :=
  Int.ediv_le_ediv hk h

theorem dvd_floor_eq {x y z k : Int} (hx : k ∣ x) (hy : k ∣ y) (h1 : x ≤ z) (h2 : z < x + k)
    (h3 : y ≤ z) (h4 : z < y + k) : x = y := by
  obtain ⟨a, rfl⟩ := hx
  obtain ⟨b, rfl⟩ := hy
  have hk : 0 < k := by omega
  have e1 : k * a + k = k * (a + 1) := by rw [Int.mul_add, Int.mul_one]
  have e2 : k * b + k = k * (b + 1) := by rw [Int.mul_add, Int.mul_one]
  have ha : a < b + 1 := Int.lt_of_mul_lt_mul_left (a := k) (by omega) (by omega)
  have hb : b < a + 1 := Int.lt_of_mul_lt_mul_left (a := k) (by omega) (by omega)
  have : a = b := by omega
  rw [this]

theorem pow_dvd_or {a b : Nat} : (2 ^ a : Nat) ∣ 2 ^ b ∨ (2 ^ b : Nat) ∣ 2 ^ a := by
  rcases Nat.le_total a b with h | h
  · exact Or.inl (Nat.pow_dvd_pow 2 h)
  · exact Or.inr (Nat.pow_dvd_pow 2 h)

section
variable {g : Cfg} {E : Nat → Bool}

/-- Sides of cells divide each other. -/
theorem side_dvd_or (a b : Nat) : (g.side a : Int) ∣ g.side b ∨ (g.side b : Int) ∣ g.side a := by
  rcases pow_dvd_or (a := g.maxLvl - g.lvl a) (b := g.maxLvl - g.lvl b) with h | h
  · exact Or.inl (Int.natCast_dvd_natCast.2 h)
  · exact Or.inr (Int.natCast_dvd_natCast.2 h)

/-- Location of the adjacent existing cell. -/
theorem step_geom (hw : g.WF) (ht : Tiled g E) {a b : Nat} {la lo : V3 Int} (ha : E a = true)
    (hb : E b = true) (hla : g.Lift a la) (hlo : g.Lift b lo) {d : Fin 3} {pos : Bool}
    (hq : InBox la (g.side a) (nbrPt lo (g.side b) d pos)) :
    (if pos then la d = lo d + g.side b else la d + g.side a = lo d) ∧
    (∀ e, e ≠ d → la e ≤ lo e ∧ lo e < la e + g.side a) := by
  have hs := side_pos (g := g) b
  have hsa := side_pos (g := g) a
  have hother : ∀ e, e ≠ d → la e ≤ lo e ∧ lo e < la e + g.side a := by
    intro e he
    have := hq e
    rwa [nbrPt, setD_ne _ _ he] at this
  refine ⟨?_, hother⟩
  have hd := hq d
  have hnot : ¬ InBox la (g.side a) lo := by
    intro h
    have hself : InBox lo (g.side b) lo := fun e => by omega
    obtain ⟨_, rfl⟩ := ht.lift_eq hw ha hb hla hlo h hself
    have := ht.lift_eq hw ha hb hla hlo h hself
    obtain ⟨rfl, -⟩ := this
    have hd' := hq d
    cases pos <;> simp [nbrPt] at hd' <;> omega
  have hnotd : ¬ (la d ≤ lo d ∧ lo d < la d + g.side a) := by
    intro h
    apply hnot
    intro e
    by_cases he : e = d
    · rw [he]; exact h
    · exact hother e he
  cases pos with
  | false =>
    simp [nbrPt] at hd ⊢
    omega
  | true =>
    simp [nbrPt] at hd ⊢
    have h1 := lift_dvd hw (ht.valid _ ha) hla d
    have h2 := lift_dvd hw (ht.valid _ hb) hlo d
    have h3 : (g.side b : Int) ∣ lo d + g.side b := Int.dvd_add h2 (Int.dvd_refl _)
    rcases side_dvd_or (g := g) a b with h | h
    · exact dvd_floor_eq h1 (Int.dvd_trans h h3) hd.1 hd.2 (Int.le_refl _) (by omega)
    · exact dvd_floor_eq (Int.dvd_trans h h1) h3 (z := lo d + g.side b) (by omega) (by omega)
        (Int.le_refl _) (by omega)

theorem side_double {a b : Nat} (hva : g.Valid a) (hlb : g.lvl a = g.lvl b + 1) :
    g.side b = 2 * g.side a := by
  have := lvl_le hva
  rw [side, side, hlb, show g.maxLvl - g.lvl b = (g.maxLvl - (g.lvl b + 1)) + 1 by omega, Nat.pow_succ,
    Nat.mul_comm]

/-- Lower corner of the parent around an image of a cell. -/
theorem parent_lift (hw : g.WF) {b : Nat} (hv : g.Valid b) (h0 : 0 < g.lvl b) {lo : V3 Int}
    (hlo : g.Lift b lo) (e : Fin 3) :
    (2 * (g.side b : Int)) ∣ lo e + parOff g b e ∧ lo e + parOff g b e ≤ lo e ∧
      lo e < lo e + parOff g b e + 2 * g.side b := by
  have hp := parent_valid hw hv
  have hl := lvl_parent hw hv
  have hne : g.parent b ≠ b := by intro h; rw [h] at hl; omega
  have hs := side_parent hw hv h0
  have hm := mem_parent hw hv (mem_idx b) e
  rw [hs] at hm
  unfold parOff
  rw [if_neg hne]
  refine ⟨?_, ?_, ?_⟩
  · have h1 := (hlo e).1
    have h2 := side_dvd_n hp e
    have h3 : (g.side (g.parent b) : Int) ∣ g.idx (g.parent b) e :=
      Int.natCast_dvd_natCast.2 (side_dvd_idx hw hp e)
    rw [hs] at h2 h3
    have h4 := Int.dvd_add (Int.dvd_trans h2 h1) h3
    have e1 : lo e + ((g.idx (g.parent b) e : Int) - g.idx b e)
        = lo e - g.idx b e + g.idx (g.parent b) e := by omega
    have e2 : ((2 * g.side b : Nat) : Int) = 2 * (g.side b : Int) := by omega
    rw [e1, ← e2]; exact h4
  · show lo e + ((g.idx (g.parent b) e : Int) - g.idx b e) ≤ _; omega
  · show _ < lo e + ((g.idx (g.parent b) e : Int) - g.idx b e) + _; omega

/-- `adjust_offset` gives the location of the adjacent cell. -/
theorem adjust_eq (hw : g.WF) (ht : Tiled g E) {a b : Nat} {la lo base : V3 Int} (ha : E a = true)
    (hb : E b = true) (hla : g.Lift a la) (hlo : g.Lift b lo) {d : Fin 3} {pos : Bool}
    (hq : InBox la (g.side a) (nbrPt lo (g.side b) d pos))
    (hbal : g.lvl a ≤ g.lvl b + 1 ∧ g.lvl b ≤ g.lvl a + 1) :
    adjust g (fun e => lo e - base e) b a d pos = fun e => la e - base e := by
  obtain ⟨hd, hother⟩ := step_geom hw ht ha hb hla hlo hq
  have hva := ht.valid _ ha
  have hvb := ht.valid _ hb
  have hs := side_pos (g := g) b
  have hsa := side_pos (g := g) a
  have da := lift_dvd hw hva hla
  have db := lift_dvd hw hvb hlo
  funext e
  have hcase : g.lvl a = g.lvl b ∨ g.lvl a = g.lvl b + 1 ∨ g.lvl b = g.lvl a + 1 := by omega
  unfold adjust
  rcases hcase with h | h | h
  · -- same size
    have hss : g.side a = g.side b := by rw [side, side, h]
    simp only [hss, if_true]
    by_cases he : e = d
    · subst he
      rw [hss] at hd
      cases pos <;> simp at hd ⊢ <;> omega
    · rw [setD_ne _ _ he]
      have h1 := hother e he
      have := dvd_floor_eq (da e) (hss ▸ db e) h1.1 h1.2 (Int.le_refl _) (by omega)
      rw [this]
  · -- neighbor is smaller
    have hss : g.side b = 2 * g.side a := side_double hva h
    have hp := parent_lift hw hva (by omega) hla
    simp only
    rw [if_neg (by omega), if_neg (by omega)]
    have db' : ∀ e, 2 * (g.side a : Int) ∣ lo e := fun e => by
      have := db e
      rw [hss] at this
      have e2 : ((2 * g.side a : Nat) : Int) = 2 * (g.side a : Int) := by omega
      rwa [e2] at this
    by_cases he : e = d
    · subst he
      have hpe := hp e
      cases pos with
      | true =>
        simp only [if_true, setD_same] at hd ⊢
        have := dvd_floor_eq hpe.1 (Int.dvd_add (db' e) (Int.dvd_refl _)) hpe.2.1 hpe.2.2
          (by omega) (by omega)
        omega
      | false =>
        simp only [Bool.false_eq_true, if_false, setD_same] at hd ⊢
        have := dvd_floor_eq hpe.1 (Int.dvd_sub (db' e) (Int.dvd_refl _)) hpe.2.1 hpe.2.2
          (by omega) (by omega)
        omega
    · rw [setD_ne _ _ he]
      have h1 := hother e he
      have hpe := hp e
      have h2 : la e = lo e := dvd_floor_eq (da e) (Int.dvd_trans ⟨2, by rw [Int.mul_comm]⟩ (db' e))
        h1.1 h1.2 (Int.le_refl _) (by omega)
      have := dvd_floor_eq hpe.1 (db' e) hpe.2.1 hpe.2.2 (by omega) (by omega)
      omega
  · -- neighbor is larger
    have hss : g.side a = 2 * g.side b := side_double hvb h
    have hp := parent_lift hw hvb (by omega) hlo
    simp only
    rw [if_neg (by omega), if_pos (by omega)]
    have da' : ∀ e, 2 * (g.side b : Int) ∣ la e := fun e => by
      have := da e
      rw [hss] at this
      have e2 : ((2 * g.side b : Nat) : Int) = 2 * (g.side b : Int) := by omega
      rwa [e2] at this
    by_cases he : e = d
    · subst he
      have hpe := hp e
      cases pos with
      | true =>
        simp only [if_true, setD_same] at hd ⊢
        have := dvd_floor_eq hpe.1 (Int.dvd_sub (da' e) (Int.dvd_refl _)) hpe.2.1 hpe.2.2
          (by omega) (by omega)
        omega
      | false =>
        simp only [Bool.false_eq_true, if_false, setD_same] at hd ⊢
        have := dvd_floor_eq hpe.1 (Int.dvd_add (da' e) (Int.dvd_refl _)) hpe.2.1 hpe.2.2
          (by omega) (by omega)
        omega
    · rw [setD_ne _ _ he]
      have h1 := hother e he
      have hpe := hp e
      have := dvd_floor_eq hpe.1 (da' e) hpe.2.1 hpe.2.2 (by omega) (by omega)
      omega

end

/-! ## Termination measure -/

/-- Weighted sum of distances between blocks of `x` and `t` at scales `2^0, ..., 2^(J-1)`. -/
def meas (x t : Int) : Nat → Nat
  | 0 => 0
  | J + 1 => 32 ^ J * (x / 2 ^ J - t / 2 ^ J).natAbs + meas x t J

theorem meas_self (t : Int) (J : Nat) : meas t t J = 0 := by
  induction J with
  | zero => rfl
  | succ J ih => simp [meas, ih]

theorem pow2_pos (J : Nat) : (0 : Int) < 2 ^ J := Int.pow_pos (by omega)

theorem div_close {x y m : Int} {k : Nat} (hm : 0 < m) (h : (x - y).natAbs ≤ (k : Int) * m) :
    (x / m - y / m).natAbs ≤ k := by
  have h1 : x ≤ y + k * m := by omega
  have h2 : y ≤ x + k * m := by omega
  have h3 := Int.ediv_le_ediv hm h1
  have h4 := Int.ediv_le_ediv hm h2
  rw [Int.add_mul_ediv_right _ _ (by omega)] at h3 h4
  omega

theorem meas_lip (t : Int) (J : Nat) (x y : Int) (k : Nat)
    (h : ((x - y).natAbs : Int) ≤ (k : Int) * 2 ^ J) :
    4 * meas x t J ≤ 4 * meas y t J + k * 32 ^ J := by
  induction J generalizing k with
  | zero => simp [meas]
  | succ J ih =>
    have h' : ((x - y).natAbs : Int) ≤ ((2 * k : Nat) : Int) * 2 ^ J := by
      have e : ((2 * k : Nat) : Int) * 2 ^ J = (k : Int) * 2 ^ (J + 1) := by
        rw [Int.pow_succ]
        have : ((2 * k : Nat) : Int) = (k : Int) * 2 := by omega
        rw [this, Int.mul_assoc, Int.mul_comm 2]
      rw [e]; exact h
    have h1 := ih (2 * k) h'
    have h2 := div_close (pow2_pos J) h'
    have h3 : (x / 2 ^ J - t / 2 ^ J).natAbs ≤ (y / 2 ^ J - t / 2 ^ J).natAbs + 2 * k := by omega
    have h4 := Nat.mul_le_mul_left (32 ^ J) h3
    rw [Nat.mul_add] at h4
    have h5 : 32 ^ J * (2 * k) = 2 * (k * 32 ^ J) := by
      rw [Nat.mul_left_comm, Nat.mul_comm (32 ^ J) k]
    have h6 : k * 32 ^ (J + 1) = 32 * (k * 32 ^ J) := by
      rw [Nat.pow_succ, ← Nat.mul_assoc, Nat.mul_comm 32]
    have h7 : 2 * k * 32 ^ J = 2 * (k * 32 ^ J) := Nat.mul_assoc _ _ _
    simp only [meas]
    omega

theorem meas_coarse (t x y : Int) (j J : Nat)
    (hl : ((y - x).natAbs : Int) ≤ 2 ^ j)
    (hc : ∀ i, j ≤ i → (y / 2 ^ i - t / 2 ^ i).natAbs ≤ (x / 2 ^ i - t / 2 ^ i).natAbs) :
    4 * meas y t (j + J) ≤ 4 * meas x t (j + J) + 32 ^ j := by
  induction J with
  | zero =>
    have := meas_lip t j y x 1 (by simpa using hl)
    simpa using this
  | succ J ih =>
    rw [show j + (J + 1) = (j + J) + 1 by omega]
    simp only [meas]
    have := Nat.mul_le_mul_left (32 ^ (j + J)) (hc (j + J) (by omega))
    omega

theorem meas_strict (t x y : Int) (j J : Nat) (hl : ((y - x).natAbs : Int) ≤ 2 ^ j)
    (hc : ∀ i, j ≤ i → (y / 2 ^ i - t / 2 ^ i).natAbs ≤ (x / 2 ^ i - t / 2 ^ i).natAbs)
    (hs : (y / 2 ^ j - t / 2 ^ j).natAbs < (x / 2 ^ j - t / 2 ^ j).natAbs) :
    4 * meas y t (j + 1 + J) + 4 * 32 ^ j ≤ 4 * meas x t (j + 1 + J) + 32 ^ j := by
  induction J with
  | zero =>
    have h1 := meas_lip t j y x 1 (by simpa using hl)
    have h2 := Nat.mul_le_mul_left (32 ^ j) (Nat.succ_le_of_lt hs)
    rw [Nat.mul_succ] at h2
    simp only [meas]
    omega
  | succ J ih =>
    rw [show j + 1 + (J + 1) = (j + 1 + J) + 1 by omega]
    simp only [meas]
    have := Nat.mul_le_mul_left (32 ^ (j + 1 + J)) (hc (j + 1 + J) (by omega))
    omega

/-- Measure of a triple. -/
def meas3 (x t : V3 Int) (J : Nat) : Nat := meas (x 0) (t 0) J + meas (x 1) (t 1) J + meas (x 2) (t 2) J

theorem meas3_dec {t x y : V3 Int} {d : Fin 3} {j J : Nat} (hjJ : j < J)
    (hl : ∀ e, ((y e - x e).natAbs : Int) ≤ 2 ^ j)
    (hc : ∀ e i, j ≤ i → (y e / 2 ^ i - t e / 2 ^ i).natAbs ≤ (x e / 2 ^ i - t e / 2 ^ i).natAbs)
    (hs : (y d / 2 ^ j - t d / 2 ^ j).natAbs < (x d / 2 ^ j - t d / 2 ^ j).natAbs) :
    meas3 y t J < meas3 x t J := by
  have h1 : ∀ e, 4 * meas (y e) (t e) J ≤ 4 * meas (x e) (t e) J + 32 ^ j := fun e => by
    have := meas_coarse (t e) (x e) (y e) j (J - j) (hl e) (hc e)
    rwa [show j + (J - j) = J by omega] at this
  have h2 : 4 * meas (y d) (t d) J + 4 * 32 ^ j ≤ 4 * meas (x d) (t d) J + 32 ^ j := by
    have := meas_strict (t d) (x d) (y d) j (J - (j + 1)) (hl d) (hc d) hs
    rwa [show j + 1 + (J - (j + 1)) = J by omega] at this
  have hp : 0 < 32 ^ j := Nat.pow_pos (by omega)
  unfold meas3
  have a0 := h1 0
  have a1 := h1 1
  have a2 := h1 2
  match d, h2 with
  | 0, h2 => omega
  | 1, h2 => omega
  | 2, h2 => omega

/-- Points within an aligned block of size `2^i` are in the same block. -/
theorem same_block {x y k : Int} {s i : Nat} (hsi : s ∣ 2 ^ i) (hk : (s : Int) ∣ k) (hx : k ≤ x)
    (hx' : x < k + s) (hy : k ≤ y) (hy' : y < k + s) : x / 2 ^ i = y / 2 ^ i := by
  obtain ⟨m, rfl⟩ := hk
  obtain ⟨r, hr⟩ := hsi
  have hs : (0 : Int) < s := by omega
  have hr' : (2 : Int) ^ i = s * r := by
    have : ((2 ^ i : Nat) : Int) = ((s * r : Nat) : Int) := by rw [hr]
    simpa using this
  have f : ∀ z, (s : Int) * m ≤ z → z < s * m + s → z / 2 ^ i = m / r := by
    intro z h1 h2
    rw [hr', ← Int.ediv_ediv_of_nonneg (by omega)]
    congr 1
    have h3 : z = (z - s * m) + m * s := by rw [Int.mul_comm m]; omega
    rw [h3, Int.add_mul_ediv_right _ _ (by omega), Int.ediv_eq_zero_of_lt (by omega) (by omega)]
    omega
  rw [f x hx hx', f y hy hy']

section
variable {g : Cfg} {E : Nat → Bool}

theorem step_meas (hw : g.WF) (ht : Tiled g E) {a b : Nat} {la lo t : V3 Int} (ha : E a = true)
    (hb : E b = true) (hla : g.Lift a la) (hlo : g.Lift b lo) {d : Fin 3} {pos : Bool}
    (hq : InBox la (g.side a) (nbrPt lo (g.side b) d pos))
    (hdir : if pos then lo d + g.side b - 1 < t d else t d < lo d) :
    meas3 la t (g.maxLvl + 1) < meas3 lo t (g.maxLvl + 1) := by
  obtain ⟨hd, hother⟩ := step_geom hw ht ha hb hla hlo hq
  have hva := ht.valid _ ha
  have hvb := ht.valid _ hb
  have hs := side_pos (g := g) b
  have hsa := side_pos (g := g) a
  have da := lift_dvd hw hva hla
  have db := lift_dvd hw hvb hlo
  -- scale of the larger cell
  let j := g.maxLvl - min (g.lvl a) (g.lvl b)
  have hj : j < g.maxLvl + 1 := by omega
  have hja : g.side a ∣ 2 ^ j := Nat.pow_dvd_pow 2 (by omega)
  have hjb : g.side b ∣ 2 ^ j := Nat.pow_dvd_pow 2 (by omega)
  have hjle : (g.side a : Int) ≤ 2 ^ j ∧ (g.side b : Int) ≤ 2 ^ j := by
    have h1 := Nat.le_of_dvd (Nat.pow_pos (by omega)) hja
    have h2 := Nat.le_of_dvd (Nat.pow_pos (by omega)) hjb
    have e : ((2 ^ j : Nat) : Int) = 2 ^ j := by simp
    omega
  have hjeq : 2 ^ j = g.side a ∨ 2 ^ j = g.side b := by
    show 2 ^ (g.maxLvl - min (g.lvl a) (g.lvl b)) = _ ∨ _
    rcases Nat.le_total (g.lvl a) (g.lvl b) with h | h
    · left; rw [Nat.min_eq_left h]; rfl
    · right
      show 2 ^ (g.maxLvl - min (g.lvl a) (g.lvl b)) = _
      rw [Nat.min_eq_right h]; rfl
  -- the boundary between the cells is at a multiple of 2^j
  have hbound : (2 : Int) ^ j ∣ (if pos then la d else lo d) := by
    have hx : ∀ s : Nat, 2 ^ j = s → ((s : Nat) : Int) = 2 ^ j := fun s h => by rw [← h]; simp
    rcases hjeq with h | h
    · rw [← hx _ h]
      cases pos with
      | true => exact da d
      | false =>
        simp only [Bool.false_eq_true, if_false] at hd ⊢
        rw [← hd]; exact Int.dvd_add (da d) (Int.dvd_refl _)
    · rw [← hx _ h]
      cases pos with
      | true =>
        simp only [if_true] at hd ⊢
        rw [hd]; exact Int.dvd_add (db d) (Int.dvd_refl _)
      | false => exact db d
  have hsame : ∀ e, e ≠ d → ∀ i, j ≤ i → la e / 2 ^ i = lo e / 2 ^ i := by
    intro e he i hi
    have := hother e he
    exact same_block (Nat.dvd_trans hja (Nat.pow_dvd_pow 2 hi)) (da e) (Int.le_refl _) (by omega)
      this.1 this.2
  apply meas3_dec (d := d) hj
  · intro e
    by_cases he : e = d
    · subst he
      cases pos <;> simp at hd <;> omega
    · have := hother e he
      omega
  · intro e i hi
    by_cases he : e = d
    · subst he
      cases pos with
      | true =>
        simp only [if_true] at hd hdir
        have h1 := int_div_le (pow2_pos i) (show lo e ≤ la e by omega)
        have h2 := int_div_le (pow2_pos i) (show la e ≤ t e by omega)
        omega
      | false =>
        simp only [Bool.false_eq_true, if_false] at hd hdir
        have h0 : la e / 2 ^ i = (lo e - 1) / 2 ^ i :=
          same_block (Nat.dvd_trans hja (Nat.pow_dvd_pow 2 hi)) (da e) (Int.le_refl _) (by omega)
            (by omega) (by omega)
        have h1 := int_div_le (pow2_pos i) (show lo e - 1 ≤ lo e by omega)
        have h2 := int_div_le (pow2_pos i) (show t e ≤ lo e - 1 by omega)
        omega
    · rw [hsame e he i hi]; exact Nat.le_refl _
  · obtain ⟨m, hm⟩ := hbound
    have hp := pow2_pos j
    cases pos with
    | true =>
      simp only [if_true] at hd hdir hm
      have h1 : lo d / 2 ^ j < la d / 2 ^ j := by
        rw [hm, Int.mul_ediv_cancel_left _ (by omega)]
        exact Int.ediv_lt_of_lt_mul hp (by rw [Int.mul_comm, ← hm]; omega)
      have h2 := int_div_le hp (show la d ≤ t d by omega)
      omega
    | false =>
      simp only [Bool.false_eq_true, if_false] at hd hdir hm
      have h0 : la d / 2 ^ j = (lo d - 1) / 2 ^ j :=
        same_block hja (da d) (Int.le_refl _) (by omega) (by omega) (by omega)
      have h1 : (lo d - 1) / 2 ^ j < lo d / 2 ^ j := by
        rw [hm, Int.mul_ediv_cancel_left _ (by omega)]
        exact Int.ediv_lt_of_lt_mul hp (by rw [Int.mul_comm m, ← hm]; omega)
      have h2 := int_div_le hp (show t d ≤ lo d - 1 by omega)
      omega

end
end Dccrg
