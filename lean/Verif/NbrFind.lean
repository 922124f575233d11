import Verif.NbrWalk
/-!
# Result of `find_neighbors_of`
-/
namespace Dccrg
open Cfg

section
variable {g : Cfg} {E : Nat → Bool}

/-- Lower corner of the block at neighborhood item `o` of cell `c`. -/
def corner (g : Cfg) (c : Nat) (o : V3 Int) : V3 Int := fun d => (g.idx c d : Int) + o d * g.side c

theorem nextDir_some {L len : Int} {o off : V3 Int} {d : Fin 3} {pos : Bool}
    (h : nextDir L o len off = some (d, pos)) :
    if pos then off d + len - 1 < o d * L else off d > (o d + 1) * L - 1 := by
  unfold nextDir at h
  by_cases h0 : off 0 > (o 0 + 1) * L - 1
  · rw [if_pos h0] at h; obtain ⟨rfl, rfl⟩ := Prod.mk.inj (Option.some.inj h); simpa using h0
  rw [if_neg h0] at h
  by_cases h1 : off 0 + len - 1 < o 0 * L
  · rw [if_pos h1] at h; obtain ⟨rfl, rfl⟩ := Prod.mk.inj (Option.some.inj h); simpa using h1
  rw [if_neg h1] at h
  by_cases h2 : off 1 > (o 1 + 1) * L - 1
  · rw [if_pos h2] at h; obtain ⟨rfl, rfl⟩ := Prod.mk.inj (Option.some.inj h); simpa using h2
  rw [if_neg h2] at h
  by_cases h3 : off 1 + len - 1 < o 1 * L
  · rw [if_pos h3] at h; obtain ⟨rfl, rfl⟩ := Prod.mk.inj (Option.some.inj h); simpa using h3
  rw [if_neg h3] at h
  by_cases h4 : off 2 > (o 2 + 1) * L - 1
  · rw [if_pos h4] at h; obtain ⟨rfl, rfl⟩ := Prod.mk.inj (Option.some.inj h); simpa using h4
  rw [if_neg h4] at h
  by_cases h5 : off 2 + len - 1 < o 2 * L
  · rw [if_pos h5] at h; obtain ⟨rfl, rfl⟩ := Prod.mk.inj (Option.some.inj h); simpa using h5
  rw [if_neg h5] at h
  cases h

theorem nextDir_none {L len : Int} {o off : V3 Int} (h : nextDir L o len off = none) (d : Fin 3) :
    off d ≤ (o d + 1) * L - 1 ∧ o d * L ≤ off d + len - 1 := by
  revert d
  rw [forall_fin3]
  unfold nextDir at h
  by_cases h0 : off 0 > (o 0 + 1) * L - 1
  · rw [if_pos h0] at h; cases h
  rw [if_neg h0] at h
  by_cases h1 : off 0 + len - 1 < o 0 * L
  · rw [if_pos h1] at h; cases h
  rw [if_neg h1] at h
  by_cases h2 : off 1 > (o 1 + 1) * L - 1
  · rw [if_pos h2] at h; cases h
  rw [if_neg h2] at h
  by_cases h3 : off 1 + len - 1 < o 1 * L
  · rw [if_pos h3] at h; cases h
  rw [if_neg h3] at h
  by_cases h4 : off 2 > (o 2 + 1) * L - 1
  · rw [if_pos h4] at h; cases h
  rw [if_neg h4] at h
  by_cases h5 : off 2 + len - 1 < o 2 * L
  · rw [if_pos h5] at h; cases h
  omega

/-- What the search loop ends with. -/
def WalkSpec (g : Cfg) (E : Nat → Bool) (c : Nat) (o : V3 Int) : Walk → Prop
  | .hang => False
  | .threw => False
  | .outside => ¬ g.InCover (corner g c o)
  | .found b off => E b = true ∧ g.Lift b (fun d => g.idx c d + off d) ∧
      ∀ d, g.idx c d + off d < corner g c o d + g.side c ∧
        corner g c o d < g.idx c d + off d + g.side b

theorem valid_ne_zero {c : Nat} (h : g.Valid c) : c ≠ 0 := by have := h.1; omega

theorem walk_spec (hw : g.WF) (ht : Tiled g E) (hbal : BalancedFor g E faces) {c : Nat} {o : V3 Int}
    (fuel : Nat) {b : Nat} (hb : E b = true) {lo : V3 Int} (hlo : g.Lift b lo)
    (hf : meas3 lo (corner g c o) (g.maxLvl + 1) ≤ fuel) :
    WalkSpec g E c o (walk g E (g.side c) o fuel b (fun d => lo d - g.idx c d)) := by
  induction fuel generalizing b lo with
  | zero =>
    unfold walk
    cases hn : nextDir (g.side c) o (g.side b) (fun d => lo d - g.idx c d) with
    | none =>
      have := nextDir_none hn
      refine ⟨hb, ?_, fun d => ?_⟩
      · have : (fun d => (g.idx c d : Int) + (lo d - g.idx c d)) = lo := by funext d; omega
        rw [this]; exact hlo
      · have := this d
        rw [Int.add_mul, Int.one_mul] at this
        simp only [corner]
        omega
    | some dp =>
      exfalso
      obtain ⟨d, pos⟩ := dp
      have h1 := nextDir_some hn
      -- the block is elsewhere, hence the measure is positive
      have hne : lo d / 2 ^ 0 ≠ corner g c o d / 2 ^ 0 := by
        have hs := side_pos (g := g) b
        have hsc := side_pos (g := g) c
        simp only [corner]
        rw [Int.add_mul, Int.one_mul] at h1
        cases pos <;> simp at h1 ⊢ <;> omega
      have h2 : ∀ J, 0 < meas (lo d) (corner g c o d) (J + 1) := by
        intro J
        induction J with
        | zero => simp only [meas, Nat.pow_zero]; omega
        | succ J ih => rw [meas]; omega
      have h3 := h2 g.maxLvl
      unfold meas3 at hf
      match d, h3 with
      | 0, h3 => omega
      | 1, h3 => omega
      | 2, h3 => omega
  | succ fuel ih =>
    unfold walk
    cases hn : nextDir (g.side c) o (g.side b) (fun d => lo d - g.idx c d) with
    | none =>
      have := nextDir_none hn
      refine ⟨hb, ?_, fun d => ?_⟩
      · have : (fun d => (g.idx c d : Int) + (lo d - g.idx c d)) = lo := by funext d; omega
        rw [this]; exact hlo
      · have := this d
        rw [Int.add_mul, Int.one_mul] at this
        simp only [corner]
        omega
    | some dp =>
      obtain ⟨d, pos⟩ := dp
      have h1 := nextDir_some hn
      have hv := ht.valid _ hb
      have hsc := side_pos (g := g) c
      simp only
      rw [if_neg (by simpa using (ht.getChild_eq_iff hw (valid_ne_zero hv)).2 hb)]
      by_cases hq : g.InCover (nbrPt lo (g.side b) d pos)
      · obtain ⟨a, la, ha, hla, hbox⟩ := ht.leaf_lift hw hq
        have hm := mem_of_box hw (ht.valid _ ha) hla hbox
        rw [nbr6_eq hw ht hbal hb hlo d pos ha hq hm, if_neg (valid_ne_zero (ht.valid _ ha))]
        have h2 := hbal b a hb ha _ (unitItem_mem d pos)
          (meets_of_lift hw hlo (nbrPt_block (side_pos b) d pos) hq hm)
        rw [adjust_eq hw ht ha hb hla hlo hbox (by omega)]
        apply ih ha hla
        have := step_meas hw ht (t := corner g c o) ha hb hla hlo hbox (by
          simp only [corner]
          rw [Int.add_mul, Int.one_mul] at h1
          cases pos <;> simp at h1 ⊢ <;> omega)
        omega
      · rw [nbr6_none hw hv hlo d pos hq, if_pos rfl]
        intro hcov
        apply hq
        rw [inCover_nbrPt hw hv hlo]
        rcases hcov d with h | h
        · exact Or.inl h
        · cases hp : g.periodic d with
          | true => exact Or.inl rfl
          | false =>
            right
            have h3 := (hlo d).2 hp
            simp only [corner] at h
            rw [Int.add_mul, Int.one_mul] at h1
            cases pos <;> simp at h1 ⊢ <;> omega

theorem fuel_enough {c : Nat} (o : V3 Int) :
    meas3 (fun d => (g.idx c d : Int)) (corner g c o) (g.maxLvl + 1) ≤ walkFuel g o := by
  have key : ∀ d, 4 * meas (g.idx c d) (corner g c o d) (g.maxLvl + 1)
      ≤ (o d).natAbs * 32 ^ (g.maxLvl + 1) := by
    intro d
    have := meas_lip (corner g c o d) (g.maxLvl + 1) (g.idx c d) (corner g c o d) (o d).natAbs (by
      simp only [corner]
      have e : (g.idx c d : Int) - (g.idx c d + o d * g.side c) = - (o d * g.side c) := by omega
      rw [e, Int.natAbs_neg, Int.natAbs_mul]
      have h1 : g.side c ≤ 2 ^ (g.maxLvl + 1) := Nat.pow_le_pow_right (by omega) (by omega)
      have h2 := Nat.mul_le_mul_left (o d).natAbs h1
      have h3 : (((o d).natAbs * 2 ^ (g.maxLvl + 1) : Nat) : Int)
        = ((o d).natAbs : Int) * 2 ^ (g.maxLvl + 1) := by simp
      rw [← h3]
      simp only [Int.natAbs_natCast]
      exact Int.ofNat_le.2 h2)
    rw [meas_self] at this
    simpa using this
  have h0 := key 0
  have h1 := key 1
  have h2 := key 2
  unfold meas3 walkFuel
  rw [Nat.mul_comm (32 ^ _), Nat.add_mul, Nat.add_mul, Nat.add_mul]
  have := Nat.pow_pos (n := g.maxLvl + 1) (show 0 < 32 by omega)
  simp only
  omega

/-- What `find_neighbors_of` has to return for one neighborhood item: nothing if the block is
outside of the grid; one existing cell that covers the block, with its location; or the eight
existing cells that together are the block, with their locations, in z-order. -/
inductive IsItem (g : Cfg) (E : Nat → Bool) (c : Nat) (o : V3 Int) : List (Nat × V3 Int) → Prop where
  | outside : ¬ g.InCover (corner g c o) → IsItem g E c o []
  | covers {b : Nat} {off : V3 Int} : g.InCover (corner g c o) → E b = true → g.side c ≤ g.side b →
      g.Lift b (fun d => g.idx c d + off d) →
      (∀ q, Block g c o q → InBox (fun d => g.idx c d + off d) (g.side b) q) → IsItem g E c o [(b, off)]
  | eight {k : V3 Nat → Nat} {s : Nat} : g.InCover (corner g c o) → g.side c = 2 * s →
      (∀ w ∈ octants, E (k w) = true ∧ g.side (k w) = s ∧
        g.Lift (k w) (fun d => corner g c o d + w d * s)) →
      IsItem g E c o (octants.map fun w => (k w, fun d => o d * g.side c + w d * s))

theorem inCover_corner_iff (hw : g.WF) {c : Nat} (hv : g.Valid c) (o : V3 Int) {q : V3 Int}
    (hq : Block g c o q) : g.InCover q ↔ g.InCover (corner g c o) := by
  have hs := side_pos (g := g) c
  have key : ∀ d, g.periodic d = true ∨ ((0 ≤ q d ∧ q d < g.n d) ↔
      (0 ≤ corner g c o d ∧ corner g c o d < g.n d)) := by
    intro d
    cases hp : g.periodic d with
    | true => exact Or.inl rfl
    | false =>
      right
      have h1 : (g.side c : Int) ∣ corner g c o d :=
        Int.dvd_add (Int.natCast_dvd_natCast.2 (side_dvd_idx hw hv d)) (Int.dvd_mul_left _ _)
      have h2 := side_dvd_n hv d
      have h3 : corner g c o d ≤ q d ∧ q d < corner g c o d + g.side c := hq d
      obtain ⟨m, hm⟩ := h1
      obtain ⟨k, hk⟩ := h2
      rw [hm] at h3 ⊢
      rw [hk]
      have hs' : (0 : Int) < g.side c := by omega
      generalize (g.side c : Int) = s at h3 hs'
      have e : s * m + s = s * (m + 1) := by rw [Int.mul_add, Int.mul_one]
      rw [e] at h3
      constructor
      · rintro ⟨h4, h5⟩
        have h6 : (0 : Int) < m + 1 := by
          apply Int.lt_of_mul_lt_mul_left (a := s) (by omega) (by omega)
        have h7 : m < k := Int.lt_of_mul_lt_mul_left (a := s) (by omega) (by omega)
        exact ⟨Int.mul_nonneg (by omega) (by omega), Int.mul_lt_mul_of_pos_left h7 hs'⟩
      · rintro ⟨h4, h5⟩
        have h7 : m < k := Int.lt_of_mul_lt_mul_left (a := s) h5 (by omega)
        have h8 : s * (m + 1) ≤ s * k := Int.mul_le_mul_of_nonneg_left (by omega) (by omega)
        omega
  constructor
  · intro h d
    rcases key d with h1 | h1
    · exact Or.inl h1
    · exact (h d).imp id h1.1
  · intro h d
    rcases key d with h1 | h1
    · exact Or.inl h1
    · exact (h d).imp id h1.2

/-- Index of a child among the children of its parent. -/
theorem findIdx_child (hw : g.WF) {p : Nat} (hp : g.Valid p) (hl : g.lvl p < g.maxLvl) {w : V3 Nat}
    (hwm : w ∈ octants) :
    (g.children p).findIdx? (· == g.child p w) = octants.findIdx? (· == w) := by
  unfold children
  rw [List.findIdx?_map]
  have : ∀ l : List (V3 Nat), (∀ x ∈ l, x ∈ octants) →
      l.findIdx? ((fun x => x == g.child p w) ∘ g.child p) = l.findIdx? (· == w) := by
    intro l
    induction l with
    | nil => intro _; rfl
    | cons x l ih =>
      intro h
      have hx := h x (by simp)
      rw [List.findIdx?_cons, List.findIdx?_cons, ih (fun y hy => h y (by simp [hy]))]
      have : (((fun x => x == g.child p w) ∘ g.child p) x) = (x == w) := by
        by_cases e : x = w
        · subst e; simp
        · have : g.child p x ≠ g.child p w := fun e' =>
            e (child_inj hw hp hl (octants_le hx) (octants_le hwm) e')
          show (g.child p x == g.child p w) = (x == w)
          rw [beq_false_of_ne this, beq_false_of_ne e]
      rw [this]
  exact this octants (fun _ h => h)

theorem base_octant {off : V3 Int} {len : Int} {w : V3 Nat} (hwm : w ∈ octants) :
    ∃ i, octants.findIdx? (· == w) = some i ∧
      v3 (if i % 2 > 0 then off 0 - len else off 0) (if i % 4 > 1 then off 1 - len else off 1)
        (if i > 3 then off 2 - len else off 2) = fun d => off d - w d * len := by
  simp only [octants, List.mem_cons, List.not_mem_nil, or_false] at hwm
  rcases hwm with h | h | h | h | h | h | h | h <;> subst h
  · exact ⟨0, by decide, v3_ext (by simp) (by simp) (by simp)⟩
  · exact ⟨1, by decide, v3_ext (by simp) (by simp) (by simp)⟩
  · exact ⟨2, by decide, v3_ext (by simp) (by simp) (by simp)⟩
  · exact ⟨3, by decide, v3_ext (by simp) (by simp) (by simp)⟩
  · exact ⟨4, by decide, v3_ext (by simp) (by simp) (by simp)⟩
  · exact ⟨5, by decide, v3_ext (by simp) (by simp) (by simp)⟩
  · exact ⟨6, by decide, v3_ext (by simp) (by simp) (by simp)⟩
  · exact ⟨7, by decide, v3_ext (by simp) (by simp) (by simp)⟩

theorem zipWith_octants {α : Type} (f : Nat → V3 Nat → α) (h : V3 Nat → Nat) :
    List.zipWith f (octants.map h) octants = octants.map fun w => f (h w) w := by
  have : ∀ l : List (V3 Nat), List.zipWith f (l.map h) l = l.map fun w => f (h w) w := by
    intro l
    induction l with
    | nil => rfl
    | cons a l ih => simp [ih]
  exact this octants

/-- Aligned boxes of sides `s ∣ S` that overlap are nested. -/
theorem box_nested {s S : Int} {x y : Int} (hd : s ∣ S) (hx : s ∣ x) (hy : S ∣ y)
    (hS : 0 < S) (hs : 0 < s) (h1 : x < y + S) (h2 : y < x + s) : y ≤ x ∧ x + s ≤ y + S := by
  obtain ⟨r, rfl⟩ := hd
  obtain ⟨a, rfl⟩ := hx
  obtain ⟨b, rfl⟩ := hy
  have e0 : s * r * b = s * (r * b) := Int.mul_assoc _ _ _
  rw [e0] at h1 h2 ⊢
  have e1 : s * (r * b) + s * r = s * (r * b + r) := by rw [Int.mul_add]
  have e2 : s * a + s = s * (a + 1) := by rw [Int.mul_add, Int.mul_one]
  rw [e1] at h1 ⊢
  rw [e2] at h2 ⊢
  have h3 : a < r * b + r := Int.lt_of_mul_lt_mul_left h1 (by omega)
  have h4 : r * b < a + 1 := Int.lt_of_mul_lt_mul_left h2 (by omega)
  exact ⟨Int.mul_le_mul_of_nonneg_left (by omega) (by omega),
    Int.mul_le_mul_of_nonneg_left (by omega) (by omega)⟩

theorem corner_dvd (hw : g.WF) {c : Nat} (hv : g.Valid c) (o : V3 Int) (d : Fin 3) :
    (g.side c : Int) ∣ corner g c o d :=
  Int.dvd_add (Int.natCast_dvd_natCast.2 (side_dvd_idx hw hv d)) (Int.dvd_mul_left _ _)

theorem side_mono {a b : Nat} (h : g.lvl a ≤ g.lvl b) : g.side b ≤ g.side a :=
  Nat.pow_le_pow_right (by omega) (by omega)

theorem side_dvd_of_le {a b : Nat} (h : g.side a ≤ g.side b) : (g.side a : Int) ∣ g.side b := by
  have : g.maxLvl - g.lvl a ≤ g.maxLvl - g.lvl b := (Nat.pow_le_pow_iff_right (by omega)).1 h
  exact Int.natCast_dvd_natCast.2 (Nat.pow_dvd_pow 2 this)

theorem lvl_eq_of_side {a b : Nat} (ha : g.Valid a) (hb : g.Valid b) (h : g.side a = g.side b) :
    g.lvl a = g.lvl b := by
  have : g.maxLvl - g.lvl a = g.maxLvl - g.lvl b :=
    (Nat.pow_right_inj (a := 2) (by omega)).1 h
  have := lvl_le ha
  have := lvl_le hb
  omega

theorem lvl_lt_of_side {a b : Nat} (ha : g.Valid a) (hb : g.Valid b) (h : g.side a < g.side b) :
    g.lvl b < g.lvl a := by
  have : g.maxLvl - g.lvl a < g.maxLvl - g.lvl b := (Nat.pow_lt_pow_iff_right (by omega)).1 h
  have := lvl_le ha
  have := lvl_le hb
  omega

/-- Result of collecting neighbors from the found cell. -/
theorem collect_spec (hw : g.WF) (ht : Tiled g E) {c : Nat} (hc : E c = true) {o : V3 Int}
    (hbal : ∀ b, E b = true → Meets g c o b → g.lvl c ≤ g.lvl b + 1 ∧ g.lvl b ≤ g.lvl c + 1)
    {b : Nat} {off : V3 Int} (hb : E b = true) (hlo : g.Lift b (fun d => g.idx c d + off d))
    (hov : ∀ d, g.idx c d + off d < corner g c o d + g.side c ∧
        corner g c o d < g.idx c d + off d + g.side b) :
    ∃ l, collect g c b off = some l ∧ IsItem g E c o l := by
  have hvc := ht.valid _ hc
  have hvb := ht.valid _ hb
  have hsc := side_pos (g := g) c
  have hsb := side_pos (g := g) b
  have dlo := lift_dvd hw hvb hlo
  have dco := corner_dvd hw hvc o
  unfold collect
  by_cases hle : g.side c ≤ g.side b
  · simp only
    rw [if_pos hle]
    have hn : ∀ d, g.idx c d + off d ≤ corner g c o d ∧
        corner g c o d + g.side c ≤ g.idx c d + off d + g.side b := fun d =>
      box_nested (side_dvd_of_le hle) (dco d) (dlo d) (by omega) (by omega) (hov d).2 (hov d).1
    have hblock : ∀ q, Block g c o q → InBox (fun d => g.idx c d + off d) (g.side b) q := by
      intro q hq d
      have h1 := hn d
      have h2 : corner g c o d ≤ q d ∧ q d < corner g c o d + g.side c := hq d
      show g.idx c d + off d ≤ q d ∧ q d < g.idx c d + off d + g.side b
      omega
    refine ⟨_, rfl, .covers ?_ hb hle hlo hblock⟩
    exact inCover_of_box hw hvb hlo (hblock _ (fun d => by
      show corner g c o d ≤ _ ∧ _ < corner g c o d + g.side c
      omega))
  · simp only
    rw [if_neg hle]
    have hlt : g.side b < g.side c := by omega
    have hn : ∀ d, corner g c o d ≤ g.idx c d + off d ∧
        g.idx c d + off d + g.side b ≤ corner g c o d + g.side c := fun d =>
      box_nested (side_dvd_of_le (by omega)) (dlo d) (dco d) (by omega) (by omega) (hov d).1 (hov d).2
    -- the found cell is in the block, hence one level finer
    have hself : InBox (fun d => (g.idx c d : Int) + off d) (g.side b) (fun d => g.idx c d + off d) :=
      fun d => by simp only; omega
    have hcov := inCover_of_box hw hvb hlo hself
    have hmb := mem_of_box hw hvb hlo hself
    have hblk : Block g c o (fun d => g.idx c d + off d) := fun d => by
      have := hn d
      show corner g c o d ≤ g.idx c d + off d ∧ g.idx c d + off d < corner g c o d + g.side c
      omega
    have hlv := hbal b hb ⟨_, hblk, hcov, hmb⟩
    have hlt' := lvl_lt_of_side hvb hvc hlt
    have hlb : g.lvl b = g.lvl c + 1 := by omega
    have hss : g.side c = 2 * g.side b := side_double hvb hlb
    have hcor := (inCover_corner_iff hw hvc o hblk).1 hcov
    have h0 : 0 < g.lvl b := by omega
    have hpv := parent_valid hw hvb
    have hpl := lvl_parent_lt hw hvb h0
    -- octant of the found cell
    obtain ⟨w, hwo, hwb⟩ := mem_children.1 (mem_children_parent hw hvb h0)
    have hwm : w ∈ octants := mem_octants_iff.2 hwo
    have hsib : g.siblings b = g.children (g.parent b) := by
      unfold siblings; rw [if_neg (by omega)]
    have hpar := parent_lift hw hvb h0 hlo
    have hpo : ∀ d, parOff g b d = - (w d * g.side b : Int) := by
      intro d
      have hne : g.parent b ≠ b := by
        intro h; have := lvl_parent hw hvb; rw [h] at this; omega
      unfold parOff
      rw [if_neg hne]
      have := idx_child hw hpv hpl hwo d
      rw [hwb] at this
      have e : ((w d * g.side b : Nat) : Int) = w d * g.side b := by simp
      rw [← e]
      omega
    have hcorner : ∀ d, (g.idx c d : Int) + off d - w d * g.side b = corner g c o d := by
      intro d
      have h1 := hpar d
      have h2 := hn d
      have h3 := dco d
      rw [hss] at h3
      have e2 : ((2 * g.side b : Nat) : Int) = 2 * (g.side b : Int) := by omega
      rw [e2] at h3
      have := dvd_floor_eq h1.1 h3 h1.2.1 h1.2.2 h2.1 (by omega)
      rw [hpo d] at this
      omega
    obtain ⟨i, hi, hbase⟩ := base_octant (off := off) (len := g.side b) hwm
    rw [hsib]
    have hfi := findIdx_child hw hpv hpl hwm
    rw [hwb, hi] at hfi
    rw [hfi]
    simp only
    rw [hbase]
    refine ⟨_, rfl, ?_⟩
    rw [show g.children (g.parent b) = octants.map (g.child (g.parent b)) from rfl, zipWith_octants]
    have heq : (octants.map fun v => (g.child (g.parent b) v,
        (fun d => off d - w d * g.side b + v d * g.side b : V3 Int)))
        = octants.map fun v => (g.child (g.parent b) v,
          (fun d => o d * g.side c + v d * g.side b : V3 Int)) := by
      apply List.map_congr_left
      intro v _
      congr 1
      funext d
      have := hcorner d
      simp only [corner] at this
      omega
    rw [heq]
    apply IsItem.eight hcor hss
    intro v hv
    have hvo := octants_le hv
    have hkv := child_valid hw hpv hpl hvo
    have hkl := lvl_child hw hpv hpl hvo
    have hpl' := lvl_parent hw hvb
    have hks : g.side (g.child (g.parent b) v) = g.side b := by
      rw [side, side, hkl, hpl', show g.lvl b - 1 + 1 = g.lvl b by omega]
    have hklift : g.Lift (g.child (g.parent b) v) (fun d => corner g c o d + v d * g.side b) := by
      intro d
      have hx := idx_child hw hpv hpl hvo d
      have hy := idx_child hw hpv hpl hwo d
      rw [hwb] at hy
      rw [hks] at hx
      have e1 : ((v d * g.side b : Nat) : Int) = v d * g.side b := by simp
      have e2 : ((w d * g.side b : Nat) : Int) = w d * g.side b := by simp
      have hc' := hcorner d
      have e3 : corner g c o d + v d * g.side b - (g.idx (g.child (g.parent b) v) d : Int)
          = g.idx c d + off d - g.idx b d := by omega
      refine ⟨by rw [e3]; exact (hlo d).1, fun hp => ?_⟩
      have : (g.idx c d : Int) + off d = g.idx b d := (hlo d).2 hp
      show corner g c o d + v d * g.side b = _
      omega
    refine ⟨?_, hks, hklift⟩
    -- the existing cell at the child's corner
    have hwv : ∀ d, (0 : Int) ≤ v d * g.side b ∧ (v d * g.side b : Int) ≤ g.side b := by
      intro d
      have h1 : v d = 0 ∨ v d = 1 := by have := hvo d; omega
      rcases h1 with h1 | h1 <;> rw [h1] <;> simp
    have hqblk : Block g c o (fun d => corner g c o d + v d * g.side b) := fun d => by
      have := hwv d
      show corner g c o d ≤ corner g c o d + v d * g.side b ∧
        corner g c o d + v d * g.side b < corner g c o d + g.side c
      omega
    have hqcov := (inCover_corner_iff hw hvc o hqblk).2 hcor
    obtain ⟨a, la, ha, hla, hbox⟩ := ht.leaf_lift hw hqcov
    have hva := ht.valid _ ha
    have hma := mem_of_box hw hva hla hbox
    have hal := hbal a ha ⟨_, hqblk, hqcov, hma⟩
    have hkbox : InBox (fun d => corner g c o d + v d * g.side b) (g.side (g.child (g.parent b) v))
        (fun d => corner g c o d + v d * g.side b) := fun d => by
      have := side_pos (g := g) (g.child (g.parent b) v)
      show _ ≤ corner g c o d + v d * g.side b ∧ corner g c o d + v d * g.side b <
        corner g c o d + v d * g.side b + _
      exact ⟨Int.le_refl _, by omega⟩
    by_cases hae : g.lvl a = g.lvl c + 1
    · have := eq_of_mem_lvl hw hva hkv (by omega) hma (mem_of_box hw hkv hklift hkbox)
      rw [← this]; exact ha
    · -- a larger cell would cover the found cell also
      exfalso
      have hsa : g.side c ≤ g.side a := side_mono (by omega)
      have da := lift_dvd hw hva hla
      have hin : InBox la (g.side a) (fun d => (g.idx c d : Int) + off d) := by
        intro d
        have h1 := hbox d
        have h2 := hwv d
        have h3 := hn d
        simp only at h1
        have := box_nested (side_dvd_of_le hsa) (dco d) (da d) (by omega) (by omega) (by omega)
          (by omega)
        simp only
        omega
      obtain ⟨rfl, -⟩ := ht.lift_eq hw ha hb hla hlo hin hself
      omega

/-- Result of `find_neighbors_of`. -/
theorem findItems_spec (hw : g.WF) (ht : Tiled g E) (hface : BalancedFor g E faces) {c : Nat}
    (hc : E c = true) (H : List (V3 Int)) (hbal : BalancedFor g E H) :
    ∃ f : V3 Int → List (Nat × V3 Int), findItems g E c H = .ok (H.flatMap f) ∧
      ∀ o ∈ H, IsItem g E c o (f o) := by
  have hitem : ∀ o ∈ H, ∃ l, IsItem g E c o l ∧
      (walk g E (g.side c) o (walkFuel g o) c (fun _ => 0) = .outside ∧ l = [] ∨
       ∃ b off, walk g E (g.side c) o (walkFuel g o) c (fun _ => 0) = .found b off ∧
        collect g c b off = some l) := by
    intro o ho
    have hs := walk_spec hw ht hface (c := c) (o := o) (walkFuel g o) hc (lift_self c) (fuel_enough o)
    have e : (fun d => (g.idx c d : Int) - g.idx c d) = fun _ => 0 := by funext d; omega
    rw [e] at hs
    cases hwk : walk g E (g.side c) o (walkFuel g o) c (fun _ => 0) with
    | hang => rw [hwk] at hs; exact hs.elim
    | threw => rw [hwk] at hs; exact hs.elim
    | outside => rw [hwk] at hs; exact ⟨[], .outside hs, Or.inl ⟨rfl, rfl⟩⟩
    | found b off =>
      rw [hwk] at hs
      obtain ⟨hb, hl, hov⟩ := hs
      obtain ⟨l, h1, h2⟩ := collect_spec hw ht hc (fun a ha hm => by
        have := hbal c a hc ha o ho hm; omega) hb hl hov
      exact ⟨l, h2, Or.inr ⟨b, off, rfl, h1⟩⟩
  have : ∃ f : V3 Int → List (Nat × V3 Int), ∀ o ∈ H, IsItem g E c o (f o) ∧
      (walk g E (g.side c) o (walkFuel g o) c (fun _ => 0) = .outside ∧ f o = [] ∨
       ∃ b off, walk g E (g.side c) o (walkFuel g o) c (fun _ => 0) = .found b off ∧
        collect g c b off = some (f o)) := by
    refine ⟨fun o => if h : o ∈ H then Classical.choose (hitem o h) else [], fun o ho => ?_⟩
    simp only [dif_pos ho]
    exact Classical.choose_spec (hitem o ho)
  obtain ⟨f, hf⟩ := this
  refine ⟨f, ?_, fun o ho => (hf o ho).1⟩
  clear hitem hbal
  induction H with
  | nil => rfl
  | cons o H ih =>
    have h1 := (hf o (by simp)).2
    have h2 := ih (fun o' h => hf o' (by simp [h]))
    rw [findItems]
    rcases h1 with ⟨h1, h3⟩ | ⟨b, off, h1, h3⟩
    · rw [h1]; simp [h2, h3]
    · rw [h1]; simp [h2, h3]

end
end Dccrg
