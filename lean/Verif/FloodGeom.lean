import Verif.Decide
/-!
# Cells reached through faces

`override_unrefines` visits cells near the parent `P` of an unrefined cell by going from cell to cell
through faces. If all visited cells are as large as children of `P` or as `P` then every existing cell
near `P` has been visited (`reach_all`).
-/
namespace Dccrg
open Cfg
variable {g : Cfg} {E : Nat → Bool}

theorem dvd_two_cases {s x y q : Int} (hs : 0 < s) (hx : s ∣ x) (hy : s ∣ y) (h1 : x ≤ q)
    (h2 : q < x + s) (h3 : y ≤ q) (h4 : q < y + 2 * s) : x = y ∨ x = y + s := by
  obtain ⟨a, rfl⟩ := hx
  obtain ⟨b, rfl⟩ := hy
  have e1 : s * a + s = s * (a + 1) := by rw [Int.mul_add, Int.mul_one]
  have e2 : s * b + 2 * s = s * (b + 2) := by rw [Int.mul_add]; omega
  have e3 : s * b + s = s * (b + 1) := by rw [Int.mul_add, Int.mul_one]
  have h5 : a < b + 2 := Int.lt_of_mul_lt_mul_left (a := s) (by omega) (by omega)
  have h6 : b < a + 1 := Int.lt_of_mul_lt_mul_left (a := s) (by omega) (by omega)
  rw [e3]
  rcases (by omega : a = b ∨ a = b + 1) with h | h
  · left; rw [h]
  · right; rw [h]

/-- Offsets of the neighborhood region of a cell, including the cell. -/
def InHood (g : Cfg) (k : V3 Int) : Prop := (k = fun _ => 0) ∨ k ∈ hoodOf g

theorem near_of_block (hw : g.WF) {P a : Nat} {k q : V3 Int} (hk : InHood g k) (hq : Block g P k q)
    (hc : g.InCover q) (hm : g.Mem (g.wrap q) a) : Near g P a := by
  rw [near_iff hw]
  rcases hk with rfl | hk
  · exact Or.inl ⟨q, hq, hc, hm⟩
  · exact Or.inr ⟨k, hk, q, hq, hc, hm⟩

/-- Set of visited cells. -/
structure Reach (g : Cfg) (E : Nat → Bool) (P : Nat) (F : Nat → Prop) : Prop where
  ex : ∀ b, F b → E b = true
  size : ∀ b, F b → g.side b = g.side P ∨ 2 * g.side b = g.side P
  next : ∀ b d pos, F b → nbr6 g E b d pos ≠ 0 → Near g P (nbr6 g E b d pos) → F (nbr6 g E b d pos)

section
variable {P : Nat} {F : Nat → Prop}

theorem Reach.step (hw : g.WF) (ht : Tiled g E) (hbal : BalancedFor g E faces) (hP : g.Valid P)
    (hF : Reach g E P F) {b : Nat} (hb : F b) {lo k : V3 Int} (hl : g.Lift b lo) {d : Fin 3} {pos : Bool}
    (hk : InHood g k) (hc : g.InCover (corner g P k)) (hq : Block g P k (nbrPt lo (g.side b) d pos)) :
    ∃ a la, F a ∧ g.Lift a la ∧ InBox la (g.side a) (nbrPt lo (g.side b) d pos) := by
  have hcq := (inCover_corner_iff hw hP k hq).2 hc
  obtain ⟨a, la, ha, hla, hbox⟩ := ht.leaf_lift hw hcq
  have hm := mem_of_box hw (ht.valid a ha) hla hbox
  have e := nbr6_eq hw ht hbal (hF.ex b hb) hl d pos ha hcq hm
  refine ⟨a, la, ?_, hla, hbox⟩
  have := hF.next b d pos hb
  rw [e] at this
  exact this (valid_ne_zero (ht.valid a ha)) (near_of_block hw hk hq hcq hm)

/-- All cells of a block have been visited. -/
def GoodBlock (g : Cfg) (P : Nat) (F : Nat → Prop) (k : V3 Int) : Prop :=
  (∃ b, F b ∧ g.side b = g.side P ∧ g.Lift b (corner g P k)) ∨
  ∃ s : Nat, g.side P = 2 * s ∧ ∀ w : V3 Nat, (∀ d, w d ≤ 1) →
    ∃ b, F b ∧ g.side b = s ∧ g.Lift b (fun d => corner g P k d + w d * s)

theorem Reach.flip (hw : g.WF) (ht : Tiled g E) (hbal : BalancedFor g E faces) (hP : g.Valid P)
    (hF : Reach g E P F) {k : V3 Int} (hk : InHood g k) (hc : g.InCover (corner g P k)) {s : Nat}
    (hs : g.side P = 2 * s) {w : V3 Nat} (hwo : ∀ d, w d ≤ 1) {a : Nat} (ha : F a) (hsa : g.side a = s)
    (hla : g.Lift a (fun d => corner g P k d + w d * s)) (d : Fin 3) :
    ∃ b, F b ∧ g.side b = s ∧
      g.Lift b (fun e => corner g P k e + (if e = d then 1 - w d else w e : Nat) * s) := by
  have hs0 := side_pos (g := g) a
  have hwd : ∀ e, w e = 0 ∨ w e = 1 := fun e => by have := hwo e; omega
  have hq : Block g P k (nbrPt (fun d => corner g P k d + w d * s) (g.side a) d (decide (w d = 0))) := by
    intro e
    show corner g P k e ≤ _ ∧ _ < corner g P k e + g.side P
    by_cases he : e = d
    · subst he
      rcases hwd e with h | h
      · simp only [nbrPt, setD_same, h, decide_true, if_true]; omega
      · simp only [nbrPt, setD_same, h, show decide (1 = 0) = false by decide]
        simp only [Bool.false_eq_true, if_false]; omega
    · rw [nbrPt, setD_ne _ _ he]
      rcases hwd e with h | h <;> rw [h] <;> omega
  obtain ⟨b, lb, hb, hlb, hbox⟩ := hF.step hw ht hbal hP ha hla hk hc hq
  have hdv := fun e => corner_dvd hw hP k e
  have hsb : g.side b = s := by
    rcases hF.size b hb with h | h
    · exfalso
      have hdb := fun e => lift_dvd hw (ht.valid b (hF.ex b hb)) hlb e
      rw [h] at hdb
      have hlb' : ∀ e, lb e = corner g P k e := by
        intro e
        have h1 := hbox e
        have h2 := hq e
        rw [h] at h1
        exact dvd_floor_eq (hdb e) (hdv e) h1.1 h1.2 h2.1 h2.2
      have hself : InBox (fun d => corner g P k d + w d * s) (g.side a)
          (fun d => corner g P k d + w d * s) := fun e => by omega
      have hin : InBox lb (g.side b) (fun d => corner g P k d + w d * s) := by
        intro e
        have := hlb' e
        rcases hwd e with h' | h' <;> simp only [h'] <;> omega
      have := (ht.lift_eq hw (hF.ex a ha) (hF.ex b hb) hla hlb hself hin).1
      rw [← this] at h; omega
    · omega
  refine ⟨b, hb, hsb, ?_⟩
  have hdb := fun e => lift_dvd hw (ht.valid b (hF.ex b hb)) hlb e
  rw [hsb] at hdb
  have hds : ∀ e, (s : Int) ∣ corner g P k e := by
    intro e
    refine Int.dvd_trans ?_ (hdv e)
    rw [hs]; exact ⟨2, by rw [Int.natCast_mul]; exact Int.mul_comm _ _⟩
  have e : lb = fun e => corner g P k e + (if e = d then 1 - w d else w e : Nat) * s := by
    funext e
    have h1 := hbox e
    rw [hsb] at h1
    refine dvd_floor_eq (hdb e) (Int.dvd_add (hds e) (Int.dvd_mul_left _ _)) h1.1 h1.2 ?_ ?_
    · by_cases he : e = d
      · subst he
        rw [if_pos rfl]
        rcases hwd e with h | h
        · simp only [nbrPt, setD_same, h, decide_true, if_true]; omega
        · simp only [nbrPt, setD_same, h, show decide (1 = 0) = false by decide]
          simp only [Bool.false_eq_true, if_false]; omega
      · rw [nbrPt, setD_ne _ _ he, if_neg he]; omega
    · by_cases he : e = d
      · subst he
        rw [if_pos rfl]
        rcases hwd e with h | h
        · simp only [nbrPt, setD_same, h, decide_true, if_true]; omega
        · simp only [nbrPt, setD_same, h, show decide (1 = 0) = false by decide]
          simp only [Bool.false_eq_true, if_false]; omega
      · rw [nbrPt, setD_ne _ _ he, if_neg he]; omega
  rw [← e]; exact hlb

theorem Reach.eight (hw : g.WF) (ht : Tiled g E) (hbal : BalancedFor g E faces) (hP : g.Valid P)
    (hF : Reach g E P F) {k : V3 Int} (hk : InHood g k) (hc : g.InCover (corner g P k)) {s : Nat}
    (hs : g.side P = 2 * s) {w : V3 Nat} (hwo : ∀ d, w d ≤ 1) {a : Nat} (ha : F a) (hsa : g.side a = s)
    (hla : g.Lift a (fun d => corner g P k d + w d * s)) : GoodBlock g P F k := by
  right
  refine ⟨s, hs, fun w' hw' => ?_⟩
  have one : ∀ (d : Fin 3) (x : Nat), x ≤ 1 → ∀ w : V3 Nat, (∀ d, w d ≤ 1) →
      (∃ b, F b ∧ g.side b = s ∧ g.Lift b (fun d => corner g P k d + w d * s)) →
      ∃ b, F b ∧ g.side b = s ∧ g.Lift b (fun e => corner g P k e + (setD w d x e : Nat) * s) := by
    rintro d x hx w hwo ⟨b, h1, h2, h3⟩
    by_cases hxd : x = w d
    · refine ⟨b, h1, h2, ?_⟩
      have : setD w d x = w := by funext e; unfold setD; split <;> simp_all
      rw [this]; exact h3
    · obtain ⟨b', h1', h2', h3'⟩ := hF.flip hw ht hbal hP hk hc hs hwo h1 h2 h3 d
      refine ⟨b', h1', h2', ?_⟩
      have : (setD w d x) = fun e => if e = d then 1 - w d else w e := by
        funext e; unfold setD
        have := hwo d
        split
        · omega
        · rfl
      rw [this]; exact h3'
  have hle : ∀ (d : Fin 3) (w : V3 Nat), (∀ d, w d ≤ 1) → ∀ e, setD w d (w' d) e ≤ 1 := by
    intro d w h e; unfold setD; split
    · exact hw' d
    · exact h e
  have r0 := one 0 (w' 0) (hw' 0) w hwo ⟨a, ha, hsa, hla⟩
  have r1 := one 1 (w' 1) (hw' 1) _ (hle 0 w hwo) r0
  have r2 := one 2 (w' 2) (hw' 2) _ (hle 1 _ (hle 0 w hwo)) r1
  have : setD (setD (setD w 0 (w' 0)) 1 (w' 1)) 2 (w' 2) = w' := by
    apply v3_ext <;> simp [setD]
  rwa [this] at r2

theorem Reach.enter (hw : g.WF) (ht : Tiled g E) (hbal : BalancedFor g E faces) (hP : g.Valid P)
    (hF : Reach g E P F) {k : V3 Int} (hk : InHood g k) (hc : g.InCover (corner g P k)) {a : Nat}
    {la q : V3 Int} (ha : F a) (hla : g.Lift a la) (hbox : InBox la (g.side a) q)
    (hq : Block g P k q) : GoodBlock g P F k := by
  have hs0 := side_pos (g := g) a
  have hdv := fun e => corner_dvd hw hP k e
  have hda := fun e => lift_dvd hw (ht.valid a (hF.ex a ha)) hla e
  rcases hF.size a ha with h | h
  · left
    refine ⟨a, ha, h, ?_⟩
    have : la = corner g P k := by
      funext e
      have h1 := hbox e
      have h2 := hq e
      rw [h] at h1 hda
      exact dvd_floor_eq (hda e) (hdv e) h1.1 h1.2 h2.1 h2.2
    rw [← this]; exact hla
  · have hds : ∀ e, (g.side a : Int) ∣ corner g P k e := by
      intro e
      refine Int.dvd_trans ?_ (hdv e)
      rw [← h]; exact ⟨2, by rw [Int.natCast_mul]; exact Int.mul_comm _ _⟩
    have key : ∀ e, la e = corner g P k e ∨ la e = corner g P k e + g.side a := by
      intro e
      have h1 := hbox e
      have h2 : corner g P k e ≤ q e ∧ q e < corner g P k e + g.side P := hq e
      rw [← h] at h2
      exact dvd_two_cases (by omega) (hda e) (hds e) h1.1 h1.2 h2.1 (by omega)
    let w : V3 Nat := fun e => if la e = corner g P k e then 0 else 1
    refine hF.eight hw ht hbal hP hk hc h.symm (w := w) (fun d => ?_) ha rfl ?_
    · show (if _ then 0 else 1) ≤ 1
      split <;> omega
    · have : (fun d => corner g P k d + (w d : Nat) * (g.side a : Int)) = la := by
        funext e
        show corner g P k e + ((if la e = corner g P k e then 0 else 1 : Nat) : Int) * g.side a = la e
        by_cases he : la e = corner g P k e
        · rw [if_pos he]; omega
        · rw [if_neg he]; have := key e; omega
      rw [this]; exact hla

/-- Move one length of `P` away from `P`. -/
theorem Reach.move (hw : g.WF) (ht : Tiled g E) (hbal : BalancedFor g E faces) (hP : g.Valid P)
    (hF : Reach g E P F) {k k' : V3 Int} (hk : InHood g k') (hc : g.InCover (corner g P k'))
    {d : Fin 3} {pos : Bool} (he : ∀ e, e ≠ d → k' e = k e)
    (hd : k' d = if pos then k d + 1 else k d - 1) (hg : GoodBlock g P F k) : GoodBlock g P F k' := by
  have hsP := side_pos (g := g) P
  have hcd : corner g P k' d = if pos then corner g P k d + g.side P else corner g P k d - g.side P := by
    unfold corner
    rw [hd]
    cases pos
    · simp only [Bool.false_eq_true, if_false]
      rw [Int.sub_mul]; omega
    · simp only [if_true]
      rw [Int.add_mul]; omega
  have hce : ∀ e, e ≠ d → corner g P k' e = corner g P k e := by
    intro e h; unfold corner; rw [he e h]
  have fin : ∀ b lo, F b → g.Lift b lo → (∀ e, e ≠ d → lo e = corner g P k e) →
      (if pos then lo d + g.side b = corner g P k d + g.side P else lo d = corner g P k d) →
      GoodBlock g P F k' := by
    intro b lo hb hl h1 h2
    have hq : Block g P k' (nbrPt lo (g.side b) d pos) := by
      intro e
      show corner g P k' e ≤ _ ∧ _ < corner g P k' e + g.side P
      by_cases hed : e = d
      · subst hed
        rw [hcd]
        cases pos
        · simp only [nbrPt, setD_same, Bool.false_eq_true, if_false] at h2 ⊢; omega
        · simp only [nbrPt, setD_same, if_true] at h2 ⊢; omega
      · rw [nbrPt, setD_ne _ _ hed, hce e hed, h1 e hed]; omega
    obtain ⟨a, la, ha, hla, hbox⟩ := hF.step hw ht hbal hP hb hl hk hc hq
    exact hF.enter hw ht hbal hP hk hc ha hla hbox hq
  rcases hg with ⟨b, hb, hs, hl⟩ | ⟨s, hs, hall⟩
  · apply fin b _ hb hl (fun e _ => rfl)
    cases pos
    · simp
    · simp [hs]
  · obtain ⟨b, hb, hsb, hl⟩ := hall (fun e => if e = d ∧ pos = true then 1 else 0)
      (fun e => by show (if _ then 1 else 0) ≤ 1; split <;> omega)
    apply fin b _ hb hl
    · intro e h; simp [h]
    · cases pos
      · simp
      · simp only [and_self, if_true]; omega

theorem natAbs_sum : ∀ (d : Fin 3) (k k0 : V3 Int), (∀ e, e ≠ d → k0 e = k e) →
    (k0 d).natAbs + 1 = (k d).natAbs → (k0 0).natAbs + (k0 1).natAbs + (k0 2).natAbs + 1 =
      (k 0).natAbs + (k 1).natAbs + (k 2).natAbs := by
  rw [forall_fin3]
  refine ⟨fun k k0 h h1 => ?_, fun k k0 h h1 => ?_, fun k k0 h h1 => ?_⟩
  · rw [h 1 (by decide), h 2 (by decide)]; omega
  · rw [h 0 (by decide), h 2 (by decide)]; omega
  · rw [h 0 (by decide), h 1 (by decide)]; omega

/-- The visited cells include every existing cell of the neighborhood region. -/
theorem reach_blocks (hw : g.WF) (ht : Tiled g E) (hbal : BalancedFor g E faces) (hP : g.Valid P)
    (hF : Reach g E P F) (h0 : GoodBlock g P F (fun _ => 0)) (m : Nat) (k : V3 Int)
    (hm : (k 0).natAbs + (k 1).natAbs + (k 2).natAbs = m)
    (hk : InHood g k) (hc : g.InCover (corner g P k)) : GoodBlock g P F k := by
  induction m generalizing k with
  | zero =>
    have : k = fun _ => 0 := v3_ext (by omega) (by omega) (by omega)
    rw [this]; exact h0
  | succ m ih =>
    have hne : ∃ d, k d ≠ 0 := by
      apply Classical.byContradiction
      intro h
      have h' : ∀ d, k d = 0 := fun d => Classical.byContradiction fun hx => h ⟨d, hx⟩
      rw [h' 0, h' 1, h' 2] at hm
      simp at hm
    obtain ⟨d, hd⟩ := hne
    let pos : Bool := decide (k d > 0)
    let k0 : V3 Int := setD k d (if k d > 0 then k d - 1 else k d + 1)
    have hk0d : k0 d = if k d > 0 then k d - 1 else k d + 1 := setD_same _ _ _
    have hk0e : ∀ e, e ≠ d → k0 e = k e := fun e h => setD_ne _ _ h
    have hk0 : InHood g k0 := by
      by_cases hz : k0 = fun _ => 0
      · exact Or.inl hz
      right
      rcases hk with hk | hk
      · exact absurd (congrFun hk d) hd
      by_cases hh : g.hood = 0
      · exfalso
        apply hz
        rw [hoodOf_zero hh] at hk
        obtain ⟨d', p', rfl⟩ := faces_mem.1 hk
        have hdd : d = d' := by
          apply Classical.byContradiction
          intro h; exact hd (by rw [unitItem, setD_ne _ _ h])
        subst hdd
        funext e
        by_cases he : e = d
        · subst he
          rw [hk0d]
          cases p' <;> simp [unitItem]
        · rw [hk0e e he, unitItem, setD_ne _ _ he]
      · rw [mem_hoodOf hh] at hk ⊢
        refine ⟨fun e => ?_, hz⟩
        by_cases he : e = d
        · subst he
          rw [hk0d]
          have := hk.1 e
          split <;> omega
        · rw [hk0e e he]; exact hk.1 e
    have hc0 : g.InCover (corner g P k0) := by
      intro e
      by_cases he : e = d
      · subst he
        rcases hc e with h | h
        · exact Or.inl h
        · right
          have h1 := idx_inGrid hw hP e
          have hsP := side_pos (g := g) P
          have h2 : corner g P k e = (g.idx P e : Int) + k e * g.side P := rfl
          have h3 : corner g P k0 e = (g.idx P e : Int) + k0 e * g.side P := rfl
          rw [hk0d] at h3
          by_cases hp : k e > 0
          · rw [if_pos hp] at h3
            have : 0 ≤ (k e - 1) * (g.side P : Int) := Int.mul_nonneg (by omega) (by omega)
            have e1 : (k e - 1) * (g.side P : Int) = k e * g.side P - g.side P := by
              rw [Int.sub_mul]; omega
            omega
          · rw [if_neg hp] at h3
            have h5 : (k e + 1) * (g.side P : Int) = -((-(k e + 1)) * g.side P) := by
              rw [Int.neg_mul]; omega
            have : 0 ≤ (-(k e + 1)) * (g.side P : Int) := Int.mul_nonneg (by omega) (by omega)
            have e1 : (k e + 1) * (g.side P : Int) = k e * g.side P + g.side P := by
              rw [Int.add_mul]; omega
            omega
      · have : corner g P k0 e = corner g P k e := by unfold corner; rw [hk0e e he]
        rw [this]; exact hc e
    have hm0 : (k0 0).natAbs + (k0 1).natAbs + (k0 2).natAbs = m := by
      have hdn : (k0 d).natAbs + 1 = (k d).natAbs := by
        rw [hk0d]; split <;> omega
      have := natAbs_sum d k k0 hk0e hdn
      omega
    refine hF.move hw ht hbal hP hk hc (d := d) (pos := pos) (fun e he => (hk0e e he).symm) ?_
      (ih k0 hm0 hk0 hc0)
    show k d = if decide (k d > 0) = true then k0 d + 1 else k0 d - 1
    rw [hk0d]
    by_cases hp : k d > 0
    · simp [hp]
    · simp [hp]

theorem good_block_mem (hw : g.WF) (ht : Tiled g E) (hF : Reach g E P F) {k q : V3 Int}
    (hg : GoodBlock g P F k) (hq : Block g P k q) {b : Nat} (hb : E b = true)
    (hm : g.Mem (g.wrap q) b) : F b := by
  have fin : ∀ a la, F a → g.Lift a la → InBox la (g.side a) q → F b := by
    intro a la ha hla hbox
    have := ht.unique _ a b (hF.ex a ha) hb (mem_of_box hw (ht.valid a (hF.ex a ha)) hla hbox) hm
    rw [← this]; exact ha
  rcases hg with ⟨a, ha, hs, hl⟩ | ⟨s, hs, hall⟩
  · refine fin a _ ha hl ?_
    rw [hs]; exact hq
  · obtain ⟨a, ha, hsa, hl⟩ := hall (fun d => if q d < corner g P k d + s then 0 else 1)
      (fun d => by show (if _ then 0 else 1) ≤ 1; split <;> omega)
    refine fin a _ ha hl ?_
    intro d
    have h2 : corner g P k d ≤ q d ∧ q d < corner g P k d + g.side P := hq d
    rw [hsa]
    by_cases h : q d < corner g P k d + s
    · simp only [if_pos h]; omega
    · simp only [if_neg h]; omega

/-- Every existing cell near `P` has been visited. -/
theorem reach_all (hw : g.WF) (ht : Tiled g E) (hbal : BalancedFor g E faces) (hP : g.Valid P)
    (hF : Reach g E P F) (h0 : GoodBlock g P F (fun _ => 0)) {b : Nat} (hb : E b = true)
    (hn : Near g P b) : F b := by
  have : ∃ k, InHood g k ∧ Meets g P k b := by
    rcases (near_iff hw).1 hn with h | ⟨o, ho, h⟩
    · exact ⟨_, Or.inl rfl, h⟩
    · exact ⟨o, Or.inr ho, h⟩
  obtain ⟨k, hk, q, hq, hc, hm⟩ := this
  have hcc := (inCover_corner_iff hw hP k hq).1 hc
  exact good_block_mem hw ht hF (reach_blocks hw ht hbal hP hF h0 _ k rfl hk hcc) hq hb hm

end
end Dccrg
