import Verif.NbrFind
/-!
# Membership in neighbor lists, `indices_from_neighborhood` and `find_neighbors_to`
-/
namespace Dccrg
open Cfg

section
variable {g : Cfg} {E : Nat → Bool}

theorem corner_block (g : Cfg) (c : Nat) (o : V3 Int) : Block g c o (corner g c o) := fun d => by
  have := side_pos (g := g) c
  show corner g c o d ≤ _ ∧ _ < corner g c o d + g.side c
  omega

/-- Cells of one item are exactly the existing cells that overlap the block. -/
theorem isItem_mem (hw : g.WF) (ht : Tiled g E) {c : Nat} (hc : E c = true) {o : V3 Int}
    {l : List (Nat × V3 Int)} (hl : IsItem g E c o l) (b : Nat) :
    (∃ off, (b, off) ∈ l) ↔ E b = true ∧ Meets g c o b := by
  have hvc := ht.valid _ hc
  cases hl with
  | outside h =>
    constructor
    · rintro ⟨_, h⟩; cases h
    · rintro ⟨_, q, hq, hcov, _⟩
      exact absurd ((inCover_corner_iff hw hvc o hq).1 hcov) h
  | @covers a off hcor ha hle hlift hbox =>
    constructor
    · rintro ⟨off', h⟩
      rw [List.mem_singleton] at h
      obtain ⟨rfl, -⟩ := Prod.mk.inj h
      exact ⟨ha, corner g c o, corner_block g c o, hcor,
        mem_of_box hw (ht.valid _ ha) hlift (hbox _ (corner_block g c o))⟩
    · rintro ⟨hb, q, hq, hcov, hm⟩
      have := ht.unique _ a b ha hb (mem_of_box hw (ht.valid _ ha) hlift (hbox _ hq)) hm
      subst this
      exact ⟨off, by simp⟩
  | @eight k s hcor hs hk =>
    have hsc := side_pos (g := g) c
    constructor
    · rintro ⟨off', h⟩
      rw [List.mem_map] at h
      obtain ⟨w, hwm, h⟩ := h
      obtain ⟨rfl, -⟩ := Prod.mk.inj h
      obtain ⟨h1, h2, h3⟩ := hk w hwm
      have hwv : ∀ d, (0 : Int) ≤ w d * s ∧ (w d * s : Int) ≤ s := by
        intro d
        have h1 : w d = 0 ∨ w d = 1 := by have := octants_le hwm d; omega
        rcases h1 with h1 | h1 <;> rw [h1] <;> simp
      have hblk : Block g c o (fun d => corner g c o d + w d * s) := fun d => by
        have := hwv d
        show corner g c o d ≤ corner g c o d + w d * s ∧
          corner g c o d + w d * s < corner g c o d + g.side c
        omega
      refine ⟨h1, _, hblk, (inCover_corner_iff hw hvc o hblk).2 hcor,
        mem_of_box hw (ht.valid _ h1) h3 (fun d => ?_)⟩
      have := side_pos (g := g) (k w)
      exact ⟨Int.le_refl _, Int.lt_add_of_pos_right _ (by omega)⟩
    · rintro ⟨hb, q, hq, hcov, hm⟩
      let w : V3 Nat := fun d => if q d < corner g c o d + s then 0 else 1
      have hwo : ∀ d, w d ≤ 1 := fun d => by show (if _ then _ else _) ≤ 1; split <;> omega
      have hwm : w ∈ octants := mem_octants_iff.2 hwo
      obtain ⟨h1, h2, h3⟩ := hk w hwm
      have hbox : InBox (fun d => corner g c o d + w d * s) (g.side (k w)) q := by
        intro d
        rw [h2]
        have hq' : corner g c o d ≤ q d ∧ q d < corner g c o d + g.side c := hq d
        show corner g c o d + ((if q d < corner g c o d + s then 0 else 1 : Nat) : Int) * s ≤ q d ∧
          q d < corner g c o d + ((if q d < corner g c o d + s then 0 else 1 : Nat) : Int) * s + s
        split <;> simp <;> omega
      have := ht.unique _ (k w) b h1 hb (mem_of_box hw (ht.valid _ h1) h3 hbox) hm
      subst this
      exact ⟨_, List.mem_map.2 ⟨w, hwm, rfl⟩⟩

/-! ## indices_from_neighborhood -/

theorem repeat_invariant {α : Type} {P : Nat → α → Prop} {f : α → α} {a : α} (h0 : P 0 a)
    (hs : ∀ k x, P k x → P (k + 1) (f x)) (k : Nat) : P k (Nat.repeat f k a) := by
  induction k with
  | zero => exact h0
  | succ k ih => exact hs _ _ ih

theorem shiftIdx_periodic {n len i : Nat} (hl : 0 < len) (hn : len ∣ n) (hi : len ∣ i) (hin : i < n)
    (off : Int) : ∃ r, shiftIdx n len i true off = some r ∧ r < n ∧ (n : Int) ∣ i + off * len - r := by
  obtain ⟨m, hm⟩ := hn
  have hnl : len ≤ n := by
    have : m ≠ 0 := by intro h; rw [h] at hm; omega
    rw [hm]; exact Nat.le_mul_of_pos_right _ (by omega)
  unfold shiftIdx
  by_cases ho : off < 0
  · rw [if_pos ho, if_pos rfl]
    have := repeat_invariant (α := Nat)
      (P := fun k x => x < n ∧ len ∣ x ∧ (n : Int) ∣ i - (k : Int) * len - x)
      (f := fun t => if t ≥ len then t - len else n - len) (a := i)
      ⟨hin, hi, by simp⟩
      (fun k x ⟨h1, h2, h3⟩ => by
        by_cases hx : x ≥ len
        · rw [if_pos hx]
          refine ⟨by omega, Nat.dvd_sub h2 (Nat.dvd_refl _), ?_⟩
          have e : (i : Int) - ((k + 1 : Nat) : Int) * len - ((x - len : Nat) : Int)
              = i - (k : Int) * len - x := by
            rw [Int.natCast_add, Int.add_mul]; omega
          rw [e]; exact h3
        · rw [if_neg hx]
          have hx0 : x = 0 := by
            rcases Nat.eq_zero_or_pos x with h | h
            · exact h
            · exact absurd (Nat.le_of_dvd h h2) hx
          refine ⟨by omega, ⟨m - 1, by rw [Nat.mul_sub, hm]; omega⟩, ?_⟩
          have e : (i : Int) - ((k + 1 : Nat) : Int) * len - ((n - len : Nat) : Int)
              = (i - (k : Int) * len - x) - n := by
            rw [Int.natCast_add, Int.add_mul]; omega
          rw [e]; exact Int.dvd_sub h3 (Int.dvd_refl _))
      off.natAbs
    refine ⟨_, rfl, this.1, ?_⟩
    have e : (i : Int) + off * len = i - ((off.natAbs : Nat) : Int) * len := by
      have : off = - ((off.natAbs : Nat) : Int) := by omega
      rw [this, Int.neg_mul]; simp; omega
    rw [e]; exact this.2.2
  · rw [if_neg ho, if_pos rfl]
    have := repeat_invariant (α := Nat)
      (P := fun k x => x < n ∧ len ∣ x ∧ (n : Int) ∣ i + (k : Int) * len - x)
      (f := fun t => if t < n - len then t + len else 0) (a := i)
      ⟨hin, hi, by simp⟩
      (fun k x ⟨h1, h2, h3⟩ => by
        by_cases hx : x < n - len
        · rw [if_pos hx]
          refine ⟨by omega, Nat.dvd_add h2 (Nat.dvd_refl _), ?_⟩
          have e : (i : Int) + ((k + 1 : Nat) : Int) * len - ((x + len : Nat) : Int)
              = i + (k : Int) * len - x := by
            rw [Int.natCast_add, Int.add_mul]; omega
          rw [e]; exact h3
        · rw [if_neg hx]
          -- the last cell
          have hx1 : x = n - len := by
            obtain ⟨q, rfl⟩ := h2
            subst hm
            have h4 : q < m := Nat.lt_of_mul_lt_mul_left h1
            have h5 : len * m - len = len * (m - 1) := by rw [Nat.mul_sub, Nat.mul_one]
            rw [h5] at hx ⊢
            have h6 : m - 1 ≤ q := Nat.le_of_mul_le_mul_left (by omega) hl
            congr 1; omega
          refine ⟨by omega, Nat.dvd_zero _, ?_⟩
          have e : (i : Int) + ((k + 1 : Nat) : Int) * len - ((0 : Nat) : Int)
              = (i + (k : Int) * len - x) + n := by
            rw [Int.natCast_add, Int.add_mul]; omega
          rw [e]; exact Int.dvd_add h3 (Int.dvd_refl _))
      off.natAbs
    refine ⟨_, rfl, this.1, ?_⟩
    have e : (i : Int) + off * len = i + ((off.natAbs : Nat) : Int) * len := by
      have : off = ((off.natAbs : Nat) : Int) := by omega
      rw [← this]
    rw [e]; exact this.2.2

theorem shiftIdx_bounded {n len i : Nat} (off : Int) (hin : i < n) :
    shiftIdx n len i false off = if 0 ≤ i + off * len ∧ i + off * len < n then
      some (i + off * len).toNat else none := by
  unfold shiftIdx
  by_cases ho : off < 0
  · rw [if_pos ho]
    have e : off * (len : Int) = - ((off.natAbs * len : Nat) : Int) := by
      have : off = - ((off.natAbs : Nat) : Int) := by omega
      rw [Int.natCast_mul, ← Int.neg_mul, ← this]
    rw [e]
    simp only [Bool.false_eq_true, if_false]
    by_cases h : i < off.natAbs * len
    · rw [if_pos h, if_neg (by omega)]
    · rw [if_neg h, if_pos (by omega)]; congr 1; omega
  · rw [if_neg ho]
    have e : off * (len : Int) = ((off.natAbs * len : Nat) : Int) := by
      have : off = ((off.natAbs : Nat) : Int) := by omega
      rw [Int.natCast_mul, ← this]
    rw [e]
    simp only [Bool.false_eq_true, if_false]
    by_cases h : i + off.natAbs * len ≥ n
    · rw [if_pos h, if_neg (by omega)]
    · rw [if_neg h, if_pos (by omega)]; congr 1

/-- `indices_from_neighborhood`: the shifted location, wrapped around in periodic dimensions. -/
theorem shift_eq (hw : g.WF) {p : V3 Nat} (hp : g.InGrid p) {len : Nat} (hl : 0 < len)
    (hn : ∀ d, len ∣ g.n d) (hi : ∀ d, len ∣ p d) (o : V3 Int) :
    shift g p len o = if g.InCover (fun d => p d + o d * len) then
      some (g.wrap (fun d => p d + o d * len)) else none := by
  have key : ∀ d, shiftIdx (g.n d) len (p d) (g.periodic d) (o d) =
      if (g.periodic d = true ∨ (0 ≤ (p d : Int) + o d * len ∧ (p d : Int) + o d * len < g.n d)) then
        some (g.wrap (fun d => p d + o d * len) d) else none := by
    intro d
    cases hper : g.periodic d with
    | true =>
      rw [if_pos (Or.inl rfl)]
      obtain ⟨r, h1, h2, h3⟩ := shiftIdx_periodic hl (hn d) (hi d) (hp d) (o d)
      rw [h1]
      congr 1
      have h4 := wrap_cast hw (fun d => (p d : Int) + o d * len) d
      have h5 : ((p d : Int) + o d * len) % (g.n d : Int) = (r : Int) % (g.n d : Int) :=
        (Int.emod_eq_emod_iff_emod_sub_eq_zero).2 (Int.emod_eq_zero_of_dvd h3)
      rw [h5, Int.emod_eq_of_lt (by omega) (by omega)] at h4
      exact (Int.ofNat.inj h4).symm
    | false =>
      rw [shiftIdx_bounded _ (hp d)]
      by_cases h : 0 ≤ (p d : Int) + o d * len ∧ (p d : Int) + o d * len < g.n d
      · rw [if_pos h, if_pos (Or.inr h)]
        have := wrap_of_range (g := g) (q := fun d => (p d : Int) + o d * len) (d := d) h
        congr 1
        omega
      · rw [if_neg h, if_neg]
        rintro (h' | h')
        · cases h'
        · exact h h'
  unfold shift
  rw [key 0, key 1, key 2]
  by_cases h : g.InCover (fun d => (p d : Int) + o d * len)
  · rw [if_pos h, if_pos (h 0), if_pos (h 1), if_pos (h 2)]
    simp only
    congr 1
    exact v3_ext rfl rfl rfl
  · rw [if_neg h]
    have : ¬ (∀ d, (g.periodic d = true ∨
        (0 ≤ (p d : Int) + o d * len ∧ (p d : Int) + o d * len < g.n d))) := h
    rw [forall_fin3] at this
    by_cases h0 : (g.periodic 0 = true ∨
        (0 ≤ (p 0 : Int) + o 0 * len ∧ (p 0 : Int) + o 0 * len < g.n 0))
    · by_cases h1 : (g.periodic 1 = true ∨
        (0 ≤ (p 1 : Int) + o 1 * len ∧ (p 1 : Int) + o 1 * len < g.n 1))
      · rw [if_pos h0, if_pos h1, if_neg (fun h2 => this ⟨h0, h1, h2⟩)]
      · rw [if_pos h0, if_neg h1]
    · rw [if_neg h0]

/-! ## find_neighbors_to -/

theorem mem_dedup {a : Nat} {l : List Nat} : a ∈ dedup l ↔ a ∈ l := by
  induction l with
  | nil => simp [dedup]
  | cons b l ih =>
    unfold dedup
    split
    · rename_i h
      rw [ih]
      constructor
      · intro h'; exact List.mem_cons_of_mem _ h'
      · intro h'
        rcases List.mem_cons.1 h' with rfl | h'
        · exact h
        · exact h'
    · simp [ih]

theorem nodup_dedup (l : List Nat) : (dedup l).Nodup := by
  induction l with
  | nil => simp [dedup]
  | cons b l ih =>
    unfold dedup
    split
    · exact ih
    · rename_i h
      rw [List.nodup_cons]
      exact ⟨fun h' => h (mem_dedup.1 h'), ih⟩

/-- Corner of a valid cell at offset `-o` is inside iff the cell there sees the corner at `o`. -/
theorem mem_foundAt (hw : g.WF) (ht : Tiled g E) {k : Nat} (hk : g.Valid k) {H : List (V3 Int)}
    (b : Nat) :
    b ∈ foundAt g E (g.idx k) (g.side k) (g.lvl k) (negHood H) ↔
      E b = true ∧ g.lvl b = g.lvl k ∧ ∃ o ∈ H, g.InCover (corner g b o) ∧
        g.wrap (corner g b o) = g.idx k := by
  have hg := idx_inGrid hw hk
  have hsn : ∀ d, g.side k ∣ g.n d := fun d => Int.natCast_dvd_natCast.1 (side_dvd_n hk d)
  unfold foundAt
  rw [List.mem_filter, List.mem_filterMap]
  constructor
  · rintro ⟨⟨o', ho', hs⟩, hch⟩
    obtain ⟨o, ho, rfl⟩ := List.mem_map.1 ho'
    rw [shift_eq hw hg (side_pos k) hsn (side_dvd_idx hw hk)] at hs
    let q : V3 Int := fun d => g.idx k d + - o d * g.side k
    by_cases hcov : g.InCover q
    · rw [if_pos hcov] at hs
      have hb : g.cellAt (g.lvl k) (g.wrap q) = b := by
        simpa using hs
      have hgq := wrap_inGrid hw q
      have hvb : g.Valid b := hb ▸ cellAt_valid hgq (lvl_le hk)
      have hlb : g.lvl b = g.lvl k := hb ▸ lvl_cellAt hgq (lvl_le hk)
      have hE : E b = true := by
        rw [beq_iff_eq] at hch
        exact (ht.getChild_eq_iff hw (valid_ne_zero hvb)).1 hch
      have hsb : g.side b = g.side k := by rw [side, side, hlb]
      refine ⟨hE, hlb, o, ho, ?_⟩
      -- the block at `o` of `b` is an image of `k`
      have hib : ∀ d, g.idx b d = g.wrap q d := by
        intro d
        have h1 := idx_cellAt hgq (lvl_le hk) d
        rw [hb] at h1
        rw [h1]
        have h2 : (g.side k : Int) ∣ g.wrap q d := by
          have h3 := n_dvd_sub_wrap hw q d
          have h4 : (g.side k : Int) ∣ q d :=
            Int.dvd_add (Int.natCast_dvd_natCast.2 (side_dvd_idx hw hk d)) (Int.dvd_mul_left _ _)
          have h5 := Int.dvd_sub h4 (Int.dvd_trans (side_dvd_n hk d) h3)
          rwa [Int.sub_sub_self] at h5
        have h6 : 2 ^ (g.maxLvl - g.lvl k) ∣ g.wrap q d := Int.natCast_dvd_natCast.1 h2
        exact Nat.div_mul_cancel h6
      have hcor : ∀ d, (g.n d : Int) ∣ corner g b o d - g.idx k d := by
        intro d
        have h3 := n_dvd_sub_wrap hw q d
        have e : corner g b o d - g.idx k d = - (q d - g.wrap q d) := by
          show (g.idx b d : Int) + o d * g.side b - g.idx k d
            = - ((g.idx k d : Int) + - o d * g.side k - g.wrap q d)
          rw [hib d, hsb, Int.neg_mul]; omega
        rw [e]; exact Int.dvd_neg.2 h3
      refine ⟨fun d => ?_, wrap_eq hw hg hcor⟩
      cases hp : g.periodic d with
      | true => exact Or.inl rfl
      | false =>
        right
        rcases hcov d with h | h
        · rw [hp] at h; cases h
        · have h1 := wrap_of_range (g := g) h
          have h2 := hg d
          have e : corner g b o d = g.idx k d := by
            show (g.idx b d : Int) + o d * g.side b = g.idx k d
            rw [hib d, hsb, h1]
            show (g.idx k d : Int) + - o d * g.side k + o d * g.side k = _
            rw [Int.neg_mul]; omega
          rw [e]; omega
    · rw [if_neg hcov] at hs; cases hs
  · rintro ⟨hE, hlb, o, ho, hcov, hwr⟩
    have hvb := ht.valid _ hE
    have hsb : g.side b = g.side k := by rw [side, side, hlb]
    let q : V3 Int := fun d => g.idx k d + - o d * g.side k
    have hq : ∀ d, (g.n d : Int) ∣ q d - g.idx b d := by
      intro d
      have h1 := n_dvd_sub_wrap hw (corner g b o) d
      rw [hwr] at h1
      have e : q d - g.idx b d = - (corner g b o d - g.idx k d) := by
        show (g.idx k d : Int) + - o d * g.side k - g.idx b d
          = - ((g.idx b d : Int) + o d * g.side b - g.idx k d)
        rw [hsb, Int.neg_mul]; omega
      rw [e]; exact Int.dvd_neg.2 h1
    have hwq : g.wrap q = g.idx b := wrap_eq hw (idx_inGrid hw hvb) hq
    have hqc : g.InCover q := by
      intro d
      cases hp : g.periodic d with
      | true => exact Or.inl rfl
      | false =>
        right
        rcases hcov d with h | h
        · rw [hp] at h; cases h
        · have h1 := wrap_of_range (g := g) h
          rw [hwr] at h1
          have h2 := idx_inGrid hw hvb d
          have e : q d = g.idx b d := by
            show (g.idx k d : Int) + - o d * g.side k = g.idx b d
            rw [h1]
            show (g.idx b d : Int) + o d * g.side b + - o d * g.side k = _
            rw [hsb, Int.neg_mul]; omega
          rw [e]; omega
    refine ⟨⟨fun d => - o d, List.mem_map.2 ⟨o, ho, rfl⟩, ?_⟩, ?_⟩
    · rw [shift_eq hw hg (side_pos k) hsn (side_dvd_idx hw hk), if_pos hqc]
      show some (g.cellAt (g.lvl k) (g.wrap q)) = some b
      rw [hwq, ← hlb, cellAt_idx hvb]
    · rw [beq_iff_eq]
      exact (ht.getChild_eq_iff hw (valid_ne_zero hvb)).2 hE

/-- Blocks are images of cells of the same level: a block inside of the grid is the image of the cell
of its level at its corner. -/
theorem block_cell (hw : g.WF) {b : Nat} (hvb : g.Valid b) (o : V3 Int)
    (hcov : g.InCover (corner g b o)) :
    ∃ k, g.Valid k ∧ g.lvl k = g.lvl b ∧ g.idx k = g.wrap (corner g b o) ∧
      g.Lift k (corner g b o) := by
  have hgq := wrap_inGrid hw (corner g b o)
  refine ⟨g.cellAt (g.lvl b) (g.wrap (corner g b o)), cellAt_valid hgq (lvl_le hvb),
    lvl_cellAt hgq (lvl_le hvb), ?_, ?_⟩
  · funext d
    rw [idx_cellAt hgq (lvl_le hvb)]
    have h2 : (g.side b : Int) ∣ g.wrap (corner g b o) d := by
      have h3 := n_dvd_sub_wrap hw (corner g b o) d
      have h5 := Int.dvd_sub (corner_dvd hw hvb o d) (Int.dvd_trans (side_dvd_n hvb d) h3)
      rwa [Int.sub_sub_self] at h5
    have h6 : 2 ^ (g.maxLvl - g.lvl b) ∣ g.wrap (corner g b o) d := Int.natCast_dvd_natCast.1 h2
    exact Nat.div_mul_cancel h6
  · have hi : g.idx (g.cellAt (g.lvl b) (g.wrap (corner g b o))) = g.wrap (corner g b o) := by
      funext d
      rw [idx_cellAt hgq (lvl_le hvb)]
      have h2 : (g.side b : Int) ∣ g.wrap (corner g b o) d := by
        have h3 := n_dvd_sub_wrap hw (corner g b o) d
        have h5 := Int.dvd_sub (corner_dvd hw hvb o d) (Int.dvd_trans (side_dvd_n hvb d) h3)
        rwa [Int.sub_sub_self] at h5
      have h6 : 2 ^ (g.maxLvl - g.lvl b) ∣ g.wrap (corner g b o) d := Int.natCast_dvd_natCast.1 h2
      exact Nat.div_mul_cancel h6
    intro d
    rw [hi]
    refine ⟨n_dvd_sub_wrap hw _ d, fun hp => ?_⟩
    rcases hcov d with h | h
    · rw [hp] at h; cases h
    · exact (wrap_of_range (g := g) h).symm

/-- A cell meets another one's block iff the cell of the block's size at the block is nested with it. -/
theorem meets_iff (hw : g.WF) {b c : Nat} (hvb : g.Valid b) (o : V3 Int) :
    Meets g b o c ↔ ∃ k, g.Valid k ∧ g.lvl k = g.lvl b ∧ g.idx k = g.wrap (corner g b o) ∧
      g.InCover (corner g b o) ∧ ∃ p, g.Mem p k ∧ g.Mem p c := by
  constructor
  · rintro ⟨q, hq, hcov, hm⟩
    have hcor := (inCover_corner_iff hw hvb o hq).1 hcov
    obtain ⟨k, h1, h2, h3, h4⟩ := block_cell hw hvb o hcor
    have hs : g.side k = g.side b := by rw [side, side, h2]
    exact ⟨k, h1, h2, h3, hcor, _, mem_of_box hw h1 h4 (by rw [hs]; exact hq), hm⟩
  · rintro ⟨k, h1, h2, h3, hcor, p, hpk, hpc⟩
    obtain ⟨k', h1', h2', h3', h4'⟩ := block_cell hw hvb o hcor
    have := eq_of_lvl_idx h1 h1' (by omega) (by rw [h3, h3'])
    subst this
    have hs : g.side k = g.side b := by rw [side, side, h2]
    let q : V3 Int := fun d => corner g b o d + (p d - g.idx k d)
    have hbox : InBox (corner g b o) (g.side k) q := by
      intro d
      have := hpk d
      show corner g b o d ≤ corner g b o d + (p d - g.idx k d) ∧
        corner g b o d + (p d - g.idx k d) < _
      omega
    have hwq : g.wrap q = p := by
      funext d
      have := lift_mem hw h1 h4' hbox d
      have : (g.wrap q d : Int) = p d := by
        rw [this]
        show (g.idx k d : Int) + (corner g b o d + (p d - g.idx k d) - corner g b o d) = p d
        omega
      exact Int.ofNat.inj this
    exact ⟨q, by rw [hs] at hbox; exact hbox, inCover_of_box hw h1 h4' hbox, by rw [hwq]; exact hpc⟩

/-- `find_neighbors_to` finds exactly the cells that have the cell in their neighborhood. -/
theorem findNeighborsTo_spec (hw : g.WF) (ht : Tiled g E) {c : Nat} (hc : E c = true)
    (H : List (V3 Int)) (hbal : BalancedFor g E H) :
    ∃ r, findNeighborsTo g E c (negHood H) = .ok r ∧ r.Nodup ∧
      ∀ b, b ∈ r ↔ E b = true ∧ ∃ o ∈ H, Meets g b o c := by
  have hv := ht.valid _ hc
  have hmax := lvl_le hv
  unfold findNeighborsTo
  rw [if_neg (by
    rintro (h | h | h)
    · exact valid_ne_zero hv h
    · have := hv.2; omega
    · exact h ((ht.getChild_eq_iff hw (valid_ne_zero hv)).2 hc))]
  refine ⟨_, rfl, nodup_dedup _, fun b => ?_⟩
  rw [mem_dedup, List.mem_append, List.mem_append]
  constructor
  · rintro ((h | h) | h)
    · by_cases hl : g.lvl c > 0
      · rw [if_pos hl, ← lvl_parent hw hv, mem_foundAt hw ht (parent_valid hw hv)] at h
        obtain ⟨h1, h2, o, ho, h3, h4⟩ := h
        exact ⟨h1, o, ho, (meets_iff hw (ht.valid _ h1) o).2 ⟨g.parent c, parent_valid hw hv, h2.symm,
          h4.symm, h3, g.idx c, mem_parent hw hv (mem_idx c), mem_idx c⟩⟩
      · rw [if_neg hl] at h; cases h
    · by_cases hl : g.lvl c < g.maxLvl
      · rw [if_pos hl, List.mem_flatMap] at h
        obtain ⟨k, hk, h⟩ := h
        obtain ⟨hk1, hk2, hk3⟩ := (children_spec hw hv hl).1 hk
        rw [← hk2, mem_foundAt hw ht hk1] at h
        obtain ⟨h1, h2, o, ho, h3, h4⟩ := h
        exact ⟨h1, o, ho, (meets_iff hw (ht.valid _ h1) o).2 ⟨k, hk1, h2.symm, h4.symm, h3, g.idx k,
          mem_idx k, mem_of_mem_children hw hv hl hk (mem_idx k)⟩⟩
      · rw [if_neg hl] at h; cases h
    · rw [mem_foundAt hw ht hv] at h
      obtain ⟨h1, h2, o, ho, h3, h4⟩ := h
      exact ⟨h1, o, ho, (meets_iff hw (ht.valid _ h1) o).2 ⟨c, hv, h2.symm, h4.symm, h3, g.idx c,
        mem_idx c, mem_idx c⟩⟩
  · rintro ⟨h1, o, ho, hm⟩
    have hlv := hbal b c h1 hc o ho hm
    have hvb := ht.valid _ h1
    obtain ⟨k, k1, k2, k3, k4, p, hpk, hpc⟩ := (meets_iff hw hvb o).1 hm
    have hcase : g.lvl b + 1 = g.lvl c ∨ g.lvl b = g.lvl c + 1 ∨ g.lvl b = g.lvl c := by omega
    rcases hcase with h | h | h
    · left; left
      rw [if_pos (by omega), ← lvl_parent hw hv, mem_foundAt hw ht (parent_valid hw hv)]
      have hk : k = g.parent c := eq_of_mem_lvl hw k1 (parent_valid hw hv)
        (by rw [lvl_parent hw hv]; omega) hpk (mem_parent hw hv hpc)
      exact ⟨h1, by rw [lvl_parent hw hv]; omega, o, ho, k4, by rw [← k3, hk]⟩
    · left; right
      have := lvl_le hvb
      have hl : g.lvl c < g.maxLvl := by omega
      rw [if_pos hl, List.mem_flatMap]
      have hkc : k ∈ g.children c := by
        rw [children_spec hw hv hl]
        refine ⟨k1, by omega, ?_⟩
        exact eq_of_mem_lvl hw (parent_valid hw k1) hv (by rw [lvl_parent hw k1]; omega)
          (mem_parent hw k1 hpk) hpc
      refine ⟨k, hkc, ?_⟩
      rw [show g.lvl c + 1 = g.lvl k by omega, mem_foundAt hw ht k1]
      exact ⟨h1, k2.symm, o, ho, k4, k3.symm⟩
    · right
      rw [mem_foundAt hw ht hv]
      have hk : k = c := eq_of_mem_lvl hw k1 hv (by omega) hpk hpc
      exact ⟨h1, h, o, ho, k4, by rw [← k3, hk]⟩

end
end Dccrg
