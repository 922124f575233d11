import Verif.Props.Lists
/-!
# C72: searches in boxes, C73: neighbors at an offset

Specification vocabulary: `Between lo hi p` says that index triple `p` is in the given box, both ends inclusive;
`Before p q` is the order x first, then y, then z.
-/
namespace Dccrg
open Cfg
variable {g : Cfg} {E : Nat → Bool}

/-- Index triple in a box. -/
def Between (lo hi p : V3 Nat) : Prop := ∀ d, lo d ≤ p d ∧ p d ≤ hi d

/-- Order of index triples: x first, then y, then z. -/
def Before (p q : V3 Nat) : Prop := p 2 < q 2 ∨ (p 2 = q 2 ∧ (p 1 < q 1 ∨ (p 1 = q 1 ∧ p 0 < q 0)))

theorem mem_axisPts {lo hi inc x : Nat} (hi0 : 0 < inc) : x ∈ axisPts lo hi inc ↔ (∃ k, x = lo + k * inc) ∧ x ≤ hi := by
  unfold axisPts
  simp only [List.mem_map, List.mem_range]
  have key : ∀ k, k < (hi + inc - lo) / inc ↔ lo + k * inc ≤ hi := by
    intro k
    rw [Nat.lt_iff_add_one_le, Nat.le_div_iff_mul_le hi0, Nat.add_mul]
    omega
  constructor
  · rintro ⟨k, h, rfl⟩
    exact ⟨⟨k, rfl⟩, (key k).1 h⟩
  · rintro ⟨⟨k, rfl⟩, h⟩
    exact ⟨k, (key k).2 h, rfl⟩

theorem axisPts_sorted {lo hi inc : Nat} (hi0 : 0 < inc) : (axisPts lo hi inc).Pairwise (· < ·) := by
  unfold axisPts
  rw [List.pairwise_map]
  refine List.pairwise_lt_range.imp ?_
  intro a b h
  have := Nat.mul_lt_mul_of_pos_right h hi0
  omega

theorem mem_boxPts {lo hi p : V3 Nat} {inc : Nat} (hi0 : 0 < inc) :
    p ∈ boxPts lo hi inc ↔ ∀ d, (∃ k, p d = lo d + k * inc) ∧ p d ≤ hi d := by
  unfold boxPts
  simp only [List.mem_flatMap, List.mem_map, mem_axisPts hi0]
  constructor
  · rintro ⟨z, hz, y, hy, x, hx, rfl⟩
    exact forall_fin3.2 ⟨hx, hy, hz⟩
  · intro h
    exact ⟨p 2, h 2, p 1, h 1, p 0, h 0, v3_ext rfl rfl rfl⟩

theorem pairwise_flatMap_of {α β : Type} {R : α → α → Prop} {S : β → β → Prop} {l : List α} {f : α → List β}
    (hl : l.Pairwise R) (hf : ∀ a ∈ l, (f a).Pairwise S) (hd : ∀ a b, R a b → ∀ x ∈ f a, ∀ y ∈ f b, S x y) :
    (l.flatMap f).Pairwise S := by
  induction l with
  | nil => exact .nil
  | cons a l ih =>
    rw [List.flatMap_cons, List.pairwise_append]
    obtain ⟨h1, h2⟩ := List.pairwise_cons.1 hl
    refine ⟨hf a (.head _), ih h2 fun b hb => hf b (.tail _ hb), ?_⟩
    intro x hx y hy
    obtain ⟨b, hb, hyb⟩ := List.mem_flatMap.1 hy
    exact hd a b (h1 b hb) x hx y hyb

theorem boxPts_sorted {lo hi : V3 Nat} {inc : Nat} (hi0 : 0 < inc) : (boxPts lo hi inc).Pairwise Before := by
  unfold boxPts
  refine pairwise_flatMap_of (axisPts_sorted hi0) (fun z _ => ?_) ?_
  · refine pairwise_flatMap_of (axisPts_sorted hi0) (fun y _ => ?_) ?_
    · rw [List.pairwise_map]
      exact (axisPts_sorted hi0).imp fun h => .inr ⟨rfl, .inr ⟨rfl, h⟩⟩
    · intro a b h x hx y hy
      obtain ⟨_, -, rfl⟩ := List.mem_map.1 hx
      obtain ⟨_, -, rfl⟩ := List.mem_map.1 hy
      exact .inr ⟨rfl, .inl h⟩
  · intro a b h x hx y hy
    obtain ⟨_, -, hx⟩ := List.mem_flatMap.1 hx
    obtain ⟨_, -, hy⟩ := List.mem_flatMap.1 hy
    obtain ⟨_, -, rfl⟩ := List.mem_map.1 hx
    obtain ⟨_, -, rfl⟩ := List.mem_map.1 hy
    exact .inl h

theorem mem_firstsOf {l seen : List Nat} {c : Nat} :
    c ∈ firstsOf g E seen l ↔ c ∈ l ∧ c ∉ seen ∧ c = getChild g E c := by
  induction l generalizing seen with
  | nil => simp [firstsOf]
  | cons a l ih =>
    unfold firstsOf
    split
    · rename_i h
      rw [ih]
      constructor
      · exact fun h => ⟨.tail _ h.1, h.2⟩
      · rintro ⟨h1, h2, h3⟩
        rcases List.mem_cons.1 h1 with rfl | h1
        · exact absurd h3 h
        · exact ⟨h1, h2, h3⟩
    · rename_i h
      have h := Classical.not_not.1 h
      split
      · rename_i h'
        rw [ih]
        constructor
        · exact fun h => ⟨.tail _ h.1, h.2⟩
        · rintro ⟨h1, h2, h3⟩
          rcases List.mem_cons.1 h1 with rfl | h1
          · exact absurd h' h2
          · exact ⟨h1, h2, h3⟩
      · rename_i h'
        rw [List.mem_cons, ih]
        constructor
        · rintro (rfl | ⟨h1, h2, h3⟩)
          · exact ⟨.head _, h', h⟩
          · exact ⟨.tail _ h1, fun h => h2 (.tail _ h), h3⟩
        · rintro ⟨h1, h2, h3⟩
          by_cases e : c = a
          · exact .inl e
          · right
            rcases List.mem_cons.1 h1 with e' | h1
            · exact absurd e' e
            · refine ⟨h1, ?_, h3⟩
              intro hc
              rcases List.mem_cons.1 hc with e' | hc
              · exact e e'
              · exact h2 hc

theorem firstsOf_nodup {l seen : List Nat} : (firstsOf g E seen l).Nodup := by
  induction l generalizing seen with
  | nil => exact List.nodup_nil
  | cons a l ih =>
    unfold firstsOf
    split
    · exact ih
    · split
      · exact ih
      · refine List.nodup_cons.2 ⟨fun h => ?_, ih⟩
        exact (mem_firstsOf.1 h).2.1 (.head _)

/-- First occurrences are in the order of the points where they occur first. -/
theorem firstsOf_order {R : V3 Nat → V3 Nat → Prop} {f : V3 Nat → Nat} {k : Nat → V3 Nat} {L : List (V3 Nat)}
    (hL : L.Pairwise R) (hf : ∀ p ∈ L, f p ≠ 0 → f p = getChild g E (f p))
    (hk : ∀ p ∈ L, f p ≠ 0 → k (f p) ∈ L ∧ f (k (f p)) = f p ∧ ¬ R p (k (f p))) :
    ((firstsOf g E [] (L.map f)).filter fun c => c != 0).Pairwise fun a b => R (k a) (k b) := by
  suffices ∀ suf pre seen, pre ++ suf = L → (∀ p ∈ pre, f p ≠ 0 → f p ∈ seen) →
      ((firstsOf g E seen (suf.map f)).filter fun c => c != 0).Pairwise (fun a b => R (k a) (k b)) ∧
      ∀ c ∈ (firstsOf g E seen (suf.map f)).filter (fun c => c != 0), k c ∈ suf from
    (this L [] [] rfl (fun p hp => by cases hp)).1
  intro suf
  induction suf with
  | nil => intro pre seen _ _; exact ⟨.nil, fun c hc => by cases hc⟩
  | cons p suf ih =>
    intro pre seen hps hseen
    have hpL : p ∈ L := by rw [← hps]; simp
    have hps' : (pre ++ [p]) ++ suf = L := by rw [← hps]; simp
    have skip : (f p ≠ 0 → f p ∈ seen) →
        ((firstsOf g E seen (suf.map f)).filter fun c => c != 0).Pairwise (fun a b => R (k a) (k b)) ∧
        ∀ c ∈ (firstsOf g E seen (suf.map f)).filter (fun c => c != 0), k c ∈ p :: suf := by
      intro hp
      obtain ⟨i1, i2⟩ := ih (pre ++ [p]) seen hps' (by
        intro q hq hne
        rcases List.mem_append.1 hq with hq | hq
        · exact hseen q hq hne
        · rw [List.mem_singleton.1 hq] at hne ⊢; exact hp hne)
      exact ⟨i1, fun c hc => .tail _ (i2 c hc)⟩
    rw [List.map_cons]
    unfold firstsOf
    split
    · rename_i h
      exact skip fun hne => absurd (hf p hpL hne) h
    · split
      · rename_i h; exact skip fun _ => h
      · rename_i h1 h2
        obtain ⟨i1, i2⟩ := ih (pre ++ [p]) (f p :: seen) hps' (by
          intro q hq hne
          rcases List.mem_append.1 hq with hq | hq
          · exact .tail _ (hseen q hq hne)
          · rw [List.mem_singleton.1 hq]; exact .head _)
        by_cases h0 : f p = 0
        · rw [List.filter_cons_of_neg (by simp [h0])]
          exact ⟨i1, fun c hc => .tail _ (i2 c hc)⟩
        · rw [List.filter_cons_of_pos (by simp [h0])]
          obtain ⟨k1, k2, k3⟩ := hk p hpL h0
          have hR := List.pairwise_cons.1 (List.pairwise_append.1 (hps ▸ hL)).2.1
          have hkp : k (f p) = p := by
            rw [← hps] at k1
            rcases List.mem_append.1 k1 with k1 | k1
            · have := hseen _ k1 (by rw [k2]; exact h0)
              rw [k2] at this
              exact absurd this h2
            · rcases List.mem_cons.1 k1 with k1 | k1
              · exact k1
              · exact absurd (hR.1 _ k1) k3
          refine ⟨List.pairwise_cons.2 ⟨fun c hc => ?_, i1⟩, fun c hc => ?_⟩
          · rw [hkp]; exact hR.1 _ (i2 c hc)
          · rcases List.mem_cons.1 hc with rfl | hc
            · rw [hkp]; exact .head _
            · exact .tail _ (i2 c hc)

/-- Where a cell is first met in a box. -/
def meetsAt (g : Cfg) (lo : V3 Nat) (c : Nat) : V3 Nat := fun d => max (lo d) (g.idx c d)

theorem getChild_zero : getChild g E 0 = 0 := by
  unfold getChild
  exact if_pos fun h => absurd h.1 (by omega)

/-- What `find_cells` returns in exact arithmetic if the lower corner of the box is aligned. -/
theorem find_aligned (hw : g.WF) (ht : Tiled g E) {lo hi : V3 Nat} {lmin : Int} {lmax : Nat}
    (hl : lmax ≤ g.maxLvl) (ha : ∀ d, 2 ^ (g.maxLvl - lmax) ∣ lo d) :
    (findCells g E lo hi lmin lmax).Nodup ∧
    (∀ c, c ≠ 0 → (c ∈ findCells g E lo hi lmin lmax ↔ E c = true ∧ lmin ≤ g.lvl c ∧ g.lvl c ≤ lmax ∧
      ∃ p, Between lo hi p ∧ g.Mem p c)) ∧
    ((findCells g E lo hi lmin lmax).filter fun c => c != 0).Pairwise (fun a b =>
      Before (fun d => max (lo d) (g.idx a d)) (fun d => max (lo d) (g.idx b d))) ∧
    (0 ∈ findCells g E lo hi lmin lmax ↔
      ∃ p, Between lo hi p ∧ ¬ ∃ c, E c = true ∧ lmin ≤ g.lvl c ∧ g.lvl c ≤ lmax ∧ g.Mem p c) := by
  have hi0 : 0 < 2 ^ (g.maxLvl - lmax) := Nat.pow_pos (by omega)
  have hside : ∀ c, g.Valid c → g.lvl c ≤ lmax → ∀ d, 2 ^ (g.maxLvl - lmax) ∣ g.idx c d ∧
      2 ^ (g.maxLvl - lmax) ∣ g.side c := by
    intro c hv hc d
    have h1 : 2 ^ (g.maxLvl - lmax) ∣ g.side c := Nat.pow_dvd_pow 2 (by omega)
    exact ⟨Nat.dvd_trans h1 (side_dvd_idx hw hv d), h1⟩
  have hkey : ∀ c, E c = true → lmin ≤ g.lvl c → g.lvl c ≤ lmax → ∀ p, Between lo hi p → g.Mem p c →
      meetsAt g lo c ∈ boxPts lo hi (2 ^ (g.maxLvl - lmax)) ∧ g.Mem (meetsAt g lo c) c := by
    intro c hc h1 h2 p hp hm
    have hv := ht.valid c hc
    refine ⟨(mem_boxPts hi0).2 fun d => ?_, fun d => ?_⟩
    · have h3 := hp d
      have h4 := hm d
      obtain ⟨a, e1⟩ := ha d
      obtain ⟨b, e2⟩ := (hside c hv h2 d).1
      unfold meetsAt
      refine ⟨⟨max a b - a, ?_⟩, by omega⟩
      rw [e1, e2, Nat.mul_max_mul_left, Nat.mul_comm _ (2 ^ _), Nat.mul_sub]
      have := Nat.mul_le_mul_left (2 ^ (g.maxLvl - lmax)) (Nat.le_max_left a b)
      omega
    · have h3 := hp d
      have h4 := hm d
      unfold meetsAt
      omega
  have hex : ∀ p c, c ≠ 0 → (existingI g E p lmin lmax = c ↔
      E c = true ∧ g.Mem p c ∧ lmin ≤ g.lvl c ∧ (g.lvl c : Int) ≤ lmax) :=
    fun p c hc => (C12_existing_cell hw ht p lmin lmax).1 c hc
  have hin : ∀ p ∈ boxPts lo hi (2 ^ (g.maxLvl - lmax)), Between lo hi p := by
    intro p hp d
    obtain ⟨⟨k, e⟩, h⟩ := (mem_boxPts hi0).1 hp d
    exact ⟨by omega, h⟩
  have hch : ∀ c, E c = true → c = getChild g E c := by
    intro c hc
    have := (ht.valid c hc).1
    exact ((ht.getChild_eq_iff hw (by omega)).2 hc).symm
  refine ⟨firstsOf_nodup, fun c hc => ?_, ?_, ?_⟩
  · unfold findCells
    rw [mem_firstsOf]
    simp only [List.mem_map]
    constructor
    · rintro ⟨⟨p, hp, e⟩, -, -⟩
      obtain ⟨h1, h2, h3, h4⟩ := (hex p c hc).1 e
      exact ⟨h1, h3, by omega, p, hin p hp, h2⟩
    · rintro ⟨h1, h2, h3, p, h4, h5⟩
      obtain ⟨k1, k2⟩ := hkey c h1 h2 h3 p h4 h5
      exact ⟨⟨_, k1, (hex _ c hc).2 ⟨h1, k2, h2, by omega⟩⟩, by simp, hch c h1⟩
  · refine firstsOf_order (k := meetsAt g lo) (boxPts_sorted hi0) ?_ ?_
    · intro p hp hne
      exact hch _ ((hex p _ hne).1 rfl).1
    · intro p hp hne
      obtain ⟨h1, h2, h3, h4⟩ := (hex p _ hne).1 rfl
      obtain ⟨k1, k2⟩ := hkey _ h1 h3 (by omega) p (hin p hp) h2
      refine ⟨k1, (hex _ _ hne).2 ⟨h1, k2, h3, h4⟩, ?_⟩
      have hle : ∀ d, meetsAt g lo (existingI g E p lmin lmax) d ≤ p d := by
        intro d
        have h5 := h2 d
        have h6 := hin p hp d
        unfold meetsAt
        omega
      have l0 := hle 0
      have l1 := hle 1
      have l2 := hle 2
      unfold Before
      omega
  · unfold findCells
    rw [mem_firstsOf]
    simp only [List.mem_map]
    constructor
    · rintro ⟨⟨p, hp, e⟩, -, -⟩
      refine ⟨p, hin p hp, ?_⟩
      rintro ⟨c, h1, h2, h3, h4⟩
      exact (C12_existing_cell hw ht p lmin lmax).2.1 e ⟨c, h1, h4, h2, by omega⟩
    · rintro ⟨p, hp, hno⟩
      refine ⟨⟨fun d => lo d + (p d - lo d) / 2 ^ (g.maxLvl - lmax) * 2 ^ (g.maxLvl - lmax), ?_, ?_⟩, by simp,
        getChild_zero.symm⟩
      · refine (mem_boxPts hi0).2 fun d => ⟨⟨_, rfl⟩, ?_⟩
        have h1 := hp d
        have h2 := Nat.div_mul_le_self (p d - lo d) (2 ^ (g.maxLvl - lmax))
        show lo d + (p d - lo d) / 2 ^ (g.maxLvl - lmax) * 2 ^ (g.maxLvl - lmax) ≤ hi d
        omega
      · refine (C12_existing_cell hw ht _ lmin lmax).2.2 ?_
        rintro ⟨c, h1, h2, h3, h4⟩
        refine hno ⟨c, h1, h3, by omega, fun d => ?_⟩
        have h5 := hp d
        have h6 := h2 d
        have h7 := Nat.div_add_mod (p d - lo d) (2 ^ (g.maxLvl - lmax))
        have h8 := Nat.mod_lt (p d - lo d) hi0
        obtain ⟨⟨b, e2⟩, ⟨e, e3⟩⟩ := hside c (ht.valid c h1) (by omega) d
        obtain ⟨a, e1⟩ := ha d
        simp only at h6
        rw [Nat.mul_comm] at h7
        generalize hq : (p d - lo d) / 2 ^ (g.maxLvl - lmax) = q at h6 h7
        rw [e1] at h5 h6 h7 h8
        rw [e2, e3] at h6 ⊢
        generalize 2 ^ (g.maxLvl - lmax) = I at h5 h6 h7 h8 hi0 ⊢
        have e4 : I * a + q * I = I * (a + q) := by rw [Nat.mul_add, Nat.mul_comm q]
        have e5 : I * b + I * e = I * (b + e) := by rw [Nat.mul_add]
        rw [e4, e5] at h6
        have h9 : a + q < b + e := Nat.lt_of_mul_lt_mul_left h6.2
        have h10 := Nat.mul_le_mul_left I (show a + q + 1 ≤ b + e from h9)
        rw [Nat.mul_add, Nat.mul_one] at h10
        rw [e5]
        constructor
        · exact Nat.le_trans h6.1 (by omega)
        · omega

/-- All cells of level 0 in the demo grid. -/
def coarseE : Nat → Bool := fun c => decide (c ∈ [1, 2])

theorem coarse_tiled : Tiled tinyG coarseE := tiled_of tiny_wf (by decide +kernel)

/-! ## C73 -/

section
variable {n : Nat} {D W : Type} {s : Sys n D W} {dflt : D} {maxTag : Nat}

theorem atOffset_mem (hw : g.WF) {c : Nat} (hv : g.Valid c) (o : V3 Int) (l : List (Nat × V3 Int)) (x : Nat × V3 Int) :
    x ∈ atOffset g c o l ↔ x ∈ l ∧ g.InCover (corner g c o) ∧ g.idx x.1 = g.wrap (corner g c o) := by
  have hsh : shift g (g.idx c) (g.side c) o =
      if g.InCover (corner g c o) then some (g.wrap (corner g c o)) else none :=
    shift_eq hw (idx_inGrid hw hv) (side_pos c)
      (fun d => Int.natCast_dvd_natCast.1 (side_dvd_n hv d)) (side_dvd_idx hw hv) o
  unfold atOffset
  rw [hsh]
  by_cases h : g.InCover (corner g c o)
  · rw [if_pos h]
    show x ∈ List.filter _ _ ↔ _
    rw [List.mem_filter, decide_eq_true_iff]
    constructor
    · rintro ⟨h1, h2, h3, h4⟩
      exact ⟨h1, h, v3_ext h2 h3 h4⟩
    · rintro ⟨h1, -, h2⟩
      have e := fun d => congrFun h2 d
      exact ⟨h1, e 0, e 1, e 2⟩
  · rw [if_neg h]
    exact ⟨fun h => (by cases h), fun h' => absurd h'.2.1 h⟩

/-- C73, what is returned: those entries of `get_neighbors_of` whose cell starts where the region of the size of the cell
at the given offset does; nothing for cells of other processes, cells that don't exist and zero offset. -/
theorem C73_entries (hw : g.WF) (h : Reachable g dflt maxTag s) (i : Fin n) (c : Nat) (o : V3 Int) (x : Nat × V3 Int) :
    x ∈ getNeighborsAt g i (s i) c o ↔ (s i).owner c = some i ∧ (∃ d, o d ≠ 0) ∧
      (∃ l, getNeighborsOf g (s i) c defaultId = some l ∧ x ∈ l) ∧
      g.InCover (corner g c o) ∧ g.idx x.1 = g.wrap (corner g c o) := by
  obtain ⟨w, hi⟩ := h.inv hw (by have := i.2; omega)
  unfold getNeighborsAt
  split
  · rename_i hc
    constructor
    · intro h; cases h
    · rintro ⟨h1, ⟨d, hd⟩, -⟩
      rcases hc with hc | ⟨e0, e1, e2⟩
      · exact absurd h1 hc
      · exfalso
        apply hd
        revert d
        rw [forall_fin3]
        exact ⟨fun _ => e0, fun _ => e1, fun _ => e2⟩
  · rename_i hc
    have h1 : (s i).owner c = some i := Classical.byContradiction fun h => hc (.inl h)
    have h2 : ∃ d, o d ≠ 0 := Classical.byContradiction fun h => hc (.inr
      ⟨Classical.byContradiction fun e => h ⟨0, e⟩, Classical.byContradiction fun e => h ⟨1, e⟩,
        Classical.byContradiction fun e => h ⟨2, e⟩⟩)
    have hv : g.Valid c := hi.sys.tiled.valid c (exist_of (by rw [← hi.sys.owner i]; exact h1))
    split
    · rename_i e
      constructor
      · intro h; cases h
      · rintro ⟨-, -, ⟨l, e', -⟩, -⟩
        rw [e] at e'; cases e'
    · rename_i l e
      rw [atOffset_mem hw hv]
      constructor
      · rintro ⟨e1, e2⟩
        exact ⟨h1, h2, ⟨l, e, e1⟩, e2⟩
      · rintro ⟨-, -, ⟨l', e', e1⟩, e2⟩
        rw [e] at e'
        injection e' with e'
        subst e'
        exact ⟨e1, e2⟩

/-- C73, the part that holds: at an offset of the neighborhood where the neighbor is of the same size as the cell,
exactly that neighbor is returned, with the right offset. Missing: smaller and larger neighbors, see `C73_false`. In
periodic grids of a few cells the same neighbor may also be returned with other offsets. -/
theorem C73_same_size_partial (hw : g.WF) (h : Reachable g dflt maxTag s) (i : Fin n) {c b : Nat} {o : V3 Int}
    (hc : (s i).owner c = some i) (ho : o ∈ hoodOf g) (hb : exist (s i).owner b = true) (hs : g.side b = g.side c)
    (hm : Meets g c o b) :
    (b, fun d => o d * (g.side c : Int)) ∈ getNeighborsAt g i (s i) c o ∧
    ∀ x ∈ getNeighborsAt g i (s i) c o, x.1 = b := by
  obtain ⟨w, hi⟩ := h.inv hw (by have := i.2; omega)
  have hw' := hi.sys.owner i
  have ht := hi.sys.tiled
  have hce : exist w c = true := by rw [← hw']; exact exist_of hc
  rw [hw'] at hb
  obtain ⟨f, h1, h2, h3⟩ := hi.neighborsOf hw (i := i) (id := defaultId) (if_pos rfl) hce
  have hI := h2 o ho
  have hsp := side_pos (g := g) c
  have key : g.InCover (corner g c o) ∧ g.Lift b (corner g c o) ∧ (b, fun d => o d * (g.side c : Int)) ∈ f o := by
    obtain ⟨off, hm'⟩ := (isItem_mem hw ht hce hI b).2 ⟨hb, hm⟩
    generalize hl : f o = l at hI hm'
    cases hI with
    | outside _ => cases hm'
    | @covers b' off' k1 k2 k3 k4 k5 =>
      rw [List.mem_singleton] at hm'
      injection hm' with e1 e2
      subst e1; subst e2
      have e : off = fun d => o d * (g.side c : Int) := by
        funext d
        have a1 := k5 (fun d => corner g c o d) (fun d => ⟨Int.le_refl _, by show corner g c o d < corner g c o d + g.side c; omega⟩) d
        have a2 := k5 (fun d => corner g c o d + g.side c - 1) (fun d => ⟨by show corner g c o d ≤ corner g c o d + g.side c - 1; omega,
          by show corner g c o d + g.side c - 1 < corner g c o d + g.side c; omega⟩) d
        rw [hs] at a1 a2
        simp only [corner] at a1 a2
        omega
      subst e
      exact ⟨k1, k4, List.mem_singleton.2 rfl⟩
    | eight k1 k2 k3 =>
      obtain ⟨w', hw2, e⟩ := List.mem_map.1 hm'
      injection e with e1 e2
      have := (k3 w' hw2).2.1
      rw [e1] at this
      omega
  obtain ⟨k1, k2, k3⟩ := key
  have hidx : g.idx b = g.wrap (corner g c o) := by
    funext d
    have := lift_mem hw (ht.valid b hb) k2 (q := corner g c o)
      (fun d => ⟨Int.le_refl _, by rw [hs]; exact Int.lt_add_of_pos_right _ (by omega)⟩) d
    omega
  have hne : ∃ d, o d ≠ 0 := by
    apply Classical.byContradiction
    intro hno
    have h0 : o = fun _ => 0 := funext fun d => Classical.byContradiction fun e => hno ⟨d, e⟩
    rw [h0] at ho
    by_cases hh : g.hood = 0
    · rw [hoodOf_zero hh] at ho
      obtain ⟨d, pos, e⟩ := faces_mem.1 ho
      have := congrFun e d
      cases pos <;> simp [unitItem] at this
    · exact ((mem_hoodOf hh).1 ho).2 rfl
  constructor
  · rw [C73_entries hw h]
    exact ⟨hc, hne, ⟨_, h1, List.mem_flatMap.2 ⟨o, ho, k3⟩⟩, k1, hidx⟩
  · intro x hx
    obtain ⟨-, -, ⟨l, e1, e2⟩, -, e3⟩ := (C73_entries hw h i c o x).1 hx
    rw [h1] at e1
    injection e1 with e1
    subst e1
    have hxe := ((h3 x.1).1 ⟨x.2, e2⟩).1
    refine ht.unique (g.idx x.1) x.1 b hxe hb (mem_idx _) ?_
    rw [e3, ← hidx]
    exact mem_idx b
end

/-- Existing cells of the demo grid after refinement of cell 1. -/
def fineE : Nat → Bool := fun c => decide (c ∈ [2, 3, 4, 7, 8, 11, 12, 15, 16])

theorem tiny_fine : ∃ s : Sys 2 Nat Nat, Reachable tinyG 0 146 s ∧ (∀ i, exist (s i).owner = fineE) ∧
    (∀ i, (s i).owner 2 = some 1) ∧ ∀ i, (s i).owner 8 = some 0 := by
  obtain ⟨s, res, -, -, -, h1, h2⟩ := tiny_refined
  refine ⟨_, h1, fun i => ?_, fun i => (h2 i).2.2.1, fun i => (h2 i).1 8 (by decide)⟩
  have hk : tinyG.children 1 = [3, 4, 7, 8, 11, 12, 15, 16] := by decide
  funext c
  apply Bool.eq_iff_iff.2
  show _ ↔ decide (c ∈ 2 :: [3, 4, 7, 8, 11, 12, 15, 16]) = true
  rw [decide_eq_true_iff, List.mem_cons, ← hk]
  constructor
  · exact (h2 i).2.2.2 c
  · rintro (rfl | hc)
    · exact exist_of (h2 i).2.2.1
    · exact exist_of ((h2 i).1 c hc)

/-- Without the positions. -/
def cellsAt {n : Nat} {D W : Type} (g : Cfg) (i : Fin n) (p : Proc n D W) (c : Nat) (o : V3 Int) : List Nat :=
  (getNeighborsAt g i p c o).map Prod.fst

theorem cellsAt_eq {n : Nat} {D W : Type} {i : Fin n} {p : Proc n D W} {c : Nat} {o : V3 Int} {L : List Nat}
    (hE : exist p.owner = E) (hc : p.owner c = some i) (ho : ¬ (o 0 = 0 ∧ o 1 = 0 ∧ o 2 = 0)) (hEc : E c = true)
    (h : (match findNeighborsOf g E c (hoodOf g) with
      | .ok l => some ((atOffset g c o l).map Prod.fst)
      | _ => none) = some L) : cellsAt g i p c o = L := by
  unfold cellsAt getNeighborsAt
  rw [if_neg (by rintro (e | e); exact e hc; exact ho e)]
  unfold getNeighborsOf
  rw [hE, if_pos hEc]
  have : hoodFor g p defaultId = some (hoodOf g) := if_pos rfl
  rw [this]
  simp only
  split at h
  · rename_i l e
    rw [e]
    exact Option.some.inj h
  · cases h

/-- C73 does not hold for neighbors of other sizes. Cell 1 has been refined: at offset (-1, 0, 0) of cell 2 there are 8
smaller neighbors but only cell 3 is returned (three times, because the grid is
periodic in z and one cell long). At offset (1, 0, 0) of cell 8, a child of cell 1, is the larger cell 2 but
nothing is returned. -/
theorem C73_false : ∃ s : Sys 2 Nat Nat, Reachable tinyG 0 146 s ∧
    (s 1).owner 2 = some 1 ∧ v3 (-1) 0 0 ∈ hoodOf tinyG ∧ exist (s 1).owner 4 = true ∧
    Meets tinyG 2 (v3 (-1) 0 0) 4 ∧ cellsAt tinyG 1 (s 1) 2 (v3 (-1) 0 0) = [3, 3, 3] ∧
    (s 0).owner 8 = some 0 ∧ v3 1 0 0 ∈ hoodOf tinyG ∧ exist (s 0).owner 2 = true ∧ Meets tinyG 8 (v3 1 0 0) 2 ∧
    cellsAt tinyG 0 (s 0) 8 (v3 1 0 0) = [] := by
  obtain ⟨s, h1, h2, h3, h4⟩ := tiny_fine
  refine ⟨s, h1, h3 1, by decide, by rw [h2]; decide, (meetsB_iff tiny_wf).1 (by decide),
    cellsAt_eq (h2 1) (h3 1) (by decide) (by decide) (by decide +kernel), h4 0, by decide, exist_of (h3 0),
    (meetsB_iff tiny_wf).1 (by decide), cellsAt_eq (h2 0) (h4 0) (by decide) (by decide) (by decide +kernel)⟩

/-- Neighbors are returned also at offsets that are not in the neighborhood, contrary to documentation: the larger
neighbor 2 of cell 8 is returned at offset (1, -1, 2) although neighborhood length is 1. -/
theorem C73_outside_neighborhood : ∃ s : Sys 2 Nat Nat, Reachable tinyG 0 146 s ∧ (s 0).owner 8 = some 0 ∧
    tinyG.hood = 1 ∧ 2 ∈ cellsAt tinyG 0 (s 0) 8 (v3 1 (-1) 2) := by
  obtain ⟨s, h1, h2, h3, h4⟩ := tiny_fine
  refine ⟨s, h1, h4 0, rfl, ?_⟩
  rw [cellsAt_eq (L := [2, 2, 2, 2, 2, 2]) (h2 0) (h4 0) (by decide) (by decide) (by decide +kernel)]
  exact .head _

/-- Neighbors of the same size: cell 7 is at offset (-1, 0, 0) of cell 8. -/
example : ∃ s : Sys 2 Nat Nat, tinyG.WF ∧ Reachable tinyG 0 146 s ∧ (s 0).owner 8 = some 0 ∧
    v3 (-1) 0 0 ∈ hoodOf tinyG ∧ exist (s 0).owner 7 = true ∧ tinyG.side 7 = tinyG.side 8 ∧
    Meets tinyG 8 (v3 (-1) 0 0) 7 := by
  obtain ⟨s, h1, h2, h3, h4⟩ := tiny_fine
  exact ⟨s, tiny_wf, h1, h4 0, by decide, by rw [h2]; decide, by decide, (meetsB_iff tiny_wf).1 (by decide)⟩

end Dccrg
