import Verif.Existing
/-!
# C11, C12, C15–C18: neighbor searches

Specification vocabulary (see `Verif.Grid`, `Verif.NbrSix`, `Verif.NbrFind`):

* `E` is the set of existing cells, `Tiled g E` says that every index triple of the grid is in exactly
  one existing cell;
* `g.InCover q` / `g.wrap q`: integer point `q` is not outside of a non-periodic boundary / the index
  triple of the grid at `q` after going around periodic dimensions;
* `Block g a o q`: point `q` is in the block of the size of cell `a` at offset `o` (in lengths of `a`);
* `Meets g a o b`: cell `b` overlaps that block;
* `BalancedFor g E H`: cells that meet at an item of `H` differ by at most one refinement level;
* `IsItem g E c o l`: list `l` is what has to be reported for item `o`: nothing outside of the grid,
  one cell that covers the whole block, or the eight cells of half the size in z-order, each with
  the location of its lower corner relative to that of `c`.
-/
namespace Dccrg
open Cfg
variable {g : Cfg} {E : Nat → Bool}

/-! ## C11 -/

/-- C11: index plus offset, modulo grid length in periodic dimensions, error outside of the grid
in other dimensions. -/
theorem C11_neighborhood_indices (hw : g.WF) {p : V3 Nat} (hp : g.InGrid p) {len : Nat} (hl : 0 < len)
    (hn : ∀ d, len ∣ g.n d) (hi : ∀ d, len ∣ p d) (o : V3 Int) :
    (∀ r, shift g p len o = some r ↔ ∀ d,
      if g.periodic d then (r d : Int) = (p d + o d * len) % g.n d
      else (0 ≤ p d + o d * len ∧ p d + o d * len < g.n d ∧ (r d : Int) = p d + o d * len)) ∧
    (shift g p len o = none ↔ ∃ d, g.periodic d = false ∧
      (p d + o d * len < 0 ∨ p d + o d * len ≥ g.n d)) := by
  have hc : ∀ d, ((g.wrap (fun d => p d + o d * len) d : Nat) : Int) = (p d + o d * len) % g.n d :=
    fun d => wrap_cast hw _ d
  rw [shift_eq hw hp hl hn hi]
  by_cases h : g.InCover (fun d => p d + o d * len)
  · rw [if_pos h]
    have hin : ∀ d, g.periodic d = false → 0 ≤ p d + o d * len ∧ p d + o d * len < g.n d := by
      intro d hd
      rcases h d with h | h
      · rw [hd] at h; cases h
      · exact h
    refine ⟨fun r => ⟨fun hr d => ?_, fun hr => ?_⟩, ⟨fun h' => (by cases h'), ?_⟩⟩
    · have := Option.some.inj hr
      subst this
      cases hd : g.periodic d with
      | true => simpa using hc d
      | false =>
        simp only [Bool.false_eq_true, if_false]
        have h1 := hin d hd
        exact ⟨h1.1, h1.2, by rw [hc d, Int.emod_eq_of_lt h1.1 h1.2]⟩
    · congr 1
      funext d
      have h1 := hr d
      have h2 := hc d
      cases hd : g.periodic d with
      | true => rw [hd] at h1; simp only [if_true] at h1; omega
      | false =>
        rw [hd] at h1; simp only [Bool.false_eq_true, if_false] at h1
        rw [Int.emod_eq_of_lt h1.1 h1.2.1] at h2; omega
    · rintro ⟨d, hd, h1⟩
      have := hin d hd; omega
  · rw [if_neg h]
    have hex : ∃ d, g.periodic d = false ∧ (p d + o d * len < 0 ∨ p d + o d * len ≥ g.n d) := by
      apply Classical.byContradiction
      intro hno
      apply h
      intro d
      cases hd : g.periodic d with
      | true => exact Or.inl rfl
      | false =>
        right
        have : ¬ ((p d : Int) + o d * len < 0 ∨ (p d : Int) + o d * len ≥ g.n d) :=
          fun hx => hno ⟨d, hd, hx⟩
        show 0 ≤ (p d : Int) + o d * len ∧ (p d : Int) + o d * len < g.n d
        omega
    refine ⟨fun r => ⟨fun hr => (by cases hr), fun hr => ?_⟩, ⟨fun _ => hex, fun _ => rfl⟩⟩
    obtain ⟨d, hd, h1⟩ := hex
    have h2 := hr d
    rw [hd] at h2
    simp only [Bool.false_eq_true, if_false] at h2
    omega

example : shift sampleG (v3 4 2 0) 2 (v3 3 (-7) 1) = some (v3 10 0 2) ∧
    shift sampleG (v3 4 2 0) 2 (v3 (-3) 0 0) = none := by decide +kernel

/-! ## C12 -/

/-- C12: the existing cell at given indices, if its level is in the given range. -/
theorem C12_existing_cell (hw : g.WF) (ht : Tiled g E) (p : V3 Nat) (lo hi : Int) :
    (∀ b, b ≠ 0 → (existingI g E p lo hi = b ↔
      E b = true ∧ g.Mem p b ∧ lo ≤ g.lvl b ∧ (g.lvl b : Int) ≤ hi)) ∧
    (existingI g E p lo hi = 0 ↔
      ¬ ∃ b, E b = true ∧ g.Mem p b ∧ lo ≤ g.lvl b ∧ (g.lvl b : Int) ≤ hi) := by
  by_cases hp : g.InGrid p
  · obtain ⟨a, ha, hm⟩ := ht.cover p hp
    have ha0 : a ≠ 0 := by have := (ht.valid a ha).1; omega
    rw [existingI_eq hw ht hp ha hm]
    by_cases hc : lo ≤ g.lvl a ∧ (g.lvl a : Int) ≤ hi
    · rw [if_pos hc]
      refine ⟨fun b _ => ⟨fun h => (by rw [← h]; exact ⟨ha, hm, hc⟩), fun h => ?_⟩, ?_⟩
      · exact ht.unique p a b ha h.1 hm h.2.1
      · exact ⟨fun h => absurd h ha0, fun h => absurd ⟨a, ha, hm, hc⟩ h⟩
    · rw [if_neg hc]
      have hno : ∀ b, ¬ (E b = true ∧ g.Mem p b ∧ lo ≤ g.lvl b ∧ (g.lvl b : Int) ≤ hi) := by
        rintro b ⟨h1, h2, h3⟩
        have := ht.unique p a b ha h1 hm h2
        subst this
        exact hc h3
      exact ⟨fun b hb => ⟨fun h => absurd h.symm hb, fun h => absurd h (hno b)⟩,
        ⟨fun _ => fun ⟨b, h⟩ => hno b h, fun _ => rfl⟩⟩
  · have hno : ∀ b, ¬ (E b = true ∧ g.Mem p b ∧ lo ≤ g.lvl b ∧ (g.lvl b : Int) ≤ hi) :=
      fun b h => hp (mem_inGrid hw (ht.valid b h.1) h.2.1)
    have : existingI g E p lo hi = 0 := by unfold existingI; rw [if_pos hp]
    rw [this]
    exact ⟨fun b hb => ⟨fun h => absurd h.symm hb, fun h => absurd h (hno b)⟩,
      ⟨fun _ => fun ⟨b, h⟩ => hno b h, fun _ => rfl⟩⟩

example : Tiled sampleG sampleE ∧ existingI sampleG sampleE (v3 1 1 0) (-3) 7 = 41 ∧
    existingI sampleG sampleE (v3 1 1 0) 0 1 = 0 ∧ existingI sampleG sampleE (v3 9 3 3) 0 1 = 3 :=
  ⟨sample_tiled, by decide +kernel⟩

/-! ## C15 -/

/-- C15: `find_neighbors_of` ends normally, reports exactly what belongs to every item in order of
items, and the cells it reports are exactly the existing cells that overlap the neighborhood. -/
theorem C15_neighbors_of (hw : g.WF) (ht : Tiled g E) (hb : BalancedFor g E (hoodOf g)) {c : Nat}
    (hc : E c = true) {H : List (V3 Int)} (hH : ∀ o ∈ H, o ∈ hoodOf g) :
    ∃ f : V3 Int → List (Nat × V3 Int), findNeighborsOf g E c H = .ok (H.flatMap f) ∧
      (∀ o ∈ H, IsItem g E c o (f o)) ∧
      (∀ b off, (b, off) ∈ H.flatMap f → g.Lift b (fun d => g.idx c d + off d)) ∧
      (∀ b, (∃ off, (b, off) ∈ H.flatMap f) ↔ E b = true ∧ ∃ o ∈ H, Meets g c o b) := by
  obtain ⟨f, h1, h2⟩ := findItems_spec hw ht hb.faces hc H (hb.mono hH)
  have hc0 : c ≠ 0 := by have := (ht.valid c hc).1; omega
  refine ⟨f, ?_, h2, ?_, ?_⟩
  · unfold findNeighborsOf
    rw [if_neg (by simp [hc0, hc]), if_neg (by simpa using (ht.getChild_eq_iff hw hc0).2 hc), h1]
  · intro b off hm
    obtain ⟨o, ho, hm⟩ := List.mem_flatMap.1 hm
    have hI := h2 o ho
    generalize f o = l at hI hm
    cases hI with
    | outside _ => cases hm
    | covers _ _ _ hl _ =>
      rw [List.mem_singleton] at hm
      injection hm with e1 e2
      subst e1; subst e2; exact hl
    | eight _ hs hk =>
      obtain ⟨w, hw', he⟩ := List.mem_map.1 hm
      injection he with e1 e2
      subst e1; subst e2
      have := (hk w hw').2.2
      intro d
      have h3 := this d
      simp only [corner] at h3
      simp only [← Int.add_assoc]
      exact h3
  · intro b
    constructor
    · rintro ⟨off, hm⟩
      obtain ⟨o, ho, hm⟩ := List.mem_flatMap.1 hm
      have := (isItem_mem hw ht hc (h2 o ho) b).1 ⟨off, hm⟩
      exact ⟨this.1, o, ho, this.2⟩
    · rintro ⟨he, o, ho, hm⟩
      obtain ⟨off, h⟩ := (isItem_mem hw ht hc (h2 o ho) b).2 ⟨he, hm⟩
      exact ⟨off, List.mem_flatMap.2 ⟨o, ho, h⟩⟩

/-- Result as numbers, for the example below. -/
def Out.toList : Out (List (Nat × V3 Int)) → List (Nat × Int × Int × Int)
  | .ok l => l.map fun x => (x.1, x.2 0, x.2 1, x.2 2)
  | _ => []

example : Tiled sampleG sampleE ∧ BalancedFor sampleG sampleE (hoodOf sampleG) ∧
    sampleE 5 = true ∧
    (findNeighborsOf sampleG sampleE 5 [v3 (-1) 0 0, v3 1 1 0, v3 0 0 (-1)]).toList =
      [(28, -2, 0, 0), (29, -1, 0, 0), (40, -2, 1, 0), (41, -1, 1, 0), (76, -2, 0, 1),
        (77, -1, 0, 1), (88, -2, 1, 1), (89, -1, 1, 1), (12, 2, 2, 0)] :=
  ⟨sample_tiled, sample_balanced, by decide +kernel, by decide +kernel⟩

/-- C15, other cells: no neighbors for cells that do not exist. -/
theorem C15_not_existing (c : Nat) (H : List (V3 Int)) (h : E c = false) :
    findNeighborsOf g E c H = .throws := by
  unfold findNeighborsOf; rw [if_pos (Or.inr h)]

/-! ## C16 -/

/-- C16: `find_neighbors_to` ends normally, reports every cell once, and reports exactly the existing
cells whose neighborhood overlaps the given cell. -/
theorem C16_neighbors_to (hw : g.WF) (ht : Tiled g E) (hb : BalancedFor g E (hoodOf g)) {c : Nat}
    (hc : E c = true) {H : List (V3 Int)} (hH : ∀ o ∈ H, o ∈ hoodOf g) :
    ∃ r, findNeighborsTo g E c (negHood H) = .ok r ∧ r.Nodup ∧
      ∀ b, b ∈ r ↔ E b = true ∧ ∃ o ∈ H, Meets g b o c :=
  findNeighborsTo_spec hw ht hc H (hb.mono hH)

/-- C16: `b` is in neighbors_to of `c` if and only if `c` is in neighbors_of of `b`. -/
theorem C16_duality (hw : g.WF) (ht : Tiled g E) (hb : BalancedFor g E (hoodOf g)) {b c : Nat}
    (he : E b = true) (hc : E c = true) {H : List (V3 Int)} (hH : ∀ o ∈ H, o ∈ hoodOf g)
    {r : List Nat} {l : List (Nat × V3 Int)} (hr : findNeighborsTo g E c (negHood H) = .ok r)
    (hl : findNeighborsOf g E b H = .ok l) : b ∈ r ↔ ∃ off, (c, off) ∈ l := by
  obtain ⟨r', h1, -, h2⟩ := C16_neighbors_to hw ht hb hc hH
  obtain ⟨f, h3, -, -, h4⟩ := C15_neighbors_of hw ht hb he hH
  rw [h1] at hr; rw [h3] at hl
  injection hr with hr
  injection hl with hl
  subst hr; subst hl
  rw [h2, h4]
  exact ⟨fun h => ⟨hc, h.2⟩, fun h => ⟨he, h.2⟩⟩

example : Tiled sampleG sampleE ∧ BalancedFor sampleG sampleE (hoodOf sampleG) ∧ sampleE 3 = true ∧
    findNeighborsTo sampleG sampleE 3 (negHood (hoodOf sampleG)) = .ok [25, 19, 13, 7, 3] :=
  ⟨sample_tiled, sample_balanced, by decide +kernel, by decide +kernel⟩

/-! ## C17 -/

/-- C17: `is_neighbor` is true exactly when the second cell overlaps the first one or its default
neighborhood. -/
theorem C17_is_neighbor (hw : g.WF) {a b : Nat} (ha : g.Valid a) (hb : g.Valid b) :
    isNeighbor g a b = true ↔ Meets g a (fun _ => 0) b ∨ ∃ o ∈ hoodOf g, Meets g a o b :=
  isNeighbor_iff hw ha hb

/-- The block at offset zero is the cell itself. -/
theorem meets_self_iff (hw : g.WF) {a b : Nat} (ha : g.Valid a) :
    Meets g a (fun _ => 0) b ↔ ∃ p, g.Mem p a ∧ g.Mem p b := by
  constructor
  · rintro ⟨q, hq, -, hm⟩
    refine ⟨g.wrap q, mem_of_box hw ha (lift_self a) (fun d => ?_), hm⟩
    have := hq d
    simpa using this
  · rintro ⟨p, h1, h2⟩
    have hp := mem_inGrid hw ha h1
    refine ⟨fun d => p d, fun d => ?_, inCover_nat hp, by rw [wrap_nat hp]; exact h2⟩
    have := h1 d
    simp only [Int.zero_mul, Int.add_zero]
    omega

/-- C17: between different existing cells `is_neighbor` agrees with the neighbor search. -/
theorem C17_agrees (hw : g.WF) (ht : Tiled g E) (hb : BalancedFor g E (hoodOf g)) {a b : Nat}
    (ha : E a = true) (he : E b = true) (hne : a ≠ b) {l : List (Nat × V3 Int)}
    (hl : findNeighborsOf g E a (hoodOf g) = .ok l) :
    isNeighbor g a b = true ↔ ∃ off, (b, off) ∈ l := by
  obtain ⟨f, h3, -, -, h4⟩ := C15_neighbors_of hw ht hb ha (fun o h => h)
  rw [h3] at hl
  injection hl with hl
  subst hl
  rw [C17_is_neighbor hw (ht.valid a ha) (ht.valid b he), h4]
  constructor
  · rintro (h | h)
    · rw [meets_self_iff hw (ht.valid a ha)] at h
      obtain ⟨p, h1, h2⟩ := h
      exact absurd (ht.unique p a b ha he h1 h2) hne
    · exact ⟨he, h⟩
  · exact fun h => Or.inr h.2

example : isNeighbor sampleG 29 5 = true ∧ isNeighbor sampleG 28 10 = true ∧
    isNeighbor sampleG 28 5 = false ∧ isNeighbor sampleG 5 28 = true := by decide +kernel

/-! ## C18 -/

/-- C18: neighbor in one of six directions. -/
theorem C18_six (hw : g.WF) (ht : Tiled g E) (hb : BalancedFor g E (hoodOf g)) {c : Nat}
    (hc : E c = true) (d : Fin 3) (pos : Bool) {q : V3 Int}
    (hq : q = fun e => if e = d then (if pos then (g.idx c d : Int) + g.side c else g.idx c d - 1)
      else g.idx c e) :
    (g.InCover q → E (nbr6 g E c d pos) = true ∧ g.Mem (g.wrap q) (nbr6 g E c d pos)) ∧
    (¬ g.InCover q → nbr6 g E c d pos = 0) := by
  have e : q = nbrPt (fun d => (g.idx c d : Int)) (g.side c) d pos := by
    rw [hq]; funext e
    unfold nbrPt setD
    by_cases h : e = d
    · subst h; rfl
    · simp [h]
  constructor
  · intro h
    obtain ⟨a, ha, hm⟩ := ht.cover _ (wrap_inGrid hw q)
    have hl := lift_self (g := g) c
    rw [nbr6_eq hw ht hb.faces hc hl d pos ha (by rw [← e]; exact h) (by rw [← e]; exact hm)]
    exact ⟨ha, hm⟩
  · intro h
    exact nbr6_none hw (ht.valid c hc) (lift_self c) d pos (by rw [← e]; exact h)

/-- C18: symmetry between cells of equal size. -/
theorem C18_symmetric (hw : g.WF) (ht : Tiled g E) (hb : BalancedFor g E (hoodOf g)) {a b : Nat}
    (ha : E a = true) (he : E b = true) (hlev : g.lvl a = g.lvl b) (d : Fin 3) (pos : Bool)
    (h : nbr6 g E a d pos = b) : nbr6 g E b d (!pos) = a := by
  have hva := ht.valid a ha
  have hvb := ht.valid b he
  have hside : g.side b = g.side a := by unfold side; rw [hlev]
  have hs := side_pos (g := g) a
  have hb0 : b ≠ 0 := by have := hvb.1; omega
  by_cases hq : g.InCover (nbrPt (fun d => (g.idx a d : Int)) (g.side a) d pos)
  · have h1 := ((C18_six hw ht hb ha d pos rfl).1 (by
      have : (fun e => if e = d then (if pos then (g.idx a d : Int) + g.side a else g.idx a d - 1)
        else g.idx a e) = nbrPt (fun d => (g.idx a d : Int)) (g.side a) d pos := by
          funext e; unfold nbrPt setD
          by_cases h : e = d
          · subst h; rfl
          · simp [h]
      rw [this]; exact hq)).2
    rw [h] at h1
    have e : (fun e => if e = d then (if pos then (g.idx a d : Int) + g.side a else g.idx a d - 1)
        else g.idx a e) = nbrPt (fun d => (g.idx a d : Int)) (g.side a) d pos := by
          funext e; unfold nbrPt setD
          by_cases h : e = d
          · subst h; rfl
          · simp [h]
    rw [e] at h1
    obtain ⟨hl, hbox⟩ := exists_lift hw hq h1
    generalize hlb : (fun d_1 => nbrPt (fun d => (g.idx a d : Int)) (g.side a) d pos d_1 -
      (((g.wrap (nbrPt (fun d => (g.idx a d : Int)) (g.side a) d pos) d_1 : Nat) : Int) -
        (g.idx b d_1 : Nat))) = lb at hl hbox
    rw [hside] at hbox
    -- location of `b` relative to `a`
    have hdv := fun e => lift_dvd hw hvb hl e
    have hda : ∀ e, (g.side a : Int) ∣ g.idx a e := fun e =>
      Int.natCast_dvd_natCast.2 (side_dvd_idx hw hva e)
    rw [hside] at hdv
    have hother : ∀ e, e ≠ d → lb e = g.idx a e := by
      intro e hed
      have h2 := hbox e
      rw [nbrPt, setD_ne _ _ hed] at h2
      exact dvd_floor_eq (hdv e) (hda e) h2.1 h2.2 (by omega) (by omega)
    have hd : lb d = if pos then (g.idx a d : Int) + g.side a else g.idx a d - g.side a := by
      have h2 := hbox d
      rw [nbrPt, setD_same] at h2
      cases pos with
      | true =>
        simp only [if_true] at h2 ⊢
        exact dvd_floor_eq (hdv d) (Int.dvd_add (hda d) (Int.dvd_refl _)) h2.1 h2.2
          (by omega) (by omega)
      | false =>
        simp only [Bool.false_eq_true, if_false] at h2 ⊢
        exact dvd_floor_eq (hdv d) (Int.dvd_sub (hda d) (Int.dvd_refl _)) h2.1 h2.2
          (by omega) (by omega)
    have hin : InBox (fun e => (g.idx a e : Int)) (g.side a) (nbrPt lb (g.side b) d (!pos)) := by
      intro e
      show (g.idx a e : Int) ≤ _ ∧ _
      by_cases hed : e = d
      · subst hed
        rw [nbrPt, setD_same, hd, hside]
        cases pos <;> simp <;> omega
      · rw [nbrPt, setD_ne _ _ hed, hother e hed]
        show _ ∧ _ < (g.idx a e : Int) + g.side a
        omega
    exact nbr6_eq hw ht hb.faces he hl d (!pos) ha (inCover_of_box hw hva (lift_self a) hin)
      (mem_of_box hw hva (lift_self a) hin)
  · have := nbr6_none (E := E) hw hva (lift_self a) d pos hq
    rw [this] at h
    exact absurd h.symm hb0

example : Tiled sampleG sampleE ∧ BalancedFor sampleG sampleE (hoodOf sampleG) ∧
    nbr6 sampleG sampleE 5 1 false = 11 ∧ nbr6 sampleG sampleE 11 1 true = 5 ∧
    nbr6 sampleG sampleE 5 0 false = 29 ∧ nbr6 sampleG sampleE 28 0 false = 0 :=
  ⟨sample_tiled, sample_balanced, by decide +kernel⟩

end Dccrg
