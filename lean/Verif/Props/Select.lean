import Verif.Props.Halo
/-!
# C37: selection of cells by types of their neighbors
-/
namespace Dccrg
open Cfg
variable {n : Nat} {D W : Type} {g : Cfg} {w : Owner n} {s s' : Sys n D W} {dflt : D} {maxTag : Nat} {id : Int}

/-- Types of neighbors of a cell: bit 0 of criteria is for neighbors of the cell on the same process, bit 1 for
cells on the same process that have the cell as neighbor, bits 2 and 3 are the same for other processes. -/
def HasType (g : Cfg) (p : Proc n D W) (id : Int) (i : Fin n) (c : Nat) : Nat → Prop
  | 0 => ∃ b, p.owner b = some i ∧ NbrOf g p id c b
  | 1 => ∃ b, p.owner b = some i ∧ NbrTo g p id c b
  | 2 => ∃ b j, p.owner b = some j ∧ j ≠ i ∧ NbrOf g p id c b
  | 3 => ∃ b j, p.owner b = some j ∧ j ≠ i ∧ NbrTo g p id c b
  | _ => False

theorem addTypes_bit (i : Fin n) (p : Proc n D W) (loc rem t : BitVec 32) (l : List Nat) (k : Nat) :
    (addTypes i p loc rem t l).getLsbD k = true ↔ t.getLsbD k = true ∨
      (loc.getLsbD k = true ∧ ∃ b ∈ l, b ≠ 0 ∧ p.owner b = some i) ∨
      (rem.getLsbD k = true ∧ ∃ b ∈ l, b ≠ 0 ∧ p.owner b ≠ some i) := by
  unfold addTypes
  induction l generalizing t with
  | nil => simp
  | cons a l ih =>
    rw [List.foldl_cons, ih]
    by_cases h0 : a = 0
    · subst h0
      simp
    · rw [if_neg h0]
      by_cases h1 : p.owner a = some i
      · have : isLocal i p a = true := by unfold isLocal; rw [h1]; exact beq_self_eq_true _
        rw [if_pos this, BitVec.getLsbD_or, Bool.or_eq_true]
        constructor
        · rintro ((h | h) | ⟨h, b, e⟩ | ⟨h, b, e⟩)
          · exact Or.inl h
          · exact Or.inr (Or.inl ⟨h, a, List.mem_cons_self, h0, h1⟩)
          · exact Or.inr (Or.inl ⟨h, b, List.mem_cons_of_mem _ e.1, e.2⟩)
          · exact Or.inr (Or.inr ⟨h, b, List.mem_cons_of_mem _ e.1, e.2⟩)
        · rintro (h | ⟨h, b, e1, e2⟩ | ⟨h, b, e1, e2⟩)
          · exact Or.inl (Or.inl h)
          · exact Or.inl (Or.inr h)
          · rcases List.mem_cons.1 e1 with rfl | e1
            · exact absurd h1 e2.2
            · exact Or.inr (Or.inr ⟨h, b, e1, e2⟩)
      · have : isLocal i p a = false := by unfold isLocal; rw [beq_eq_false_iff_ne]; exact h1
        rw [this, if_neg (by decide), BitVec.getLsbD_or, Bool.or_eq_true]
        constructor
        · rintro ((h | h) | ⟨h, b, e⟩ | ⟨h, b, e⟩)
          · exact Or.inl h
          · exact Or.inr (Or.inr ⟨h, a, List.mem_cons_self, h0, h1⟩)
          · exact Or.inr (Or.inl ⟨h, b, List.mem_cons_of_mem _ e.1, e.2⟩)
          · exact Or.inr (Or.inr ⟨h, b, List.mem_cons_of_mem _ e.1, e.2⟩)
        · rintro (h | ⟨h, b, e1, e2⟩ | ⟨h, b, e1, e2⟩)
          · exact Or.inl (Or.inl h)
          · rcases List.mem_cons.1 e1 with rfl | e1
            · exact absurd e2.2 h1
            · exact Or.inr (Or.inl ⟨h, b, e1, e2⟩)
          · exact Or.inl (Or.inr h)

theorem foldl_or_bit (l : List (BitVec 32)) (t : BitVec 32) (k : Nat) :
    (l.foldl (· ||| ·) t).getLsbD k = true ↔ t.getLsbD k = true ∨ ∃ x ∈ l, x.getLsbD k = true := by
  induction l generalizing t with
  | nil => simp
  | cons a l ih =>
    rw [List.foldl_cons, ih, BitVec.getLsbD_or, Bool.or_eq_true]
    simp [or_assoc]

/-- A non-negative int is positive if and only if it has a bit. -/
theorem slt_zero_iff (x : BitVec 32) (h : ∀ k, 4 ≤ k → x.getLsbD k = false) :
    BitVec.slt 0#32 x = true ↔ ∃ k, x.getLsbD k = true := by
  have hm : x.msb = false := by
    rw [BitVec.msb_eq_getLsbD_last]; exact h 31 (by omega)
  have h1 : x.toInt = x.toNat := BitVec.toInt_eq_toNat_of_msb hm
  rw [BitVec.slt_eq_decide, decide_eq_true_eq, h1, BitVec.toInt_zero]
  constructor
  · intro hp
    apply Classical.byContradiction
    intro hne
    have : x = 0#32 := by
      apply BitVec.eq_of_getLsbD_eq
      intro k hk
      cases hx : x.getLsbD k with
      | true => exact absurd ⟨k, hx⟩ hne
      | false => simp
    rw [this] at hp
    simp at hp
  · rintro ⟨k, hk⟩
    rcases Nat.eq_zero_or_pos x.toNat with h0 | h0
    · have : x = 0#32 := BitVec.eq_of_toNat_eq (by rw [h0]; rfl)
      rw [this] at hk; simp at hk
    · omega

section
variable {i : Fin n} {c : Nat}

theorem Inv.nbr_ne_zero (hw : g.WF) (hi : Inv g w s) {H : List (V3 Int)} (hH : hoodFor g (s i) id = some H)
    (hc : exist w c = true) :
    ∃ of to, getNeighborsOf g (s i) c id = some of ∧ getNeighborsTo g (s i) c id = some to ∧
      (∀ b, b ∈ of.map (·.1) ↔ NbrOf g (s i) id c b) ∧ (∀ b, b ∈ to.map (·.1) ↔ NbrTo g (s i) id c b) ∧
      ∀ b, NbrOf g (s i) id c b ∨ NbrTo g (s i) id c b → b ≠ 0 ∧ ∃ j, w b = some j := by
  obtain ⟨f, h1, -, -⟩ := hi.neighborsOf hw hH hc
  obtain ⟨r, h2, -, -⟩ := hi.neighborsTo hw hH hc
  refine ⟨_, _, h1, h2, ?_, ?_, ?_⟩
  · intro b
    constructor
    · intro h
      obtain ⟨⟨x, off⟩, hx, rfl⟩ := List.mem_map.1 h
      exact ⟨_, off, h1, hx⟩
    · rintro ⟨l, off, e1, e2⟩
      rw [h1] at e1; injection e1 with e1; subst e1
      exact List.mem_map.2 ⟨_, e2, rfl⟩
  · intro b
    constructor
    · intro h
      obtain ⟨⟨x, off⟩, hx, rfl⟩ := List.mem_map.1 h
      exact ⟨_, off, h2, hx⟩
    · rintro ⟨l, off, e1, e2⟩
      rw [h2] at e1; injection e1 with e1; subst e1
      exact List.mem_map.2 ⟨_, e2, rfl⟩
  · intro b hb
    have he : exist w b = true := by
      rcases hb with hb | hb
      · exact ((hi.nbrOf_iff hw hH hc).1 hb).1
      · exact ((hi.nbrTo_iff hw hH hc).1 hb).1
    exact ⟨valid_ne_zero (hi.sys.tiled.valid b he), exist_iff.1 he⟩

/-- C37: cells that are returned. Without criteria those are all local cells, otherwise local cells whose types
of neighbors are exactly those of a criterion or, with inexact match, which have at least one type of neighbors in
some criterion. Each is returned once, in ascending order if asked for; nothing is returned if the neighborhood
does not exist. -/
theorem C37_get_cells (hw : g.WF) (h : Reachable g dflt maxTag s) (i : Fin n) (criteria : List (BitVec 32))
    (sorted : Bool) :
    (∀ exact, (getCells g i (s i) criteria exact id sorted).Nodup ∧
      (sorted = true → (getCells g i (s i) criteria exact id sorted).Pairwise (· ≤ ·)) ∧
      (hoodFor g (s i) id = none → getCells g i (s i) criteria exact id sorted = [])) ∧
    ((hoodFor g (s i) id).isSome = true → ∀ c,
      (∀ exact, criteria = [] → (c ∈ getCells g i (s i) criteria exact id sorted ↔ (s i).owner c = some i)) ∧
      (criteria ≠ [] → (c ∈ getCells g i (s i) criteria true id sorted ↔ (s i).owner c = some i ∧
        ∃ k ∈ criteria, ∀ j, k.getLsbD j = true ↔ HasType g (s i) id i c j)) ∧
      (criteria ≠ [] → (c ∈ getCells g i (s i) criteria false id sorted ↔ (s i).owner c = some i ∧
        ∃ k ∈ criteria, ∃ j, k.getLsbD j = true ∧ HasType g (s i) id i c j))) := by
  obtain ⟨w, hi⟩ := h.inv hw (by have := i.2; omega)
  constructor
  · intro exact
    unfold getCells
    cases hH : hoodFor g (s i) id with
    | none => exact ⟨List.nodup_nil, fun _ => .nil, fun _ => rfl⟩
    | some H =>
      exact ⟨nodup_sortIf (List.Pairwise.filter _ (ids_nodup g)), fun e => by rw [e]; exact sorted_sortIf,
        fun e => (by cases e)⟩
  · intro hid c
    obtain ⟨H, hH⟩ := Option.isSome_iff_exists.1 hid
    have hm : ∀ exact, c ∈ getCells g i (s i) criteria exact id sorted ↔ w c = some i ∧
        (criteria.isEmpty || typeMatch g i (s i) c criteria exact id) = true := by
      intro exact
      unfold getCells
      rw [hH]
      show c ∈ sortIf _ _ ↔ _
      rw [mem_sortIf, List.mem_filter, mem_ids, Bool.and_eq_true]
      show _ ∧ ((s i).data c).isSome = true ∧ _ ↔ _
      rw [hi.sys.placed i c]
      exact ⟨fun h => h.2, fun h => ⟨(hi.sys.tiled.valid c (exist_of h.1)).2, h⟩⟩
    have key : w c = some i → ∃ t : BitVec 32, (∀ j, t.getLsbD j = true ↔ HasType g (s i) id i c j) ∧
        ∀ exact, typeMatch g i (s i) c criteria exact id =
          if exact then criteria.any fun k => t == k
          else BitVec.slt 0#32 (t &&& criteria.foldl (· ||| ·) 0#32) := by
      intro hc
      have he := exist_of hc
      obtain ⟨of, to, h1, h2, h3, h4, h5⟩ := hi.nbr_ne_zero hw hH he
      refine ⟨addTypes i (s i) localTo remoteTo (addTypes i (s i) localOf remoteOf 0#32 (of.map (·.1))) (to.map (·.1)),
        fun j => ?_, fun exact => ?_⟩
      · rw [addTypes_bit, addTypes_bit]
        have e1 : (∃ b ∈ of.map (·.1), b ≠ 0 ∧ (s i).owner b = some i) ↔ ∃ b, (s i).owner b = some i ∧ NbrOf g (s i) id c b := by
          constructor
          · rintro ⟨b, a1, -, a2⟩; exact ⟨b, a2, (h3 b).1 a1⟩
          · rintro ⟨b, a1, a2⟩; exact ⟨b, (h3 b).2 a2, (h5 b (Or.inl a2)).1, a1⟩
        have e2 : (∃ b ∈ to.map (·.1), b ≠ 0 ∧ (s i).owner b = some i) ↔ ∃ b, (s i).owner b = some i ∧ NbrTo g (s i) id c b := by
          constructor
          · rintro ⟨b, a1, -, a2⟩; exact ⟨b, a2, (h4 b).1 a1⟩
          · rintro ⟨b, a1, a2⟩; exact ⟨b, (h4 b).2 a2, (h5 b (Or.inr a2)).1, a1⟩
        have e3 : (∃ b ∈ of.map (·.1), b ≠ 0 ∧ (s i).owner b ≠ some i) ↔
            ∃ b j, (s i).owner b = some j ∧ j ≠ i ∧ NbrOf g (s i) id c b := by
          constructor
          · rintro ⟨b, a1, -, a2⟩
            obtain ⟨j, hj⟩ := (h5 b (Or.inl ((h3 b).1 a1))).2
            rw [hi.sys.owner, hj] at a2
            exact ⟨b, j, by rw [hi.sys.owner, hj], fun e => a2 (by rw [e]), (h3 b).1 a1⟩
          · rintro ⟨b, j, a1, a2, a3⟩
            exact ⟨b, (h3 b).2 a3, (h5 b (Or.inl a3)).1, by rw [a1]; intro e; injection e with e; exact a2 e⟩
        have e4 : (∃ b ∈ to.map (·.1), b ≠ 0 ∧ (s i).owner b ≠ some i) ↔
            ∃ b j, (s i).owner b = some j ∧ j ≠ i ∧ NbrTo g (s i) id c b := by
          constructor
          · rintro ⟨b, a1, -, a2⟩
            obtain ⟨j, hj⟩ := (h5 b (Or.inr ((h4 b).1 a1))).2
            rw [hi.sys.owner, hj] at a2
            exact ⟨b, j, by rw [hi.sys.owner, hj], fun e => a2 (by rw [e]), (h4 b).1 a1⟩
          · rintro ⟨b, j, a1, a2, a3⟩
            exact ⟨b, (h4 b).2 a3, (h5 b (Or.inr a3)).1, by rw [a1]; intro e; injection e with e; exact a2 e⟩
        rw [e1, e2, e3, e4]
        have hbit : ∀ (m : Nat), m < 4 → (BitVec.ofNat 32 (2 ^ m)).getLsbD j = decide (j = m) := by
          intro m hm
          by_cases hj : j < 32
          · have : ∀ m : Fin 4, ∀ j : Fin 32, (BitVec.ofNat 32 (2 ^ m.val)).getLsbD j.val = decide (j.val = m.val) := by decide
            exact this ⟨m, hm⟩ ⟨j, hj⟩
          · rw [BitVec.getLsbD_of_ge _ _ (by omega)]
            symm; rw [decide_eq_false_iff_not]; omega
        have b0 : localOf.getLsbD j = decide (j = 0) := hbit 0 (by omega)
        have b1 : localTo.getLsbD j = decide (j = 1) := hbit 1 (by omega)
        have b2 : remoteOf.getLsbD j = decide (j = 2) := hbit 2 (by omega)
        have b3 : remoteTo.getLsbD j = decide (j = 3) := hbit 3 (by omega)
        rw [b0, b1, b2, b3]
        simp only [decide_eq_true_eq, BitVec.getLsbD_zero, Bool.false_eq_true, false_or]
        match j with
        | 0 => simp [HasType]
        | 1 => simp [HasType]
        | 2 => simp [HasType]
        | 3 => simp [HasType]
        | j + 4 =>
          show _ ↔ False
          constructor
          · rintro ((⟨e, -⟩ | ⟨e, -⟩) | ⟨e, -⟩ | ⟨e, -⟩) <;> omega
          · exact False.elim
      · unfold typeMatch
        rw [if_neg (valid_ne_zero (hi.sys.tiled.valid c he)), hi.sys.owner, if_neg (by rw [he]; decide),
          if_neg (by simpa using hc), h1, h2]
    refine ⟨fun exact hcr => ?_, fun hcr => ?_, fun hcr => ?_⟩
    · rw [hm, hcr, hi.sys.owner]
      simp
    · have hemp : criteria.isEmpty = false := by rwa [List.isEmpty_eq_false_iff]
      rw [hm, hi.sys.owner, hemp, Bool.false_or]
      constructor
      · rintro ⟨h1, h2⟩
        obtain ⟨t, ht, e⟩ := key h1
        rw [e, if_pos rfl, List.any_eq_true] at h2
        obtain ⟨k, hk, h3⟩ := h2
        rw [beq_iff_eq] at h3
        subst h3
        exact ⟨h1, t, hk, ht⟩
      · rintro ⟨h1, k, hk, h2⟩
        obtain ⟨t, ht, e⟩ := key h1
        refine ⟨h1, ?_⟩
        rw [e, if_pos rfl, List.any_eq_true]
        refine ⟨k, hk, ?_⟩
        rw [beq_iff_eq]
        apply BitVec.eq_of_getLsbD_eq
        intro j hj
        rw [Bool.eq_iff_iff, ht, h2]
    · have hemp : criteria.isEmpty = false := by rwa [List.isEmpty_eq_false_iff]
      rw [hm, hi.sys.owner, hemp, Bool.false_or]
      refine and_congr_right fun h1 => ?_
      obtain ⟨t, ht, e⟩ := key h1
      rw [e, if_neg (by decide), slt_zero_iff]
      · constructor
        · rintro ⟨j, hj⟩
          rw [BitVec.getLsbD_and, Bool.and_eq_true, foldl_or_bit, ht] at hj
          obtain ⟨h2, h3 | ⟨k, hk, h3⟩⟩ := hj
          · simp at h3
          · exact ⟨k, hk, j, h3, h2⟩
        · rintro ⟨k, hk, j, h2, h3⟩
          refine ⟨j, ?_⟩
          rw [BitVec.getLsbD_and, Bool.and_eq_true, foldl_or_bit, ht]
          exact ⟨h3, Or.inr ⟨k, hk, h2⟩⟩
      · intro k hk
        rw [BitVec.getLsbD_and]
        have : t.getLsbD k = false := by
          cases hx : t.getLsbD k with
          | false => rfl
          | true =>
            rw [ht] at hx
            match k, hk with
            | k + 4, _ => exact hx.elim
        rw [this]; rfl

end

/-- Cell 1 of the demo has a neighbor on the other process, and is a neighbor of itself because the grid is periodic in one
dimension: it has all types of neighbors. -/
example : ∃ s : Sys 2 Nat Nat, Reachable tinyG 0 146 s ∧ (hoodFor tinyG (s 0) defaultId).isSome = true ∧
    1 ∈ getCells tinyG 0 (s 0) [1#32, 4#32] false defaultId true ∧
    1 ∈ getCells tinyG 0 (s 0) [1#32, 15#32] true defaultId true ∧
    2 ∉ getCells tinyG 0 (s 0) [1#32, 15#32] true defaultId true := by
  obtain ⟨s, h1, h2, h3, -, -, -, h4, h5⟩ := tiny_init
  have ho : ∀ i, (s i).owner = (createLevel0 2 2).2 := h3.sys.owner
  have hd : hoodFor tinyG (s 0) defaultId = some (hoodOf tinyG) := if_pos rfl
  have hs : Linked tinyG (hoodOf tinyG) 1 1 := ⟨v3 0 0 1, by decide, v3 0 0 4, by decide, by decide, by decide⟩
  have e1 : ∀ j, j < 4 → HasType tinyG (s 0) defaultId 0 1 j := by
    intro j hj
    match j, hj with
    | 0, _ => exact ⟨1, by rw [ho]; exact h4, (h3.nbrOf_iff tiny_wf hd (exist_of h4)).2 ⟨exist_of h4, hs⟩⟩
    | 1, _ => exact ⟨1, by rw [ho]; exact h4, (h3.nbrTo_iff tiny_wf hd (exist_of h4)).2 ⟨exist_of h4, hs⟩⟩
    | 2, _ => exact ⟨2, 1, by rw [ho]; exact h5, by decide, (h3.nbrOf_iff tiny_wf hd (exist_of h4)).2 ⟨exist_of h5, tiny_linked.1⟩⟩
    | 3, _ => exact ⟨2, 1, by rw [ho]; exact h5, by decide, (h3.nbrTo_iff tiny_wf hd (exist_of h4)).2 ⟨exist_of h5, tiny_linked.2⟩⟩
  have hk : (hoodFor tinyG (s 0) defaultId).isSome = true := by rw [hd]; rfl
  refine ⟨s, h2, hk, ?_, ?_, ?_⟩
  · exact (((C37_get_cells tiny_wf h2 0 _ true).2 hk 1).2.2 (by simp)).2
      ⟨by rw [ho]; exact h4, 4#32, by simp, 2, by decide, e1 2 (by omega)⟩
  · refine (((C37_get_cells tiny_wf h2 0 _ true).2 hk 1).2.1 (by simp)).2
      ⟨by rw [ho]; exact h4, 15#32, by simp, fun j => ?_⟩
    match j with
    | 0 => exact ⟨fun _ => e1 0 (by omega), fun _ => by decide⟩
    | 1 => exact ⟨fun _ => e1 1 (by omega), fun _ => by decide⟩
    | 2 => exact ⟨fun _ => e1 2 (by omega), fun _ => by decide⟩
    | 3 => exact ⟨fun _ => e1 3 (by omega), fun _ => by decide⟩
    | j + 4 =>
      refine ⟨fun h => ?_, fun h => h.elim⟩
      have : ∀ j, 4 ≤ j → (15#32 : BitVec 32).getLsbD j = false := by
        intro j hj
        by_cases hj' : j < 32
        · have : ∀ j : Fin 32, 4 ≤ j.val → (15#32 : BitVec 32).getLsbD j.val = false := by decide
          exact this ⟨j, hj'⟩ hj
        · exact BitVec.getLsbD_of_ge _ _ (by omega)
      rw [this _ (by omega)] at h; cases h
  · intro h
    have := ((((C37_get_cells tiny_wf h2 0 _ true).2 hk 2).2.1 (by simp)).1 h).1
    rw [ho, h5] at this
    cases this

end Dccrg
