import Verif.Debug
/-!
# Checks of debug builds succeed when stored lists are up to date
-/
namespace Dccrg
open Cfg
variable {n : Nat} {D W α β : Type} {g : Cfg} {w : Owner n}

theorem Out.check_true (x : Out α) : Out.check (.ok true) x = x := rfl

theorem Out.every_true {l : List α} {f : α → Out Bool} (h : ∀ a ∈ l, f a = .ok true) : Out.every l f = .ok true := by
  unfold Out.every
  refine Out.fold_eq (fun _ => true) ?_
  intro pre a post e
  rw [if_pos rfl]
  exact h a (by rw [e]; simp)

theorem stdEqual_refl [BEq α] [ReflBEq α] (l : List α) : stdEqual l l = true := by
  induction l with
  | nil => rfl
  | cons a l ih => unfold stdEqual; rw [ih]; simp

theorem nbrEq_refl (a : Nat × V3 Int) : nbrEq a a = true := by unfold nbrEq; simp

theorem isEqv_refl (l : Nbrs) : l.isEqv l nbrEq = true := by
  induction l with
  | nil => rfl
  | cons a l ih => unfold List.isEqv; rw [ih, nbrEq_refl]; rfl

theorem getChild_leaf (hw : g.WF) (ht : Tiled g (exist w)) {c : Nat} (hc : exist w c = true) : getChild g (exist w) c = c :=
  (ht.getChild_eq_iff hw (valid_ne_zero (ht.valid c hc))).2 hc

/-- Processes know the same owners. -/
theorem dbgConsistent_true {s : Sys n D W} (h : ∀ i, (s i).owner = w) : dbgConsistent g s = true := by
  unfold dbgConsistent
  rw [decide_eq_true_eq]
  intro p q _
  rw [h p, h q]
  exact ⟨stdEqual_refl _, stdEqual_refl _⟩

theorem dbgSame_true {f : Fin n → List Nat} (h : ∀ p q, isort (dedup (f p)) = isort (dedup (f q))) : dbgSame f = true := by
  unfold dbgSame
  rw [decide_eq_true_eq]
  intro p q _
  rw [h p q]
  exact stdEqual_refl _

theorem dbgPins_true {p : Proc n D W} (h : ∀ c q, p.pins c = some q → p.owner c = some q) : dbgPins g p = .ok true := by
  refine Out.every_true fun c _ => ?_
  cases hp : p.pins c with
  | none => rfl
  | some q =>
    show (Out.at p.owner c).bind _ = _
    rw [Out.at_some (h c q hp), Out.bind_ok]
    simp

/-! ## Neighbors -/

/-- The neighborhood does not have the cell itself. -/
theorem hoodOf_ne {o : V3 Int} (h : o ∈ hoodOf g) : ∃ d, o d ≠ 0 := by
  by_cases h0 : g.hood = 0
  · rw [hoodOf_zero h0, faces_mem] at h
    obtain ⟨d, pos, rfl⟩ := h
    refine ⟨d, ?_⟩
    unfold unitItem
    rw [setD_same]
    cases pos <;> decide
  · have h := ((mem_hoodOf h0).1 h).2
    apply Classical.byContradiction
    intro hn
    apply h
    funext d
    apply Classical.byContradiction
    intro hd
    exact hn ⟨d, hd⟩

section
variable (hw : g.WF) (ht : Tiled g (exist w)) (hb : Balanced g (exist w)) {H : List (V3 Int)}
  (hH : ∀ o ∈ H, o ∈ hoodOf g)
include hw ht hb hH

/-- No neighbor is at the location of the cell. -/
theorem dbgOffsets_of {c : Nat} (hc : exist w c = true) : dbgOffsets (ofList g w H c) = true := by
  obtain ⟨f, h1, h2, -, -⟩ := C15_neighbors_of hw ht ((balanced_iff hw ht).1 hb) hc hH
  unfold ofList dbgOffsets
  rw [h1]
  simp only []
  rw [List.all_eq_true]
  intro x hx
  rw [Bool.or_eq_true, decide_eq_true_eq]
  right
  obtain ⟨o, ho, hx⟩ := List.mem_flatMap.1 hx
  have hI := h2 o ho
  obtain ⟨d0, hd0⟩ := hoodOf_ne (hH o ho)
  have hs := side_pos (g := g) c
  apply Classical.byContradiction
  intro hn
  have hz : ∀ d, x.2 d = 0 := fun d => Classical.byContradiction fun h => hn ⟨d, h⟩
  generalize f o = l at hI hx
  cases hI with
  | outside _ => cases hx
  | @covers b off _ hb' _ hl hq =>
    rw [List.mem_singleton] at hx
    subst hx
    have hz : ∀ d, off d = 0 := hz
    have el : (fun d => (g.idx c d : Int) + off d) = fun d => (g.idx c d : Int) := by funext d; rw [hz d]; simp
    rw [el] at hl hq
    have hsb := side_pos (g := g) b
    have e := (ht.lift_eq hw hc hb' (lift_self c) hl (q := fun d => (g.idx c d : Int))
      (fun d => by constructor <;> simp <;> omega) (fun d => by constructor <;> simp <;> omega)).1
    subst e
    have h3 := hq (fun d => (g.idx c d : Int) + o d * g.side c) (fun d => by constructor <;> omega) d0
    simp only [] at h3
    have h4 : o d0 ≥ 1 ∨ o d0 ≤ -1 := by omega
    have hs' : (0 : Int) < g.side c := by omega
    rcases h4 with h4 | h4
    · have := Int.mul_le_mul_of_nonneg_right h4 (Int.le_of_lt hs'); omega
    · have := Int.mul_le_mul_of_nonneg_right h4 (Int.le_of_lt hs'); omega
  | @eight k s _ hsd _ =>
    obtain ⟨u, hu, rfl⟩ := List.mem_map.1 hx
    have hz : o d0 * (g.side c : Int) + (u d0 : Int) * s = 0 := hz d0
    have hu1 := (mem_octants_iff.1 hu) d0
    have hs' : (0 : Int) < g.side c := by omega
    have h4 : o d0 ≥ 1 ∨ o d0 ≤ -1 := by omega
    have h5 : (0 : Int) ≤ (u d0 : Int) * s := Int.mul_nonneg (by omega) (by omega)
    have h6 : (u d0 : Int) * s ≤ 1 * s := Int.mul_le_mul_of_nonneg_right (by omega) (by omega)
    rcases h4 with h4 | h4
    · have := Int.mul_le_mul_of_nonneg_right h4 (Int.le_of_lt hs'); omega
    · have := Int.mul_le_mul_of_nonneg_right h4 (Int.le_of_lt hs'); omega

theorem dbgCell_true {T : Nat → Option (Fin 3 → Bool → Nat)} {of to : Nat → Option Nbrs} {c : Nat} (hT : T = sixOf g w)
    (hc : exist w c = true) (h1 : of c = some (ofList g w H c)) (h2 : to c = some (toList g w H c)) :
    dbgCell g w T of to H c = .ok true := by
  have hv := ht.valid c hc
  unfold dbgCell
  rw [if_neg, if_pos (getChild_leaf hw ht hc).symm, h1, h2]
  · simp only []
    rw [hT, findOf_ok hw ht hb hH hc, Out.bind_ok, isEqv_refl, if_neg (by simp), findTo_ok hw ht hb hH hc, Out.bind_ok,
      isEqv_refl]
  · have h3 := hv.1
    have h4 := hv.2
    rintro (h | h | h)
    · exact valid_ne_zero hv h
    · unfold Cfg.last at *; omega
    · rw [hc] at h; cases h

end

/-! ## Cells on process boundaries -/

section
variable {i : Fin n} {p : Proc n D W} {σ : Store n}

theorem dbgRemote_eq {f : Nat → Bool} {l : List Nat} (h : ∀ b ∈ l, exist w b = true ∧ b ≠ 0 ∧ f b = true) :
    dbgRemote i w f l = .ok (l.any fun b => w b != some i) := by
  unfold dbgRemote
  have key := Out.fold_eq (l := l) (f := fun b r =>
    if b = 0 then .ok r
    else (Out.at w b).bind fun j => if f b = false then .throws else .ok (r || j != i))
    (fun pre => pre.any fun b => w b != some i) ?_
  · exact key
  · intro pre b post e
    obtain ⟨h1, h2, h3⟩ := h b (by rw [e]; simp)
    obtain ⟨j, hj⟩ := exist_iff.1 h1
    rw [if_neg h2, Out.at_some hj, Out.bind_ok, if_neg (by simp [h3]), List.any_append]
    congr 2
    rw [List.any_cons, List.any_nil, hj]
    by_cases e : j = i
    · subst e; simp
    · have e1 : (j != i) = true := by simpa using e
      have e2 : (some j != some i) = true := by simpa using e
      rw [e1, e2]; rfl

variable (hw : g.WF) (ht : Tiled g (exist w)) (hb : Balanced g (exist w)) (ho : p.owner = w)
  (hd : ∀ c, p.has c = true ↔ w c = some i)
include hw ht hb ho hd

omit hb ho hd in
theorem isNeighbor_linked {a b : Nat} (ha : exist w a = true) (hb' : exist w b = true) :
    isNeighbor g a b = true ↔ a = b ∨ Linked g (hoodOf g) a b := by
  rw [C17_is_neighbor hw (ht.valid a ha) (ht.valid b hb'), meets_self_iff hw (ht.valid a ha)]
  constructor
  · rintro (⟨q, h1, h2⟩ | h)
    · exact Or.inl (ht.unique q a b ha hb' h1 h2)
    · exact Or.inr h
  · rintro (h | h)
    · subst h; exact Or.inl ⟨_, mem_idx a, mem_idx a⟩
    · exact Or.inr h

/-- `verify_remote_neighbor_info` succeeds. -/
theorem dbgInfo_true (h1 : σ.six = sixOf g w) (h2 : σ.loc = localBoundaryH g (hoodOf g) i p.owner p.has)
    (h3 : σ.rem = dedup (remoteBoundaryH g (hoodOf g) i p.owner p.has)) : dbgInfo g i p σ = .ok true := by
  unfold dbgInfo
  rw [ho] at h2 h3 ⊢
  refine Out.every_true fun c hc => ?_
  have hc := (mem_cellsIn ht).1 hc
  rw [if_neg (by simpa using (getChild_leaf hw ht hc).symm)]
  obtain ⟨j, hj⟩ := exist_iff.1 hc
  have hH : ∀ o ∈ hoodOf g, o ∈ hoodOf g := fun o h => h
  by_cases e : w c = some i
  · rw [if_neg (by simpa using e), h1, findOf_ok hw ht hb hH hc, Out.bind_ok, ofList_ids, dbgRemote_eq, Out.bind_ok,
      findTo_ok hw ht hb hH hc, Out.bind_ok, toList_ids, dbgRemote_eq, Out.bind_ok]
    · have : σ.loc.contains c = ((nbrsOfH g (exist w) (hoodOf g) c).any (fun b => w b != some i) ||
          (nbrsToH g (exist w) (hoodOf g) c).any fun b => w b != some i) := by
        rw [Bool.eq_iff_iff, ← List.any_append, List.contains_iff_mem, h2, mem_localBoundaryH hw ht hd, List.any_eq_true]
        constructor
        · rintro ⟨-, b, hb1, -, hb2⟩; exact ⟨b, hb1, by simpa using hb2⟩
        · rintro ⟨b, hb1, hb2⟩
          refine ⟨e, b, hb1, ?_, by simpa using hb2⟩
          rw [List.mem_append] at hb1
          have he : exist w b = true := by
            rcases hb1 with h | h
            · exact ((mem_nbrsOfH hw ht hb hH hc).1 h).1
            · exact ((mem_nbrsToH hw ht hb hH hc).1 h).1
          exact valid_ne_zero (ht.valid b he)
      rw [this]; simp
    · intro b hm
      have := (mem_nbrsToH hw ht hb hH hc).1 hm
      exact ⟨this.1, valid_ne_zero (ht.valid b this.1), (isNeighbor_linked hw ht this.1 hc).2 (Or.inr this.2)⟩
    · intro b hm
      have := (mem_nbrsOfH hw ht hb hH hc).1 hm
      exact ⟨this.1, valid_ne_zero (ht.valid b this.1), (isNeighbor_linked hw ht hc this.1).2 (Or.inr this.2)⟩
  · rw [if_pos (by simpa using e)]
    simp only []
    congr 1
    rw [beq_iff_eq, Bool.eq_iff_iff, List.contains_iff_mem, h3, mem_dedup, mem_remoteBoundaryH hw ht hb hH hd, List.any_eq_true]
    constructor
    · rintro ⟨-, b, hb1, hb2⟩
      have he := exist_of hb1
      refine ⟨b, (mem_cellsIn ht).2 he, ?_⟩
      rw [Bool.and_eq_true, Bool.and_eq_true, Bool.or_eq_true, beq_iff_eq, beq_iff_eq]
      refine ⟨⟨hb1, (getChild_leaf hw ht he).symm⟩, ?_⟩
      rcases hb2 with h | h
      · exact Or.inr ((isNeighbor_linked hw ht he hc).2 (Or.inr h))
      · exact Or.inl ((isNeighbor_linked hw ht hc he).2 (Or.inr h))
    · rintro ⟨b, hb1, hb2⟩
      rw [Bool.and_eq_true, Bool.and_eq_true, Bool.or_eq_true, beq_iff_eq, beq_iff_eq] at hb2
      obtain ⟨⟨h4, -⟩, h5⟩ := hb2
      have he := exist_of h4
      have hne : b ≠ c := by rintro rfl; exact e h4
      refine ⟨⟨j, hj, fun h => e (by rw [hj, h])⟩, b, h4, ?_⟩
      rcases h5 with h | h
      · rcases (isNeighbor_linked hw ht hc he).1 h with h | h
        · exact absurd h.symm hne
        · exact Or.inr h
      · rcases (isNeighbor_linked hw ht he hc).1 h with h | h
        · exact absurd h hne
        · exact Or.inl h

omit hw ht hb in
/-- `verify_user_data` succeeds. -/
theorem dbgData_true : dbgData g i p = true := by
  unfold dbgData
  rw [List.all_eq_true, ho]
  intro c _
  cases h : p.has c with
  | true => rw [(hd c).1 h]; simp
  | false =>
    have : w c ≠ some i := fun e => by rw [(hd c).2 e] at h; cases h
    have e : (w c == some i) = false := by simpa using this
    rw [e]; simp

omit hb in
theorem dbgLocal_true : dbgLocal g i p = true := by
  unfold dbgLocal
  rw [List.all_eq_true, ho]
  intro c hc
  have hc := (mem_cellsIn ht).1 hc
  rw [getChild_leaf hw ht hc]
  by_cases e : w c = some i
  · rw [(hd c).2 e]; simp
  · have : (w c != some i) = true := by simpa using e
    rw [this]; rfl

omit hb in
theorem dbgLeaf_true {c : Nat} (hc : w c = some i) : dbgLeaf g p c = true := by
  have he := exist_of hc
  unfold dbgLeaf
  rw [ho, (hd c).2 hc, Bool.and_true, Bool.and_eq_true, Bool.not_eq_true', Bool.not_eq_true']
  constructor
  · by_cases hl : g.lvl c = g.maxLvl
    · simp [hl]
    · have hl' : g.lvl c < g.maxLvl := by have := lvl_le (ht.valid c he); omega
      rw [ht.no_child hw he hl' (mem_children.2 ⟨fun _ => 0, fun _ => Nat.zero_le _, rfl⟩)]; simp
  · by_cases hl : g.lvl c = 0
    · simp [hl]
    · rw [ht.parent_gone hw he (by omega)]; simp

end

/-! ## Iterators -/

section
variable (hw : g.WF) (ht : Tiled g (exist w)) (hb : Balanced g (exist w)) {H : List (V3 Int)}
  (hH : ∀ o ∈ H, o ∈ hoodOf g)
include hw ht hb hH

theorem ofList_facts {c : Nat} (hc : exist w c = true) {x : Nat × V3 Int} (hx : x ∈ ofList g w H c) :
    exist w x.1 = true ∧ x.1 ≠ 0 ∧ g.lvl c ≤ g.lvl x.1 + 1 ∧ g.lvl x.1 ≤ g.lvl c + 1 := by
  have : x.1 ∈ nbrsOfH g (exist w) H c := by rw [← ofList_ids]; exact List.mem_map.2 ⟨x, hx, rfl⟩
  obtain ⟨h1, o, h2, h3⟩ := (mem_nbrsOfH hw ht hb hH hc).1 this
  exact ⟨h1, valid_ne_zero (ht.valid _ h1), hb c x.1 hc h1 ((near_iff hw).2 (Or.inr ⟨o, hH o h2, h3⟩))⟩

theorem toList_facts {c : Nat} (hc : exist w c = true) {x : Nat × V3 Int} (hx : x ∈ toList g w H c) :
    exist w x.1 = true ∧ x.1 ≠ 0 ∧ g.lvl c ≤ g.lvl x.1 + 1 ∧ g.lvl x.1 ≤ g.lvl c + 1 := by
  have : x.1 ∈ nbrsToH g (exist w) H c := by rw [← toList_ids]; exact List.mem_map.2 ⟨x, hx, rfl⟩
  obtain ⟨h1, o, h2, h3⟩ := (mem_nbrsToH hw ht hb hH hc).1 this
  have h4 := hb x.1 c h1 hc ((near_iff hw).2 (Or.inr ⟨o, hH o h2, h3⟩))
  exact ⟨h1, valid_ne_zero (ht.valid _ h1), h4.2, h4.1⟩

omit hw ht hb hH in
theorem toList_zero {c : Nat} {x : Nat × V3 Int} (hx : x ∈ toList g w H c) : x.2 = fun _ => 0 := by
  unfold toList at hx
  split at hx
  · obtain ⟨b, -, rfl⟩ := List.mem_map.1 hx; rfl
  · cases hx

theorem sets_facts {c : Nat} (hc : exist w c = true) :
    let x := neighborSets (ofList g w H c) (toList g w H c)
    (∀ y ∈ x.1 ++ x.2.1, y ∈ ofList g w H c) ∧ ∀ y ∈ x.2.1 ++ x.2.2, g.lvl c ≤ g.lvl y.1 + 1 ∧ g.lvl y.1 ≤ g.lvl c + 1 := by
  obtain ⟨h1, h2, h3, -⟩ := neighborSets_spec (of := ofList g w H c) (to := toList g w H c)
    (fun x hx => (ofList_facts hw ht hb hH hc hx).2.1)
    (fun x hx => ⟨(toList_facts hw ht hb hH hc hx).2.1, toList_zero hx⟩)
  intro x
  refine ⟨fun y hy => ?_, fun y hy => ?_⟩
  · rcases List.mem_append.1 hy with hy | hy
    · exact ((h1 y).1 hy).1
    · exact ((h2 y).1 hy).1
  · rcases List.mem_append.1 hy with hy | hy
    · exact (ofList_facts hw ht hb hH hc ((h2 y).1 hy).1).2.2
    · obtain ⟨z, hz, e⟩ := List.mem_map.1 ((h3 y).1 hy).2.1
      have := (toList_facts hw ht hb hH hc hz).2.2
      rw [e] at this; exact this

end

section
variable {maxTag : Nat} {i : Fin n} {p : Proc n D W} {σ : Store n}

/-- Cells behind iterators exist. -/
theorem cells_exist (hw : g.WF) (hg : Good g w maxTag i p) {loc : List Nat} {c : Nat}
    (hr : σ.rem = dedup (remoteBoundaryH g (hoodOf g) i p.owner p.has))
    (hc : c ∈ ((heldBy g p).filter fun c => !loc.contains c) ++ ((heldBy g p).filter fun c => loc.contains c) ++ σ.rem) :
    exist w c = true := by
  rw [List.mem_append, List.mem_append] at hc
  rcases hc with (hc | hc) | hc
  · exact exist_of ((hg.placed c).1 (List.mem_filter.1 (List.mem_filter.1 hc).1).2)
  · exact exist_of ((hg.placed c).1 (List.mem_filter.1 (List.mem_filter.1 hc).1).2)
  · rw [hr, mem_dedup, hg.owner] at hc
    obtain ⟨⟨j, hj, -⟩, -⟩ := (mem_remoteBoundaryH hw hg.tiled hg.balanced (fun o h => h) hg.placed).1 hc
    exact exist_of hj

/-- Levels of neighbors behind iterators. -/
theorem dbgLevels_true (hw : g.WF) (hg : Good g w maxTag i p) {id : Int} {k : Cache} (hk : updatePointers g i p id = .ok k) :
    dbgLevels g k = true := by
  unfold updatePointers at hk
  cases hH : hoodFor g p id with
  | none => rw [hH] at hk; cases hk
  | some H =>
    rw [hH] at hk
    simp only [] at hk
    have hs := hg.hoodFor_sub hH
    split at hk
    · cases hk
    · split at hk
      · cases hk
      · rename_i h0
        injection hk with hk
        subst hk
        unfold dbgLevels
        simp only []
        rw [List.all_eq_true]
        intro x hx
        have hid := List.mem_map_of_mem (f := fun x : CellItem => x.id) hx
        rw [cellItems_ids] at hid
        have hex : exist w x.id = true := by
          cases he : exist w x.id with
          | true => rfl
          | false =>
            refine absurd ⟨x.id, hid, Or.inr (Or.inl ?_)⟩ h0
            unfold getNeighborsOf
            rw [hg.owner, if_neg (by simp [he])]; rfl
        obtain ⟨e1, e2, -⟩ := cellItems_nbrs _ _ [] x hx
        simp only [List.nil_append, List.length_nil] at e1 e2
        rw [e1, e2, getOf_eq hw hg hH hs hex, getTo_eq hw hg hH hs hex]
        simp only [Option.getD_some]
        obtain ⟨f1, f2⟩ := sets_facts hw hg.tiled hg.balanced hs hex
        rw [List.all_eq_true]
        intro y hy
        rw [decide_eq_true_eq]
        have : g.lvl x.id ≤ g.lvl y.1 + 1 ∧ g.lvl y.1 ≤ g.lvl x.id + 1 := by
          rcases List.mem_append.1 hy with hy | hy
          · exact (ofList_facts hw hg.tiled hg.balanced hs hex (f1 y hy)).2.2
          · exact f2 y hy
        omega

theorem Coherent.levels (hw : g.WF) (hg : Good g w maxTag i p) {b : Bool} (h : Coherent g i p σ b) : dbgLevels g σ.ptr = true :=
  dbgLevels_true hw hg (h.ptr.1 rfl)

/-- `verify_neighbors` succeeds. -/
theorem dbgNeighbors_true (hw : g.WF) (hg : Good g w maxTag i p) (h1 : σ.six = sixOf g w)
    (h2 : σ.of = ofLists g w (hoodOf g)) (h3 : σ.to = toLists g w (hoodOf g))
    (h4 : σ.userOf = fun id => (p.hoods.lookup id).map (ofLists g w))
    (h5 : σ.userTo = fun id => (p.hoods.lookup id).map (toLists g w)) (h6 : dbgLevels g σ.ptr = true) :
    dbgNeighbors g i p σ = .ok true := by
  unfold dbgNeighbors
  rw [Out.every_true, Out.bind_ok, h6]
  · rfl
  · intro c hc
    rw [hg.owner] at hc ⊢
    have hc := (mem_cellsIn hg.tiled).1 hc
    by_cases e : w c = some i
    · rw [if_neg (by simpa using e), dbgCell_true hw hg.tiled hg.balanced (fun o h => h) h1 hc
        (by rw [h2]; exact if_pos hc) (by rw [h3]; exact if_pos hc), Out.bind_ok, if_neg (by simp)]
      refine Out.every_true fun x hx => ?_
      have hl := lookup_of_mem hg.keys hx
      rw [Out.at_some (b := ofLists g w x.2) (by rw [h4]; simp [hl]), Out.bind_ok,
        Out.at_some (b := toLists g w x.2) (by rw [h5]; simp [hl]), Out.bind_ok]
      exact dbgCell_true hw hg.tiled hg.balanced (hg.items x hx) h1 hc (if_pos hc) (if_pos hc)
    · rw [if_pos (by simpa using e)]

/-- `verify_remote_neighbor_info(cell)` succeeds. -/
theorem dbgInfoCell_true (hw : g.WF) (ht : Tiled g (exist w)) (hb : Balanced g (exist w)) (h1 : σ.six = sixOf g w)
    (h2 : σ.of = ofLists g w (hoodOf g)) (h3 : σ.to = toLists g w (hoodOf g)) {c : Nat} (hc : exist w c = true)
    (h4 : ∀ b ∈ remoteNbrs g w (hoodOf g) i c, c ∈ σ.loc ∧ b ∈ σ.rem) : dbgInfoCell g i w σ c = .ok true := by
  have hof : σ.of c = some (ofList g w (hoodOf g) c) := by rw [h2]; exact if_pos hc
  have hto : σ.to c = some (toList g w (hoodOf g) c) := by rw [h3]; exact if_pos hc
  unfold dbgInfoCell
  rw [dbgCell_true hw ht hb (fun o h => h) h1 hc hof hto, Out.bind_ok, if_neg (by simp),
    if_neg (by simpa using (getChild_leaf hw ht hc).symm), Out.at_some hof, Out.bind_ok, Out.at_some hto, Out.bind_ok]
  refine Out.every_true fun x hx => ?_
  have hx' : exist w x.1 = true ∧ x.1 ≠ 0 := by
    rcases List.mem_append.1 hx with hx | hx
    · have := ofList_facts hw ht hb (fun o h => h) hc hx; exact ⟨this.1, this.2.1⟩
    · have := toList_facts hw ht hb (fun o h => h) hc hx; exact ⟨this.1, this.2.1⟩
  obtain ⟨j, hj⟩ := exist_iff.1 hx'.1
  rw [if_neg hx'.2, Out.at_some hj, Out.bind_ok]
  by_cases e : j = i
  · subst e; simp
  · have hm : x.1 ∈ remoteNbrs g w (hoodOf g) i c := by
      unfold remoteNbrs remoteIn
      rw [List.mem_filter, ← ofList_ids, ← toList_ids, ← List.map_append]
      refine ⟨List.mem_map.2 ⟨x, hx, rfl⟩, ?_⟩
      rw [hj]; simp [hx'.2, e]
    have h5 := h4 _ hm
    rw [List.contains_iff_mem.2 h5.1, List.contains_iff_mem.2 h5.2]; simp

end

end Dccrg
