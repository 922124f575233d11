import Verif.StoredHist
import Verif.Demo
/-!
# C80: what processes have stored is never out of date

Processes store neighbors of cells, cells on process boundaries, lists of cells to send and receive, and iterators
(`Store`, Verif/Stored.lean), and functions of the grid read what is stored. Elsewhere in the model these functions
calculate their results from existing cells, processes that have them and neighborhoods. In every state that can be
reached (`WithStore`) both are the same.
-/
namespace Dccrg
open Cfg
variable {n : Nat} {D W : Type} {g : Cfg} {s s' : Sys n D W} {dflt : D} {maxTag : Nat} {σ : Fin n → Store n} {b : Bool}
  {w : Owner n} {i : Fin n} {p : Proc n D W} {τ : Store n} {a : Option Cache}

/-- C80: whatever is done with a grid, storing does not fail, and what is stored belongs to a reachable state. -/
theorem C80_histories (hw : g.WF) :
    (Reachable g dflt maxTag s ↔ ∃ σ b, WithStore g dflt maxTag s σ b) ∧
    (WithStore g dflt maxTag s σ b → ∀ op : Op n D W, op.Ok s → step g dflt maxTag s op = .ok s' →
      ∃ σ', stepStored g dflt maxTag s σ op = .ok (s', σ')) := by
  refine ⟨⟨fun h => h.stored hw, fun ⟨σ, b, h⟩ => (h.coherent hw).1⟩, fun h op ho hs => ?_⟩
  obtain ⟨hr, hc⟩ := h.coherent hw
  obtain ⟨σ', e1, -⟩ := Out.collect_all (f := fun i => storeAfter g maxTag op i (s i) (s' i) (σ i)) (P := fun _ _ => True)
    (fun i => by
      obtain ⟨σ2, e1, -⟩ := storeAfter_ok hw hr ho hs (hc i)
      exact ⟨σ2, e1, trivial⟩)
  refine ⟨σ', ?_⟩
  unfold stepStored
  rw [hs, Out.bind_ok, e1, Out.bind_ok]

theorem Coherent.neighbors (hw : g.WF) (hg : Good g w maxTag i p) (hc : Coherent g i p τ b a) (c : Nat) (id : Int) :
    storedOf p τ c id = .ok (getNeighborsOf g p c id) ∧ storedTo p τ c id = .ok (getNeighborsTo g p c id) := by
  have ho := hg.owner
  exact ⟨storedOf_eq hw hg (by rw [← ho]; exact hc.of) (by rw [← ho]; exact hc.userOf) c id,
    storedTo_eq hw hg (by rw [← ho]; exact hc.to) (by rw [← ho]; exact hc.userTo) c id⟩

/-- C80: stored lists of neighbors. -/
theorem C80_neighbors (hw : g.WF) (h : WithStore g dflt maxTag s σ b) (i : Fin n) (c : Nat) (id : Int) :
    storedOf (s i) (σ i) c id = .ok (getNeighborsOf g (s i) c id) ∧
    storedTo (s i) (σ i) c id = .ok (getNeighborsTo g (s i) c id) := by
  obtain ⟨hr, hc⟩ := h.coherent hw
  obtain ⟨w, hg⟩ := hr.good hw i
  exact (hc i).neighbors hw hg c id

theorem storedFaceDir_eq (hw : g.WF) {w : Owner n} (ht : Tiled g (exist w)) (hb : Balanced g (exist w)) {c : Nat}
    (hc : exist w c = true) (d : Fin 3) (pos : Bool) :
    storedFaceDir g (sixOf g w) c d pos = .ok (faceDir g (exist w) c d pos) := by
  have six : ∀ {x}, exist w x = true → sixOf g w x = some (nbr6 g (exist w) x) := by
    intro x hx; unfold sixOf; rw [if_pos hx]
  unfold storedFaceDir faceDir
  rw [Out.at_some (six hc), Out.bind_ok]
  simp only []
  by_cases h1 : nbr6 g (exist w) c d pos = 0
  · rw [if_pos h1, if_pos h1]
  · rw [if_neg h1, if_neg h1]
    have e1 := (nbr6_near hw ht hb hc d pos h1).1
    generalize nbr6 g (exist w) c d pos = x at *
    by_cases h2 : g.lvl c ≥ g.lvl x
    · rw [if_pos h2, if_pos h2]
    · rw [if_neg h2, if_neg h2, Out.at_some (six e1), Out.bind_ok]
      by_cases h3 : nbr6 g (exist w) x (other2 d) true = 0
      · simp only [h3, ne_eq, not_true_eq_false, if_false, List.append_nil]
      · rw [if_pos h3, if_pos h3, Out.at_some (six (nbr6_near hw ht hb e1 _ _ h3).1), Out.bind_ok]

theorem Coherent.faces (hw : g.WF) (hg : Good g w maxTag i p) (hc : Coherent g i p τ b a) (c : Nat) :
    storedFaces g τ c = faceNeighbors g (exist p.owner) c := by
  have ho := hg.owner
  have hs := hc.six
  rw [ho] at hs ⊢
  unfold storedFaces faceNeighbors
  rw [hs]
  cases he : exist w c with
  | false =>
    rw [Out.at_none (by unfold sixOf; rw [if_neg (by simp [he])]), if_pos (Or.inr (Or.inl rfl))]
    rfl
  | true =>
    have h0 := valid_ne_zero (hg.tiled.valid c he)
    rw [Out.at_some (b := nbr6 g (exist w) c) (by unfold sixOf; rw [if_pos he]), Out.bind_ok, if_neg]
    · have key : ∀ (l : List (Fin 3 × Bool)) (a : List (Nat × Int)),
          Out.fold (fun x l => (storedFaceDir g (sixOf g w) c x.1 x.2).bind fun r =>
            .ok (l ++ r.map fun b => (b, dirOf x.1 x.2))) l a =
          .ok (a ++ l.flatMap fun x => (faceDir g (exist w) c x.1 x.2).map fun b => (b, dirOf x.1 x.2)) := by
        intro l
        induction l with
        | nil => intro a; rw [List.flatMap_nil, List.append_nil]; rfl
        | cons x l ih =>
          intro a
          unfold Out.fold
          rw [storedFaceDir_eq hw hg.tiled hg.balanced he, Out.bind_ok]
          simp only []
          rw [ih, List.flatMap_cons, List.append_assoc]
      exact key _ []
    · rintro (e | e | e)
      · exact h0 e
      · cases e
      · exact e ((hg.tiled.getChild_eq_iff hw h0).2 he)

/-- C80: stored face neighbors. -/
theorem C80_faces (hw : g.WF) (h : WithStore g dflt maxTag s σ b) (i : Fin n) (c : Nat) :
    storedFaces g (σ i) c = faceNeighbors g (exist (s i).owner) c := by
  obtain ⟨hr, hc⟩ := h.coherent hw
  obtain ⟨w, hg⟩ := hr.good hw i
  exact (hc i).faces hw hg c

theorem Coherent.boundaries (hc : Coherent g i p τ b a) (id : Int) (sorted : Bool) :
    storedLocal p τ id sorted = .ok (getLocalBoundary g i p id sorted) ∧
    storedRemote p τ id sorted = .ok (getRemoteBoundary g i p id sorted) := by
  unfold storedLocal storedRemote getLocalBoundary getRemoteBoundary hoodFor
  by_cases e : id = defaultId
  · rw [if_pos e, if_pos e, if_pos e, hc.loc, hc.rem]
    exact ⟨rfl, rfl⟩
  · rw [if_neg e, if_neg e, if_neg e]
    cases hl : p.hoods.lookup id with
    | none => exact ⟨rfl, rfl⟩
    | some H =>
      rw [if_pos (by rfl), if_pos (by rfl), Out.at_some (b := localBoundaryH g H i p.owner p.has) (by rw [hc.userLoc]; simp [hl]),
        Out.at_some (b := dedup (remoteBoundaryH g H i p.owner p.has)) (by rw [hc.userRem]; simp [hl])]
      exact ⟨rfl, rfl⟩

/-- C80: stored cells on process boundaries. -/
theorem C80_boundaries (hw : g.WF) (h : WithStore g dflt maxTag s σ b) (i : Fin n) (id : Int) (sorted : Bool) :
    storedLocal (s i) (σ i) id sorted = .ok (getLocalBoundary g i (s i) id sorted) ∧
    storedRemote (s i) (σ i) id sorted = .ok (getRemoteBoundary g i (s i) id sorted) :=
  ((h.coherent hw).2 i).boundaries id sorted

theorem stored_lists (hw : g.WF) (hi : Inv g w s) (hc : ∀ i, Coherent g i (s i) (σ i) b a) (i : Fin n) (id : Int) :
    (∀ H, hoodFor g (s i) id = some H → storedSends (σ i) id =
      .ok (sendList g H i (s i).owner (s i).has, recvList g H i (s i).owner (s i).has)) ∧
    (hoodFor g (s i) id = none → storedSends (σ i) id = .throws) ∧
    ∀ j a c, storedSends (σ i) id = .ok a → storedSends (σ j) id = .ok c → a.1 j = c.2 i ∧ a.2 j = c.1 i := by
  have h1 : ∀ i H, hoodFor g (s i) id = some H → storedSends (σ i) id =
      .ok (sendList g H i (s i).owner (s i).has, recvList g H i (s i).owner (s i).has) := by
    intro i H hH
    unfold storedSends
    unfold hoodFor at hH
    by_cases e : id = defaultId
    · rw [if_pos e] at hH ⊢
      injection hH with hH
      rw [(hc i).send, (hc i).recv, hH]
    · rw [if_neg e] at hH ⊢
      rw [Out.at_some (b := sendList g H i (s i).owner (s i).has) (by rw [(hc i).userSend]; simp [hH]), Out.bind_ok,
        Out.at_some (b := recvList g H i (s i).owner (s i).has) (by rw [(hc i).userRecv]; simp [hH]), Out.bind_ok]
  have h2 : ∀ i, hoodFor g (s i) id = none → storedSends (σ i) id = .throws := by
    intro i hH
    unfold storedSends
    unfold hoodFor at hH
    by_cases e : id = defaultId
    · rw [if_pos e] at hH; cases hH
    · rw [if_neg e] at hH ⊢
      rw [Out.at_none (by rw [(hc i).userSend]; simp [hH])]
      rfl
  refine ⟨h1 i, h2 i, ?_⟩
  intro j a c ha hc'
  cases hH : hoodFor g (s i) id with
  | none => rw [h2 i hH] at ha; cases ha
  | some H =>
    have hH' : hoodFor g (s j) id = some H := (hoodFor_agree hi j i id).trans hH
    rw [h1 i H hH] at ha
    rw [h1 j H hH'] at hc'
    injection ha with ha; injection hc' with hc'
    subst ha; subst hc'
    have hm := lists_match (has := fun p => (s p).has) hw hi.sys.tiled hi.sys.balanced (hoodFor_sub hi hH) (fun p => hi.sys.placed p)
    simp only [hi.sys.owner]
    exact ⟨hm.eq i j, (hm.eq j i).symm⟩

/-- C80: stored lists of cells to send and receive in updates of neighborhood `H`; lists of different processes agree. -/
theorem C80_lists (hw : g.WF) (h : WithStore g dflt maxTag s σ b) (i : Fin n) (id : Int) :
    (∀ H, hoodFor g (s i) id = some H → storedSends (σ i) id =
      .ok (sendList g H i (s i).owner (s i).has, recvList g H i (s i).owner (s i).has)) ∧
    (hoodFor g (s i) id = none → storedSends (σ i) id = .throws) ∧
    ∀ j a c, storedSends (σ i) id = .ok a → storedSends (σ j) id = .ok c → a.1 j = c.2 i ∧ a.2 j = c.1 i := by
  obtain ⟨hr, hc⟩ := h.coherent hw
  obtain ⟨w, hi⟩ := hr.inv hw (by have := i.2; omega)
  exact stored_lists hw hi hc i id

theorem Coherent.iterators (hc : Coherent g i p τ b) (id : Int) (hid : (hoodFor g p id).isSome = true)
    (hb : b = true ∨ id = defaultId) :
    ∃ k, storedPtr τ id = .ok k ∧ storedAll τ id = .ok k.all ∧ updatePointers g i p id = .ok k := by
  unfold storedPtr storedAll
  by_cases e : id = defaultId
  · subst e
    rw [if_pos rfl, if_pos rfl]
    exact ⟨_, rfl, rfl, hc.ptr.1 rfl⟩
  · rw [if_neg e, if_neg e]
    have hb := hb.resolve_right e
    unfold hoodFor at hid
    rw [if_neg e] at hid
    obtain ⟨k, hk⟩ := Option.isSome_iff_exists.1 (hc.made hb id hid)
    obtain ⟨-, h2, h3⟩ := hc.userPtr id k hk
    exact ⟨k, Out.at_some hk, Out.at_some h3, h2⟩

/-- C80: stored iterators, of user neighborhoods unless the grid is a copy of another one since whose construction
cells have neither been refined or unrefined nor load balanced. Ranges they give are as in C38. -/
theorem C80_iterators_partial (hw : g.WF) (h : WithStore g dflt maxTag s σ b) (i : Fin n) (id : Int)
    (hid : (hoodFor g (s i) id).isSome = true) (hb : b = true ∨ id = defaultId) :
    ∃ k, storedPtr (σ i) id = .ok k ∧ storedAll (σ i) id = .ok k.all ∧ updatePointers g i (s i) id = .ok k :=
  ((h.coherent hw).2 i).iterators id hid hb

theorem Coherent.no_stale (hc : Coherent g i p τ b) (id : Int) {k : Cache} (hk : storedPtr τ id = .ok k) :
    (hoodFor g p id).isSome = true ∧ updatePointers g i p id = .ok k ∧ storedAll τ id = .ok k.all := by
  unfold storedPtr at hk
  unfold storedAll
  by_cases e : id = defaultId
  · subst e
    rw [if_pos rfl] at hk ⊢
    injection hk with hk
    subst hk
    exact ⟨by unfold hoodFor; rw [if_pos rfl]; rfl, hc.ptr.1 rfl, rfl⟩
  · rw [if_neg e] at hk ⊢
    have hk' : τ.userPtr id = some k := by
      unfold Out.at at hk
      cases hx : τ.userPtr id with
      | none => rw [hx] at hk; cases hk
      | some k' => rw [hx] at hk; injection hk with hk; rw [hk]
    obtain ⟨h1, h2, h3⟩ := hc.userPtr id k hk'
    exact ⟨by unfold hoodFor; rw [if_neg e]; exact h1, h2, Out.at_some h3⟩

/-- C80: iterators that exist are never out of date, also those of copies. -/
theorem C80_no_stale_iterators (hw : g.WF) (h : WithStore g dflt maxTag s σ b) (i : Fin n) (id : Int) {k : Cache}
    (hk : storedPtr (σ i) id = .ok k) :
    (hoodFor g (s i) id).isSome = true ∧ updatePointers g i (s i) id = .ok k ∧ storedAll (σ i) id = .ok k.all :=
  ((h.coherent hw).2 i).no_stale id hk

/-- C80: a copy does not have iterators of user neighborhoods, although it has the neighborhoods. -/
theorem C80_copy {D' : Type} {dflt' : D'} {σ' : Fin n → Store n}
    (hc : (Out.collect fun i => copyStore g (copyProc g dflt' i (s i)) (σ i)) = .ok σ') (i : Fin n) (id : Int)
    (hid : id ≠ defaultId) :
    hoodFor g (copyGrid g dflt' s i) id = hoodFor g (s i) id ∧ storedPtr (σ' i) id = .throws ∧
    storedAll (σ' i) id = .throws := by
  have h1 := Out.collect_inv hc i
  refine ⟨rfl, ?_⟩
  unfold copyStore updatePtr at h1
  obtain ⟨k, -, h2⟩ := Out.bind_inv h1
  injection h2 with h2
  unfold storedPtr storedAll
  rw [if_neg hid, if_neg hid, ← h2]
  exact ⟨rfl, rfl⟩

/-- C80: `remove_neighborhood` leaves the range of all cells of the neighborhood. -/
theorem C80_removed {σ' : Fin n → Store n} {id : Int}
    (hs : stepStored g dflt maxTag s σ (.removeHood id) = .ok (s', σ')) (i : Fin n) (hid : id ≠ defaultId) :
    storedPtr (σ' i) id = .throws ∧ storedAll (σ' i) id = storedAll (σ i) id := by
  obtain ⟨s1, -, h2⟩ := Out.bind_inv hs
  obtain ⟨σ1, h3, h4⟩ := Out.bind_inv h2
  injection h4 with h4
  injection h4 with h4 h5
  subst h5
  have h6 := Out.collect_inv h3 i
  injection h6 with h6
  rw [← h6]
  unfold storedPtr storedAll removeStore
  rw [if_neg hid, if_neg hid, if_neg hid]
  refine ⟨?_, rfl⟩
  unfold Out.at eraseAt
  simp

/-! ## Examples -/

/-- The demo grid to which a neighborhood with the cell on the negative side of x has been added. -/
theorem tiny_hood : ∃ (s : Sys 2 Nat Nat) (σ : Fin 2 → Store 2), WithStore tinyG 0 146 s σ true ∧
    ∀ i, (s i).hoods = [(5, [v3 (-1) 0 0])] := by
  obtain ⟨s, h1, h2, h3, h4, h5⟩ := tiny_init
  obtain ⟨σ, b, hst⟩ := h2.stored tiny_wf
  have hfst : ∃ σ, WithStore tinyG 0 146 s σ true := by
    obtain ⟨σ, e1, -⟩ := Out.collect_all (f := fun i => initStore tinyG 146 i (s i)) (P := fun _ _ => True) (fun i => by
      obtain ⟨w, hg⟩ := h2.good tiny_wf i
      obtain ⟨s', f1, f2, f3⟩ := createGrid_spec (W := Nat) (n := 2) tiny_wf (by omega) 0
        (fitsTags_mono (by rw [tiny_last]; exact Nat.le_refl _) (fitsTags_last (createLevel0_tiled tiny_wf (by omega)).valid))
      rw [h1] at f1
      injection f1 with f1
      subst f1
      obtain ⟨σ', e1, -⟩ := initStore_ok tiny_wf hg (f3 i).2.1
      exact ⟨σ', e1, trivial⟩)
    exact ⟨σ, .init h1 e1⟩
  obtain ⟨σ, hst⟩ := hfst
  obtain ⟨s1, e1, e2⟩ := tiny_step h2 (.addHood 5 [v3 (-1) 0 0]) trivial trivial
  obtain ⟨σ', hσ⟩ := (C80_histories tiny_wf).2 hst (.addHood 5 [v3 (-1) 0 0]) trivial e1
  refine ⟨s1, σ', .step (.addHood 5 [v3 (-1) 0 0]) hst trivial hσ, ?_⟩
  obtain ⟨r, f1, f2⟩ := Out.bind_inv e1
  injection f2 with f2; subst f2
  intro i
  have f3 := addHood_inv (b := (r i).1) (p' := (r i).2) (Out.collect_inv f1 i)
  obtain ⟨s', k1, k2, k3⟩ := createGrid_spec (W := Nat) (n := 2) tiny_wf (by omega) 0
    (fitsTags_mono (by rw [tiny_last]; exact Nat.le_refl _) (fitsTags_last (createLevel0_tiled tiny_wf (by omega)).valid))
  rw [h1] at k1
  injection k1 with k1
  subst k1
  have f4 := f3.1.2 ⟨by decide, by rw [(k3 i).2.1]; rfl, by
    intro o ho
    rw [List.mem_singleton.1 ho]
    decide +kernel⟩
  show (r i).2.hoods = _
  rw [f3.2.2 f4]
  show _ :: (s i).hoods = _
  rw [(k3 i).2.1]

/-- C80: iterators of neighborhoods do not always exist: a copy of a grid with a neighborhood has the neighborhood and its lists of
neighbors but `local_cells` and others throw. -/
theorem C80_iterators_false : ∃ (s : Sys 2 Nat Nat) (σ : Fin 2 → Store 2) (b : Bool) (id : Int),
    WithStore tinyG 0 146 s σ b ∧ (∀ i, (hoodFor tinyG (s i) id).isSome = true) ∧
    (∀ i c, storedOf (s i) (σ i) c id = .ok (getNeighborsOf tinyG (s i) c id)) ∧
    ∀ i, storedPtr (σ i) id = .throws := by
  obtain ⟨s, σ, h1, h2⟩ := tiny_hood
  obtain ⟨hr, hc⟩ := h1.coherent tiny_wf
  have hr' : Reachable tinyG 0 146 (copyGrid tinyG 0 s) := .copy hr
  obtain ⟨σ', e1, -⟩ := Out.collect_all (f := fun i => copyStore tinyG (copyProc tinyG 0 i (s i)) (σ i))
    (P := fun _ _ => True) (fun i => by
      obtain ⟨w, hg⟩ := hr'.good tiny_wf i
      obtain ⟨σ2, e1, -⟩ := copyStore_ok tiny_wf (hc i) (dflt := 0) hg
      exact ⟨σ2, e1, trivial⟩)
  have hst : WithStore tinyG 0 146 (copyGrid tinyG 0 s) σ' false := .copy h1 e1
  refine ⟨_, σ', false, 5, hst, fun i => ?_, fun i c => (C80_neighbors tiny_wf hst i c 5).1, fun i => ?_⟩
  · rw [(C80_copy e1 i 5 (by decide)).1]
    unfold hoodFor
    rw [if_neg (by decide), h2 i]
    rfl
  · exact (C80_copy e1 i 5 (by decide)).2.1

/-- C80: after a neighborhood has been removed `all_cells` of it returns a range of cells that have been deallocated, instead of
throwing. -/
theorem C80_removed_false : ∃ (s : Sys 2 Nat Nat) (σ : Fin 2 → Store 2) (b : Bool) (id : Int),
    WithStore tinyG 0 146 s σ b ∧ (∀ i, hoodFor tinyG (s i) id = none) ∧
    ∀ i, storedPtr (σ i) id = .throws ∧ ∃ r, storedAll (σ i) id = .ok r := by
  obtain ⟨s, σ, h1, h2⟩ := tiny_hood
  obtain ⟨hr, hc⟩ := h1.coherent tiny_wf
  obtain ⟨s1, e1, e2⟩ := tiny_step hr (.removeHood 5) trivial trivial
  obtain ⟨σ', hσ⟩ := (C80_histories tiny_wf).2 h1 (.removeHood 5) trivial e1
  refine ⟨s1, σ', true, 5, .step (.removeHood 5) h1 trivial hσ, fun i => ?_, fun i => ?_⟩
  · injection e1 with e1
    subst e1
    show hoodFor tinyG (removeHood (s i) 5) 5 = none
    unfold hoodFor removeHood
    rw [if_neg (by decide), if_neg (by decide), h2 i]
    rfl
  · obtain ⟨k1, k2⟩ := C80_removed hσ i (by decide)
    refine ⟨k1, ?_⟩
    rw [k2]
    obtain ⟨k, -, a2, -⟩ := C80_iterators_partial tiny_wf h1 i 5 (by
      unfold hoodFor; rw [if_neg (by decide), h2 i]; rfl) (Or.inl rfl)
    exact ⟨k.all, a2⟩

/-- The demo grid with a neighborhood meets hypotheses of the theorems. -/
example : ∃ (s : Sys 2 Nat Nat) (σ : Fin 2 → Store 2), WithStore tinyG 0 146 s σ true ∧
    (∀ i, (hoodFor tinyG (s i) 5).isSome = true) ∧ (∃ k, storedPtr (σ 0) 5 = .ok k) ∧ ∃ k, storedPtr (σ 0) defaultId = .ok k := by
  obtain ⟨s, σ, h1, h2⟩ := tiny_hood
  have h3 : ∀ i, (hoodFor tinyG (s i) 5).isSome = true := by
    intro i; unfold hoodFor; rw [if_neg (by decide), h2 i]; rfl
  obtain ⟨k, e, -⟩ := C80_iterators_partial tiny_wf h1 0 5 (h3 0) (Or.inl rfl)
  exact ⟨s, σ, h1, h3, ⟨k, e⟩, _, rfl⟩

end Dccrg
