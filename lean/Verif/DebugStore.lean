import Verif.DebugSpec
/-!
# Debug builds store the same lists

Functions that store lists of neighbors, cells on process boundaries, cells to send and receive and iterators, with their checks
in debug builds, are equal to the functions without checks.
-/
namespace Dccrg
open Cfg
variable {n : Nat} {D W α β : Type} {g : Cfg} {w : Owner n}

/-- Loops with equal steps in states that satisfy an invariant. -/
theorem Out.fold_congr_inv {f f' : α → β → Out β} (P : β → Prop) : ∀ {l : List α} {b : β}, P b →
    (∀ a ∈ l, ∀ s, P s → f' a s = f a s) → (∀ a ∈ l, ∀ s s', P s → f a s = .ok s' → P s') →
    Out.fold f' l b = Out.fold f l b := by
  intro l
  induction l with
  | nil => intro b _ _ _; rfl
  | cons a l ih =>
    intro b hb h1 h2
    unfold Out.fold
    rw [h1 a List.mem_cons_self b hb]
    cases e : f a b with
    | ok b' =>
      exact ih (h2 a List.mem_cons_self b b' hb e) (fun x hx => h1 x (List.mem_cons_of_mem _ hx))
        (fun x hx => h2 x (List.mem_cons_of_mem _ hx))
    | throws => rfl
    | hangs => rfl
    | undef => rfl

/-! ## Lists of neighbors -/

section
variable (hw : g.WF) (ht : Tiled g (exist w)) (hb : Balanced g (exist w))
include hw ht hb

theorem dbgSix_true {c : Nat} (hc : exist w c = true) : dbgSix g (exist w) (nbr6 g (exist w) c) = true := by
  unfold dbgSix
  rw [decide_eq_true_eq]
  intro d b
  have h := C18_six hw ht ((balanced_iff hw ht).1 hb) hc d b rfl
  by_cases hq : g.InCover (fun e => if e = d then (if b then (g.idx c d : Int) + g.side c else g.idx c d - 1) else g.idx c e)
  · have he := (h.1 hq).1
    refine ⟨Or.inr (getChild_leaf hw ht he), Or.inr ⟨he, ?_⟩⟩
    by_cases h0 : g.lvl (nbr6 g (exist w) c d b) = 0
    · exact Or.inl h0
    · refine Or.inr ⟨ht.parent_gone hw he (by omega), ?_⟩
      by_cases hm : g.lvl (nbr6 g (exist w) c d b) = g.maxLvl
      · exact Or.inl hm
      · have := lvl_le (ht.valid _ he)
        exact Or.inr (ht.no_child hw he (by omega) (mem_children.2 ⟨fun _ => 0, fun _ => Nat.zero_le _, rfl⟩))
  · have e := h.2 hq
    rw [e]
    refine ⟨Or.inl ?_, Or.inl rfl⟩
    unfold getChild
    rw [if_pos fun hv => valid_ne_zero hv rfl]

theorem updateSixD_eq : updateSixD g w = .ok (sixOf g w) := by
  have : ∀ (l : List Nat) (m : Nat → Option (Fin 3 → Bool → Nat)), (∀ c ∈ l, exist w c = true) →
      Out.fold (fun c m => match sixEntry g (exist w) c with
        | some x => if dbgSix g (exist w) x then .ok (setAt m c x) else .throws
        | none => .ok m) l m = .ok (l.foldl (fun m c => match sixEntry g (exist w) c with
          | some x => setAt m c x
          | none => m) m) := by
    intro l
    induction l with
    | nil => intro m _; rfl
    | cons a l ih =>
      intro m h
      unfold Out.fold
      rw [List.foldl_cons, sixEntry_eq hw ht (h a List.mem_cons_self)]
      simp only []
      rw [dbgSix_true hw ht hb (h a List.mem_cons_self), if_pos rfl]
      exact ih _ fun c hc => h c (List.mem_cons_of_mem _ hc)
  rw [← updateSix_eq hw ht]
  exact this _ _ fun c hc => (mem_cellsIn ht).1 hc

theorem updateListsD_eq {σ : Store n} (hσ : σ.six = sixOf g w) : updateListsD g w σ = updateLists g w σ := by
  unfold updateListsD updateLists
  refine Out.fold_congr_inv (fun s => s.six = sixOf g w) hσ ?_ ?_
  · intro c hm s hs
    have hc := (mem_cellsIn ht).1 hm
    split
    · rfl
    · split
      · rfl
      · split
        · rfl
        · rw [hs, findOf_ok hw ht hb (fun o h => h) hc, Out.bind_ok, Out.bind_ok, findTo_ok hw ht hb (fun o h => h) hc,
            Out.bind_ok, Out.bind_ok]
          simp only []
          rw [dbgCell_true hw ht hb (fun o h => h) rfl hc (if_pos rfl) (if_pos rfl), Out.check_true,
            dbgOffsets_of hw ht hb (fun o h => h) hc, if_pos rfl]
  · intro c hm s s' hs h
    split at h
    · injection h with h; rw [← h]; exact hs
    · split at h
      · injection h with h; rw [← h]; exact hs
      · split at h
        · injection h with h; rw [← h]; exact hs
        · obtain ⟨l, -, h⟩ := Out.bind_inv h
          obtain ⟨r, -, h⟩ := Out.bind_inv h
          injection h with h; rw [← h]; exact hs

end

section
variable {maxTag : Nat} {i : Fin n} {p : Proc n D W} {σ : Store n} (hw : g.WF) (hg : Good g w maxTag i p)
include hw hg

theorem initListsD_eq (hσ : σ.six = sixOf g w) (h1 : σ.of = fun _ => none) (h2 : σ.to = fun _ => none)
    (h4 : σ.userOf = fun id => (p.hoods.lookup id).map (ofLists g w))
    (h5 : σ.userTo = fun id => (p.hoods.lookup id).map (toLists g w)) (h6 : dbgLevels g σ.ptr = true) :
    initListsD g i p σ = initLists g w σ := by
  have ht := hg.tiled
  have hb := hg.balanced
  unfold initListsD
  have e : Out.fold (fun c σ =>
      (findNeighborsOfT g (exist p.owner) σ.six c (hoodOf g)).bind fun l =>
      if dbgOffsets l = false then .throws
      else (findNeighborsTo0 g (exist p.owner) c (negHood (hoodOf g))).bind fun r =>
        .ok { σ with of := setAt σ.of c l, to := setAt σ.to c r }) (cellsIn g p.owner) σ = initLists g w σ := by
    unfold initLists
    rw [hg.owner]
    refine Out.fold_congr_inv (fun s => s.six = sixOf g w) hσ ?_ ?_
    · intro c hm s hs
      have hc := (mem_cellsIn ht).1 hm
      rw [hs, findOf_ok hw ht hb (fun o h => h) hc, Out.bind_ok, Out.bind_ok, dbgOffsets_of hw ht hb (fun o h => h) hc,
        if_neg (by simp)]
    · intro c hm s s' hs h
      obtain ⟨l, -, h⟩ := Out.bind_inv h
      obtain ⟨r, -, h⟩ := Out.bind_inv h
      injection h with h; rw [← h]; exact hs
  rw [e, initLists_eq hw ht hb hσ h1 h2, Out.bind_ok, dbgNeighbors_true hw hg (by exact hσ) rfl rfl (by exact h4) (by exact h5)
    (by exact h6), Out.check_true]

/-! ## Cells on process boundaries -/

theorem updateInfoD_eq (h1 : σ.six = sixOf g w) (h2 : σ.of = ofLists g w (hoodOf g)) (h3 : σ.to = toLists g w (hoodOf g)) :
    updateInfoD g i p σ = updateInfo g i p σ := by
  have ht := hg.tiled
  have hb := hg.balanced
  have ho := hg.owner
  have hd := hg.placed
  have hH : ∀ o ∈ hoodOf g, o ∈ hoodOf g := fun o h => h
  rw [updateInfo_eq' hw ht hb hH ho hd h2 h3]
  unfold updateInfoD
  rw [infoFold_eq hw ht hb hH ho hd, Out.bind_ok, dbgInfo_true hw ht hb ho hd (by exact h1) rfl rfl, Out.check_true]
  intro c A B hc
  have he := exist_of hc
  rw [if_neg (by rw [dbgLeaf_true hw ht ho hd hc]; simp)]
  have e : cellInfo i p.owner σ.of σ.to c (dedup A, dedup B) =
      .ok (dedup (A ++ (remoteNbrs g w (hoodOf g) i c).map fun _ => c), dedup (B ++ remoteNbrs g w (hoodOf g) i c)) := by
    unfold cellInfo
    rw [ho, hc, h2, h3]
    simp only [ne_eq, not_true, if_false]
    exact bothLoops_eq hw ht hb hH he A B
  rw [e, Out.bind_ok, ho, dbgInfoCell_true hw ht hb (by exact h1) (by exact h2) (by exact h3) he, Out.check_true]
  intro b hm
  simp only []
  rw [mem_dedup, mem_dedup]
  exact ⟨List.mem_append_right _ (List.mem_map.2 ⟨b, hm, rfl⟩), List.mem_append_right _ hm⟩

theorem updateUserInfoD_eq (h1 : σ.six = sixOf g w) (h2 : σ.of = ofLists g w (hoodOf g)) (h3 : σ.to = toLists g w (hoodOf g))
    (h4 : σ.loc = localBoundaryH g (hoodOf g) i p.owner p.has)
    (h5 : σ.rem = dedup (remoteBoundaryH g (hoodOf g) i p.owner p.has)) {id : Int} {H : List (V3 Int)}
    (hid : p.hoods.lookup id = some H)
    (h6 : σ.userOf id = some (ofLists g w H)) (h7 : σ.userTo id = some (toLists g w H)) :
    updateUserInfoD g i p id σ = updateUserInfo g i p id σ := by
  have ht := hg.tiled
  have hb := hg.balanced
  have ho := hg.owner
  have hd := hg.placed
  have hH := hg.lookup hid
  rw [updateUserInfo_eq hw ht hb hH ho hd h6 h7]
  unfold updateUserInfoD
  rw [infoFold_eq hw ht hb hH ho hd, Out.bind_ok]
  · simp only []
    rw [dbgInfo_true hw ht hb ho hd (by exact h1) (by exact h4) (by exact h5), Out.check_true]
  intro c A B hc
  have he := exist_of hc
  rw [if_neg (by rw [(hd c).2 hc, hid]; simp), Out.at_some h6, Out.bind_ok, Out.at_some h7, Out.bind_ok,
    if_neg (by unfold ofLists toLists; rw [if_pos he, if_pos he]; simp)]
  have e : userCellInfo g i p.owner (ofLists g w H) (toLists g w H) c (dedup A, dedup B) =
      .ok (dedup (A ++ (remoteNbrs g w H i c).map fun _ => c), dedup (B ++ remoteNbrs g w H i c)) := by
    unfold userCellInfo
    rw [ho, Out.at_some hc, Out.bind_ok, if_neg (by simp), if_neg (by simpa using (getChild_leaf hw ht he).symm)]
    exact bothLoops_eq hw ht hb hH he A B
  rw [e, Out.bind_ok, ho, dbgInfoCell_true hw ht hb h1 h2 h3 he, Out.check_true]
  intro b hm
  have hm' := hm
  unfold remoteNbrs remoteIn at hm
  rw [List.mem_filter, Bool.and_eq_true, bne_iff_ne, bne_iff_ne] at hm
  have hl : c ∈ σ.loc := by
    rw [h4, ho, mem_localBoundaryH hw ht hd]
    exact ⟨hc, b, hm.1, hm.2⟩
  refine ⟨hl, ?_⟩
  rw [h5, mem_dedup]
  unfold remoteBoundaryH
  rw [List.mem_flatMap]
  rw [h4] at hl
  refine ⟨c, hl, ?_⟩
  rw [ho]
  exact hm'

/-! ## Cells to send and receive -/

theorem listsFromD_eq {H : List (V3 Int)} (hH : H = hoodOf g ∨ ∃ id, p.hoods.lookup id = some H) :
    listsFromD g maxTag i w (ofLists g w H) (toLists g w H) (localBoundaryH g H i p.owner p.has) =
      listsFrom maxTag i w (ofLists g w H) (toLists g w H) (localBoundaryH g H i p.owner p.has) := by
  have ho := hg.owner
  have hs : ∀ o ∈ H, o ∈ hoodOf g := by
    rcases hH with rfl | ⟨id, h⟩
    · exact fun o h => h
    · exact hg.lookup h
  have ht := hg.tags hH
  rw [ho] at ht ⊢
  unfold listsFromD
  rw [if_neg, listsFrom_eq hw hg.tiled hg.balanced hs hg.placed ht.1 ht.2, Out.bind_ok, if_pos]
  · constructor
    · apply List.eq_nil_iff_forall_not_mem.2
      intro c hc
      exact ((mem_sendList hw hg.tiled hg.balanced hs hg.placed).1 hc).1 rfl
    · apply List.eq_nil_iff_forall_not_mem.2
      intro c hc
      exact ((mem_recvList hw hg.tiled hg.balanced hs hg.placed).1 hc).1 rfl
  · rintro ⟨c, hc, h⟩
    exact h (getChild_leaf hw hg.tiled (exist_of ((mem_localBoundaryH hw hg.tiled hg.placed).1 hc).1)).symm

theorem updateUserSendsD_eq {id : Int} {H : List (V3 Int)} (hH : p.hoods.lookup id = some H)
    (h1 : σ.userOf id = some (ofLists g w H)) (h2 : σ.userTo id = some (toLists g w H))
    (h3 : σ.userLoc id = some (localBoundaryH g H i p.owner p.has)) :
    updateUserSendsD g maxTag i p.owner id σ = updateUserSends maxTag i p.owner id σ := by
  unfold updateUserSendsD updateUserSends
  rw [Out.at_some h3, Out.bind_ok, Out.bind_ok, Out.at_some h1, Out.bind_ok, Out.bind_ok, Out.at_some h2, Out.bind_ok,
    Out.bind_ok]
  have := listsFromD_eq hw hg (Or.inr ⟨id, hH⟩)
  rw [hg.owner] at this ⊢
  rw [this]

theorem updateSendsD_eq (h0 : σ.of = ofLists g w (hoodOf g)) (h0' : σ.to = toLists g w (hoodOf g))
    (hl : σ.loc = localBoundaryH g (hoodOf g) i p.owner p.has)
    (h1 : σ.userOf = fun id => (p.hoods.lookup id).map (ofLists g w))
    (h2 : σ.userTo = fun id => (p.hoods.lookup id).map (toLists g w))
    (h3 : σ.userLoc = fun id => (p.hoods.lookup id).map fun H => localBoundaryH g H i p.owner p.has) :
    updateSendsD g maxTag i p σ = updateSends maxTag i p σ := by
  unfold updateSendsD updateSends
  have e := listsFromD_eq hw hg (Or.inl rfl)
  have e1 : listsFromD g maxTag i p.owner σ.of σ.to σ.loc = listsFrom maxTag i p.owner σ.of σ.to σ.loc := by
    rw [h0, h0', hl, hg.owner]
    rw [hg.owner] at e
    exact e
  rw [e1]
  cases listsFrom maxTag i p.owner σ.of σ.to σ.loc with
  | throws => rfl
  | hangs => rfl
  | undef => rfl
  | ok m =>
    rw [Out.bind_ok, Out.bind_ok]
    refine Out.fold_congr_inv (fun s => s.userOf = σ.userOf ∧ s.userTo = σ.userTo ∧ s.userLoc = σ.userLoc) ⟨rfl, rfl, rfl⟩ ?_ ?_
    · rintro x hx s ⟨f1, f2, f3⟩
      have hx := lookup_of_mem hg.keys hx
      exact updateUserSendsD_eq hw hg hx (by rw [f1, h1]; simp [hx]) (by rw [f2, h2]; simp [hx]) (by rw [f3, h3]; simp [hx])
    · rintro x hx s s' ⟨f1, f2, f3⟩ h
      unfold updateUserSends at h
      obtain ⟨_, -, h⟩ := Out.bind_inv h
      obtain ⟨_, -, h⟩ := Out.bind_inv h
      obtain ⟨_, -, h⟩ := Out.bind_inv h
      obtain ⟨_, -, h⟩ := Out.bind_inv h
      injection h with h
      rw [← h]; exact ⟨f1, f2, f3⟩

/-! ## Iterators -/

omit hw hg in
theorem itemsFrom_congr {f f' : Nat → Out (Nbrs × Nbrs × Nbrs)} {l : List Nat} (h : ∀ c ∈ l, f' c = f c) (start : Nat) :
    itemsFrom f' l start = itemsFrom f l start := by
  induction l generalizing start with
  | nil => rfl
  | cons a l ih =>
    unfold itemsFrom
    rw [h a List.mem_cons_self]
    cases f a with
    | ok x =>
      rw [Out.bind_ok, Out.bind_ok]
      simp only []
      rw [ih fun c hc => h c (List.mem_cons_of_mem _ hc)]
    | throws => rfl
    | hangs => rfl
    | undef => rfl

theorem pointersFromD_eq {id : Int} {H : List (V3 Int)} (hH : hoodFor g p id = some H)
    (h0 : σ.of = ofLists g w (hoodOf g)) (h0' : σ.to = toLists g w (hoodOf g))
    (h1 : σ.userOf = fun id => (p.hoods.lookup id).map (ofLists g w))
    (h2 : σ.userTo = fun id => (p.hoods.lookup id).map (toLists g w))
    (hr : σ.rem = dedup (remoteBoundaryH g (hoodOf g) i p.owner p.has)) (loc : List Nat) :
    pointersFromD g p σ id loc = pointersFrom g p σ id loc := by
  have hs := hg.hoodFor_sub hH
  unfold pointersFromD pointersFrom
  simp only []
  rw [itemsFrom_congr (f := setsOf p σ id)]
  intro c hc
  have he := cells_exist hw hg hr hc
  unfold setsOfD setsOf
  rw [storedOf_eq hw hg h0 h1, storedTo_eq hw hg h0' h2, getOf_eq hw hg hH hs he, getTo_eq hw hg hH hs he]
  simp only [Out.bind_ok]
  rw [if_neg (c := dbgOffsets _ = false ∨ _), if_neg (c := dbgOffsets _ = false)]
  · rw [Bool.not_eq_false]
    unfold dbgOffsets
    rw [List.all_eq_true]
    intro y hy
    have := (sets_facts hw hg.tiled hg.balanced hs he).1 y hy
    have h3 := dbgOffsets_of hw hg.tiled hg.balanced hs he
    unfold dbgOffsets at h3
    rw [List.all_eq_true] at h3
    exact h3 y this
  · rintro (h | ⟨b, hb, -, h⟩)
    · rw [dbgOffsets_of hw hg.tiled hg.balanced hs he] at h; cases h
    · rw [toList_zero hb] at h
      exact h 0 rfl

theorem updatePtrD_eq (h : Lists g i p σ) : updatePtrD g p σ = updatePtr g p σ := by
  have ho := hg.owner
  unfold updatePtrD updatePtr
  rw [pointersFromD_eq hw hg (hoodFor_default p) (by rw [← ho]; exact h.of) (by rw [← ho]; exact h.to)
    (by rw [← ho]; exact h.userOf) (by rw [← ho]; exact h.userTo) h.rem]

theorem updateUserPtrD_eq {a : Option Cache} (h : Half g i p σ a) (id : Int) :
    updateUserPtrD g p id σ = updateUserPtr g p id σ := by
  have ho := hg.owner
  unfold updateUserPtrD updateUserPtr
  split
  · rfl
  · rename_i hn
    cases hl : p.hoods.lookup id with
    | none => rw [hl] at hn; exact absurd rfl hn
    | some H =>
      have e := (hg.hoodFor (by rw [hl]; rfl)).trans hl
      congr 1
      funext loc
      rw [pointersFromD_eq hw hg e (by rw [← ho]; exact h.of) (by rw [← ho]; exact h.to)
        (by rw [← ho]; exact h.userOf) (by rw [← ho]; exact h.userTo) h.rem]

theorem userPtrsD_eq {a : Option Cache} (h : Half g i p σ a) :
    Out.fold (fun x σ => updateUserPtrD g p x.1 σ) p.hoods σ = Out.fold (fun x σ => updateUserPtr g p x.1 σ) p.hoods σ := by
  refine Out.fold_congr_inv (fun s => Half g i p s a) h ?_ ?_
  · intro x _ s hs
    exact updateUserPtrD_eq hw hg hs _
  · intro x _ s s' hs h
    unfold updateUserPtr at h
    split at h
    · cases h
    · obtain ⟨_, -, h⟩ := Out.bind_inv h
      obtain ⟨_, -, h⟩ := Out.bind_inv h
      injection h with h
      rw [← h]; exact hs.ptrs _ _

/-! ## What operations store -/

theorem userInfosD_eq (f1 : σ.six = sixOf g w) (f2 : σ.of = ofLists g w (hoodOf g)) (f3 : σ.to = toLists g w (hoodOf g))
    (f4 : σ.loc = localBoundaryH g (hoodOf g) i p.owner p.has) (f5 : σ.rem = dedup (remoteBoundaryH g (hoodOf g) i p.owner p.has))
    (f6 : σ.userOf = fun id => (p.hoods.lookup id).map (ofLists g w))
    (f7 : σ.userTo = fun id => (p.hoods.lookup id).map (toLists g w)) :
    Out.fold (fun x σ => updateUserInfoD g i p x.1 σ) p.hoods σ = Out.fold (fun x σ => updateUserInfo g i p x.1 σ) p.hoods σ := by
  refine Out.fold_congr_inv (fun s => s.six = σ.six ∧ s.of = σ.of ∧ s.to = σ.to ∧ s.loc = σ.loc ∧ s.rem = σ.rem ∧
    s.userOf = σ.userOf ∧ s.userTo = σ.userTo) ⟨rfl, rfl, rfl, rfl, rfl, rfl, rfl⟩ ?_ ?_
  · rintro x hx s ⟨e1, e2, e3, e4, e5, e6, e7⟩
    have hx := lookup_of_mem hg.keys hx
    exact updateUserInfoD_eq hw hg (e1.trans f1) (e2.trans f2) (e3.trans f3) (e4.trans f4) (e5.trans f5) hx
      (by rw [e6, f6]; simp [hx]) (by rw [e7, f7]; simp [hx])
  · intro x _ s s' hs h
    unfold updateUserInfo at h
    obtain ⟨_, -, h⟩ := Out.bind_inv h
    injection h with h
    rw [← h]; exact hs

theorem ptrsD_eq (h : Lists g i p σ) : ((updatePtrD g p σ).bind fun σ =>
    Out.fold (fun x σ => updateUserPtrD g p x.1 σ) p.hoods σ) = (updatePtr g p σ).bind fun σ =>
    Out.fold (fun x σ => updateUserPtr g p x.1 σ) p.hoods σ := by
  obtain ⟨k, e1, e2⟩ := h.updatePtr hw hg
  rw [updatePtrD_eq hw hg h, e1, Out.bind_ok, Out.bind_ok]
  exact userPtrsD_eq hw hg e2

theorem tailD_eq (hs : σ.six = sixOf g w) (ho' : σ.of = ofLists g w (hoodOf g)) (ht' : σ.to = toLists g w (hoodOf g))
    (hu : σ.userOf = fun id => (p.hoods.lookup id).map (ofLists g w)) (hv : σ.userTo = fun id => (p.hoods.lookup id).map (toLists g w))
    (k1 : ∀ id, p.hoods.lookup id = none → σ.userLoc id = none) (k2 : ∀ id, p.hoods.lookup id = none → σ.userRem id = none)
    (k3 : ∀ id, p.hoods.lookup id = none → σ.userSend id = none) (k4 : ∀ id, p.hoods.lookup id = none → σ.userRecv id = none) :
    ((updateInfoD g i p σ).bind fun σ =>
    (Out.fold (fun x σ => updateUserInfoD g i p x.1 σ) p.hoods σ).bind fun σ =>
    (updateSendsD g maxTag i p σ).bind fun σ =>
    (updatePtrD g p σ).bind fun σ =>
    Out.fold (fun x σ => updateUserPtrD g p x.1 σ) p.hoods σ) =
    (updateInfo g i p σ).bind fun σ =>
    (Out.fold (fun x σ => updateUserInfo g i p x.1 σ) p.hoods σ).bind fun σ =>
    (updateSends maxTag i p σ).bind fun σ =>
    (updatePtr g p σ).bind fun σ =>
    Out.fold (fun x σ => updateUserPtr g p x.1 σ) p.hoods σ := by
  have ho := hg.owner
  rw [updateInfoD_eq hw hg hs ho' ht', updateInfo_eq' hw hg.tiled hg.balanced (fun o h => h) ho hg.placed ho' ht', Out.bind_ok,
    Out.bind_ok, userInfosD_eq hw hg (by exact hs) (by exact ho') (by exact ht') rfl rfl (by exact hu) (by exact hv),
    infoHoods_eq hw hg (by exact hu) (by exact hv) (by exact k1) (by exact k2), Out.bind_ok,
    Out.bind_ok, updateSendsD_eq hw hg (by exact ho') (by exact ht') rfl (by exact hu) (by exact hv) rfl,
    updateSends_eq hw hg (by exact ho') (by exact ht') rfl (by exact hu) (by exact hv) rfl (by exact k3) (by exact k4),
    Out.bind_ok, Out.bind_ok]
  rw [← ho] at hs ho' ht' hu hv
  refine ptrsD_eq hw hg ?_
  constructor
  · exact hs
  · exact ho'
  · exact ht'
  · exact hu
  · exact hv
  all_goals rfl

/-- `execute_refines` and `finish_balance_load` store the same in debug builds. -/
theorem rebuildStoreD_eq (hk : Keyed p.hoods σ) (hl : dbgLevels g σ.ptr = true) (mid : Bool) :
    rebuildStoreD g maxTag mid i p σ = rebuildStore g maxTag i p σ := by
  have ho := hg.owner
  have ht := hg.tiled
  have hb := hg.balanced
  unfold rebuildStore rebuildStoreD
  simp only []
  rw [ho, updateSix_eq hw ht, updateSixD_eq hw ht hb, Out.bind_ok, updateListsD_eq hw ht hb rfl, updateLists_eq hw ht hb rfl,
    Out.bind_ok, Out.bind_ok,
    clearUserLists_eq hg.keys (by exact hk.userOf) (by exact hk.userTo), Out.bind_ok, Out.bind_ok,
    userLists_eq hw ht hb hg.keys hg.items rfl rfl rfl, Out.bind_ok, Out.bind_ok]
  have em : ∀ σ : Store n, σ.six = sixOf g w → σ.of = ofLists g w (hoodOf g) → σ.to = toLists g w (hoodOf g) →
      (σ.userOf = fun id => (p.hoods.lookup id).map (ofLists g w)) →
      (σ.userTo = fun id => (p.hoods.lookup id).map (toLists g w)) → dbgLevels g σ.ptr = true → 
      (if mid then dbgNeighbors g i p σ else .ok true) = .ok true := by
    intro σ f1 f2 f3 f4 f5 f6
    split
    · exact dbgNeighbors_true hw hg f1 f2 f3 f4 f5 f6
    · rfl
  rw [em _ rfl rfl rfl rfl rfl (by exact hl), Out.check_true]
  exact tailD_eq hw hg rfl rfl rfl rfl rfl hk.userLoc hk.userRem hk.userSend hk.userRecv

/-- `initialize` stores the same in debug builds. -/
theorem initStoreD_eq (hno : p.hoods = []) : initStoreD g maxTag i p = initStore g maxTag i p := by
  have ho := hg.owner
  have ht := hg.tiled
  have hb := hg.balanced
  have hH : ∀ o ∈ hoodOf g, o ∈ hoodOf g := fun o h => h
  have hl : ∀ {β : Type} (f : List (V3 Int) → β), (fun id => (p.hoods.lookup id).map f) = fun _ => none := by
    intro β f; funext id; rw [hno]; rfl
  generalize hlow : initStore g maxTag i p = x
  unfold initStore at hlow
  simp only [] at hlow
  rw [ho, updateSix_eq hw ht, initLists_eq hw ht hb rfl rfl rfl, Out.bind_ok] at hlow
  rw [← hlow]
  unfold initStoreD
  rw [ho, updateSixD_eq hw ht hb, Out.bind_ok, initListsD_eq hw hg rfl rfl rfl (hl _).symm (hl _).symm rfl,
    initLists_eq hw ht hb rfl rfl rfl, Out.bind_ok, updateInfoD_eq hw hg rfl rfl rfl,
    updateInfo_eq' hw ht hb hH ho hg.placed rfl rfl, Out.bind_ok, Out.bind_ok,
    dbgInfo_true hw ht hb ho hg.placed rfl rfl rfl, Out.check_true,
    updateSendsD_eq hw hg rfl rfl rfl (hl _).symm (hl _).symm (hl _).symm,
    updateSends_eq hw hg rfl rfl rfl (hl _).symm (hl _).symm (hl _).symm (fun _ _ => rfl) (fun _ _ => rfl), Out.bind_ok,
    Out.bind_ok]
  refine updatePtrD_eq hw hg ?_
  constructor <;> first | rfl | (simp only [ho]; done) | exact (hl _).symm

/-- `add_neighborhood` stores the same in debug builds. -/
theorem addStoreD_eq {p' : Proc n D W} {b : Bool} {a : Option Cache} (h : Coherent g i p σ b a) (hg' : Good g w maxTag i p')
    (h1 : p'.owner = p.owner) (h2 : p'.has = p.has) {id : Int} {items : List (V3 Int)} (hn : p.hoods.lookup id = none)
    (h3 : p'.hoods = (id, items) :: p.hoods) : addStoreD g maxTag i p' id items σ = addStore g maxTag i p' id items σ := by
  have ho := hg'.owner
  have ho' := hg.owner
  have hl : p'.hoods.lookup id = some items := by rw [h3]; simp [List.lookup_cons]
  have hl' : ∀ x, x ≠ id → p'.hoods.lookup x = p.hoods.lookup x := by
    intro x hx
    rw [h3, List.lookup_cons]
    have : (x == id) = false := by simpa using hx
    rw [this]
  have hx := hg'.lookup hl
  have ext : ∀ {β : Type} (f : List (V3 Int) → β) (u : Int → Option β), (u = fun id => (p.hoods.lookup id).map f) →
      setAt u id (f items) = fun id => (p'.hoods.lookup id).map f := by
    intro β f u hu
    funext x
    unfold setAt
    by_cases e : x = id
    · subst e; rw [if_pos rfl, hl]; rfl
    · rw [if_neg e, hu, hl' x e]
  have n1 : σ.userOf id = none := by rw [h.userOf]; simp [hn]
  have n2 : σ.userTo id = none := by rw [h.userTo]; simp [hn]
  have n3 : σ.userSend id = none := by rw [h.userSend]; simp [hn]
  have n4 : σ.userRecv id = none := by rw [h.userRecv]; simp [hn]
  have s1 : σ.six = sixOf g w := by rw [h.six, ho']
  have s2 : σ.of = ofLists g w (hoodOf g) := by rw [h.of, ho']
  have s3 : σ.to = toLists g w (hoodOf g) := by rw [h.to, ho']
  have s4 : σ.loc = localBoundaryH g (hoodOf g) i p'.owner p'.has := by rw [h1, h2]; exact h.loc
  have s5 : σ.rem = dedup (remoteBoundaryH g (hoodOf g) i p'.owner p'.has) := by rw [h1, h2]; exact h.rem
  have u1 : σ.userOf = fun id => (p.hoods.lookup id).map (ofLists g w) := by rw [← ho']; exact h.userOf
  have u2 : σ.userTo = fun id => (p.hoods.lookup id).map (toLists g w) := by rw [← ho']; exact h.userTo
  have main : ∀ σ' : Store n, σ'.of = σ.of → σ'.to = σ.to → σ'.rem = σ.rem → σ'.userOf = setAt σ.userOf id (ofLists g w items) →
      σ'.userTo = setAt σ.userTo id (toLists g w items) → updateUserPtrD g p' id σ' = updateUserPtr g p' id σ' := by
    intro σ' e1 e2 e3 e4 e5
    unfold updateUserPtrD updateUserPtr
    split
    · rfl
    · congr 1
      funext loc
      rw [pointersFromD_eq hw hg' ((hg'.hoodFor (by rw [hl]; rfl)).trans hl) (e1.trans s2) (e2.trans s3)
        (e4.trans (ext _ _ u1)) (e5.trans (ext _ _ u2)) (e3.trans s5)]
  unfold addStoreD addStore
  rw [if_neg (by rw [n1, n2, n3, n4]; simp), ho,
    addLists_eq hw hg'.tiled hg'.balanced (x := (id, items)) hx s1 n1 n2 (cellsIn_ne hw hg'.tiled), Out.bind_ok, Out.bind_ok,
    updateUserInfoD_eq hw hg' (by exact s1) (by exact s2) (by exact s3) (by exact s4) (by exact s5) hl (by exact if_pos rfl)
      (by exact if_pos rfl),
    updateUserInfo_eq (H := items) hw hg'.tiled hg'.balanced hx ho hg'.placed (by exact if_pos rfl) (by exact if_pos rfl),
    Out.bind_ok, Out.bind_ok]
  have e := updateUserSendsD_eq (σ := { σ with
      userOf := setAt σ.userOf id (ofLists g w items)
      userTo := setAt σ.userTo id (toLists g w items)
      userLoc := setAt σ.userLoc id (localBoundaryH g items i p'.owner p'.has)
      userRem := setAt σ.userRem id (dedup (remoteBoundaryH g items i p'.owner p'.has)) }) hw hg' hl
    (by exact if_pos rfl) (by exact if_pos rfl) (by exact if_pos rfl)
  have e' := userSends_eq (σ := { σ with
      userOf := setAt σ.userOf id (ofLists g w items)
      userTo := setAt σ.userTo id (toLists g w items)
      userLoc := setAt σ.userLoc id (localBoundaryH g items i p'.owner p'.has)
      userRem := setAt σ.userRem id (dedup (remoteBoundaryH g items i p'.owner p'.has)) }) hw hg' hl
    (by exact if_pos rfl) (by exact if_pos rfl) (by exact if_pos rfl)
  rw [ho] at e e'
  rw [ho, e, e', Out.bind_ok, Out.bind_ok]
  exact main _ rfl rfl rfl rfl rfl

end

end Dccrg
