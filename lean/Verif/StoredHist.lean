import Verif.StoredSpec
/-!
# What is stored after any history

Operations keep everything stored by processes up to date.
-/
namespace Dccrg
open Cfg
variable {n : Nat} {D W : Type} {g : Cfg} {w : Owner n} {s : Sys n D W} {dflt : D} {maxTag : Nat}

/-! ## Neighborhoods -/

/-- Identifiers of user neighborhoods are different and none is the default one. -/
def HoodIds (l : List (Int × List (V3 Int))) : Prop := (keys l).Nodup ∧ defaultId ∉ keys l

theorem hoodIds_filter {l : List (Int × List (V3 Int))} (h : HoodIds l) (f : Int × List (V3 Int) → Bool) :
    HoodIds (l.filter f) := by
  unfold HoodIds keys at *
  have hs : List.Sublist ((l.filter f).map fun x => x.1) (l.map fun x => x.1) := List.filter_sublist.map _
  exact ⟨hs.nodup h.1, fun hm => h.2 (hs.subset hm)⟩

/-- Operations other than those on neighborhoods and those which change the grid or its partition. -/
def Op.plain : Op n D W → Bool
  | .addHood _ _ => false
  | .removeHood _ => false
  | .stop _ => false
  | .balance _ => false
  | _ => true

theorem step_plain (hw : g.WF) {s' : Sys n D W} (hi : Inv g w s) {op : Op n D W} (hp : op.plain = true)
    (hs : step g dflt maxTag s op = .ok s') (i : Fin n) :
    (s' i).owner = (s i).owner ∧ (s' i).has = (s i).has ∧ (s' i).hoods = (s i).hoods := by
  have hset : ∀ (j : Fin n) (p' : Proc n D W), LocalOk g w j (s j) p' →
      (s.set j p' i).owner = (s i).owner ∧ (s.set j p' i).has = (s i).has ∧ (s.set j p' i).hoods = (s i).hoods := by
    intro j p' h1
    unfold Sys.set
    split
    · subst i
      refine ⟨h1.owner.trans (hi.sys.owner j).symm, funext fun c => ?_, h1.hoods⟩
      show (p'.data c).isSome = ((s j).data c).isSome
      rw [Bool.eq_iff_iff, h1.placed, hi.sys.placed j]
    · exact ⟨rfl, rfl, rfl⟩
  have hask : ∀ (j : Fin n) (o : Out (Bool × Req)), s.ask j o = .ok s' →
      (s' i).owner = (s i).owner ∧ (s' i).has = (s i).has ∧ (s' i).hoods = (s i).hoods := by
    intro j o h
    obtain ⟨⟨b, r⟩, h1, h2⟩ := Out.bind_inv h
    injection h2 with h2
    subst h2
    unfold Sys.set
    split
    · subst i; exact ⟨rfl, rfl, rfl⟩
    · exact ⟨rfl, rfl, rfl⟩
  cases op with
  | refine j c => exact hask j _ hs
  | unrefine j c => exact hask j _ hs
  | dontRefine j c => exact hask j _ hs
  | dontUnrefine j c => exact hask j _ hs
  | pin j c q => injection hs with hs; subst hs; exact hset j _ ((hi.local j).pin c q)
  | unpin j c => injection hs with hs; subst hs; exact hset j _ ((hi.local j).unpin c)
  | unpinLocal j => injection hs with hs; subst hs; exact hset j _ (hi.local j).unpinLocal
  | setWeight j c x => injection hs with hs; subst hs; exact hset j _ ((hi.local j).setWeight c x)
  | write j c v => injection hs with hs; subst hs; exact hset j _ ((hi.local j).write c v)
  | clearRefined j => injection hs with hs; subst hs; exact hset j _ (hi.local j).clearRefined
  | unpinAll => injection hs with hs; subst hs; exact ⟨rfl, rfl, rfl⟩
  | update id =>
    obtain ⟨r, h1, h2⟩ := Out.bind_inv hs
    injection h2 with h2; subst h2
    have h3 := (updateRemote_sound hw hi h1).2.1 i
    show (r i).2.owner = _ ∧ (r i).2.has = _ ∧ (r i).2.hoods = _
    rw [h3]; exact ⟨rfl, rfl, rfl⟩
  | addHood id items => cases hp
  | removeHood id => cases hp
  | stop z => cases hp
  | balance z => cases hp

theorem stop_hoods (hw : g.WF) {s' : Sys n D W} (hi : Inv g w s) {z : Bool}
    (hs : step g dflt maxTag s (.stop z) = .ok s') (i : Fin n) : (s' i).hoods = (s i).hoods := by
  obtain ⟨r, h1, h2⟩ := Out.bind_inv hs
  injection h2 with h2; subst h2
  exact ((stopRefining_sound hw hi.sys.core hi.req h1).1.exec i).hoods

theorem balance_hoods (hw : g.WF) {s' : Sys n D W} (hi : Inv g w s) {z : Op n D W} (hz : ∃ y, z = .balance y) (ho : z.Ok s)
    (hs : step g dflt maxTag s z = .ok s') (i : Fin n) : (s' i).hoods = (s i).hoods := by
  obtain ⟨y, rfl⟩ := hz
  have h1 := ho i
  rw [hi.sys.owner] at h1
  exact (balanceLoad_sound hw h1 hi.sys hs i).hoods

theorem inv_hoodIds (hw : g.WF) (hi : Inv g w s) (ih : ∀ i, HoodIds (s i).hoods) {op : Op n D W} {s' : Sys n D W}
    (ho : op.Ok s) (hs : step g dflt maxTag s op = .ok s') (i : Fin n) : HoodIds (s' i).hoods := by
  cases hp : op.plain with
  | true => rw [(step_plain hw hi hp hs i).2.2]; exact ih i
  | false =>
    cases op with
    | addHood id items =>
      obtain ⟨r, h1, h2⟩ := Out.bind_inv hs
      injection h2 with h2; subst h2
      have h3 := addHood_inv (b := (r i).1) (p' := (r i).2) (Out.collect_inv h1 i)
      show HoodIds (r i).2.hoods
      cases hb : (r i).1 with
      | false => rw [h3.2.1 hb]; exact ih i
      | true =>
        rw [h3.2.2 hb]
        have h4 := h3.1.1 hb
        refine ⟨List.nodup_cons.2 ⟨lookup_none_iff.1 h4.2.1, (ih i).1⟩, ?_⟩
        intro hm
        rcases List.mem_cons.1 hm with e | hm
        · exact h4.1 e.symm
        · exact (ih i).2 hm
    | removeHood id =>
      injection hs with hs; subst hs
      show HoodIds (Dccrg.removeHood (s i) id).hoods
      unfold Dccrg.removeHood
      split
      · exact ih i
      · exact hoodIds_filter (ih i) _
    | stop z => rw [stop_hoods hw hi hs]; exact ih i
    | balance z => rw [balance_hoods hw hi ⟨z, rfl⟩ ho hs]; exact ih i
    | _ => cases hp

theorem Reachable.hoodIds (hw : g.WF) (h : Reachable g dflt maxTag s) (i : Fin n) : HoodIds (s i).hoods := by
  have hn : 0 < n := by have := i.2; omega
  induction h generalizing i with
  | @init D dflt maxTag s hs =>
    have hM : maxTag ≤ max maxTag g.last := Nat.le_max_left _ _
    have hM' : g.last ≤ max maxTag g.last := Nat.le_max_right _ _
    obtain ⟨s', h1, h2, h3⟩ := createGrid_spec (W := W) hw hn dflt
      (fitsTags_mono hM' (fitsTags_last (createLevel0_tiled hw hn).valid))
    rw [createGrid_mono hM hs] at h1
    injection h1 with h1
    subst h1
    rw [(h3 i).2.1]
    exact ⟨List.nodup_nil, by simp [keys]⟩
  | copy hr ih => exact ih i
  | @step D dflt maxTag s s' op hr ho hs ih =>
    obtain ⟨w, hi⟩ := hr.inv hw hn
    exact inv_hoodIds hw hi ih ho hs i

/-- Every reachable state satisfies what the functions that store lists rely on. -/
theorem Reachable.good (hw : g.WF) (h : Reachable g dflt maxTag s) (i : Fin n) : ∃ w, Good g w maxTag i (s i) := by
  obtain ⟨w, hi⟩ := h.inv hw (by have := i.2; omega)
  exact ⟨w, hi.sys.owner i, hi.sys.tiled, hi.sys.balanced, hi.sys.placed i, hi.sys.hoods i, (h.hoodIds hw i).1,
    (h.hoodIds hw i).2, h.fresh hw i⟩

/-! ## Iterators -/

section
variable {i : Fin n} {p p' : Proc n D W} {σ : Store n} {b : Bool} {a : Option Cache}

theorem Good.pointers (hw : g.WF) (hg : Good g w maxTag i p) {id : Int} {H : List (V3 Int)}
    (hH : Dccrg.hoodFor g p id = some H) : ∃ k, updatePointers g i p id = .ok k := by
  obtain ⟨k, -, h⟩ := pointersFrom_eq (σ := { Store.empty n with
    of := ofLists g w (hoodOf g)
    to := toLists g w (hoodOf g)
    userOf := fun id => (p.hoods.lookup id).map (ofLists g w)
    userTo := fun id => (p.hoods.lookup id).map (toLists g w)
    rem := dedup (remoteBoundaryH g (hoodOf g) i p.owner p.has) }) hw hg hH rfl rfl rfl rfl rfl
  exact ⟨k, h⟩

/-- Iterators depend only on cells that exist, cells of the process and the neighborhood. -/
theorem updatePointers_congr {D' : Type} {p : Proc n D' W} {id : Int} {k : Cache} (h1 : p'.owner = p.owner) (h2 : p'.has = p.has)
    (h3 : hoodFor g p' id = hoodFor g p id) (hk : updatePointers g i p id = .ok k)
    (hok : ∃ k', updatePointers g i p' id = .ok k') : updatePointers g i p' id = .ok k := by
  obtain ⟨k', hk'⟩ := hok
  rw [hk']
  have e1 : ∀ c, getNeighborsOf g p' c id = getNeighborsOf g p c id := by
    intro c; unfold getNeighborsOf; rw [h1, h3]
  have e2 : ∀ c, getNeighborsTo g p' c id = getNeighborsTo g p c id := by
    intro c; unfold getNeighborsTo; rw [h1, h3]
  unfold updatePointers at hk hk'
  rw [h3] at hk'
  cases hH : hoodFor g p id with
  | none => rw [hH] at hk; cases hk
  | some H =>
    rw [hH] at hk hk'
    simp only [h1, h2, e1, e2] at hk'
    simp only [] at hk
    split at hk
    · cases hk
    · split at hk
      · cases hk
      · split at hk'
        · cases hk'
        · rw [← hk, ← hk']

theorem hoodFor_default (p : Proc n D W) : hoodFor g p defaultId = some (hoodOf g) := if_pos rfl

/-- Nothing has to be stored if neither the grid nor neighborhoods change. -/
theorem Coherent.same (hw : g.WF) (h : Coherent g i p σ b a) (hg : Good g w maxTag i p) (hg' : Good g w maxTag i p') (h1 : p'.owner = p.owner)
    (h2 : p'.has = p.has) (h3 : p'.hoods = p.hoods) : Coherent g i p' σ b a := by
  have hf : ∀ id, hoodFor g p' id = hoodFor g p id := by intro id; unfold hoodFor; rw [h3]
  constructor
  · rw [h1]; exact h.six
  · rw [h1]; exact h.of
  · rw [h1]; exact h.to
  · rw [h1, h3]; exact h.userOf
  · rw [h1, h3]; exact h.userTo
  · rw [h1, h2]; exact h.loc
  · rw [h1, h2]; exact h.rem
  · rw [h1, h2, h3]; exact h.userLoc
  · rw [h1, h2, h3]; exact h.userRem
  · rw [h1, h2]; exact h.send
  · rw [h1, h2]; exact h.recv
  · rw [h1, h2, h3]; exact h.userSend
  · rw [h1, h2, h3]; exact h.userRecv
  · exact ⟨fun e => updatePointers_congr h1 h2 (hf _) (h.ptr.1 e) (hg'.pointers hw (hoodFor_default p')), h.ptr.2⟩
  · intro id k hk
    obtain ⟨e1, e2, e3⟩ := h.userPtr id k hk
    obtain ⟨H, hH⟩ := Option.isSome_iff_exists.1 e1
    exact ⟨by rw [h3]; exact e1, updatePointers_congr h1 h2 (hf _) e2
      (hg'.pointers hw ((hf id).trans ((hg.hoodFor e1).trans hH))), e3⟩
  · rw [h3]; exact h.made

theorem cellsIn_ne (hw : g.WF) (ht : Tiled g (exist w)) : cellsIn g w ≠ [] := by
  obtain ⟨c, hc, -⟩ := ht.cover (fun _ => 0) (fun k => by
    have := hw k
    show 0 < g.n k
    unfold Cfg.n
    exact Nat.mul_pos this (Nat.pow_pos (by omega)))
  intro e
  have := (mem_cellsIn ht).2 hc
  rw [e] at this; cases this

/-- `add_neighborhood` stores everything for a new neighborhood. -/
theorem addStore_ok (hw : g.WF) (h : Coherent g i p σ b a) (hg : Good g w maxTag i p) (hg' : Good g w maxTag i p')
    (h1 : p'.owner = p.owner) (h2 : p'.has = p.has) {id : Int} {items : List (V3 Int)} (hn : p.hoods.lookup id = none)
    (hd : id ≠ defaultId) (h3 : p'.hoods = (id, items) :: p.hoods) :
    ∃ σ', addStore g maxTag i p' id items σ = .ok σ' ∧ Coherent g i p' σ' b a := by
  have ho := hg'.owner
  have hl : p'.hoods.lookup id = some items := by rw [h3]; simp [List.lookup_cons]
  have hl' : ∀ x, x ≠ id → p'.hoods.lookup x = p.hoods.lookup x := by
    intro x hx
    rw [h3, List.lookup_cons]
    have : (x == id) = false := by simpa using hx
    rw [this]
  have hx := hg'.lookup hl
  have ext : ∀ {β : Type} (f : List (V3 Int) → β) (u : Int → Option β), (u = fun id => (p.hoods.lookup id).map f) →
      setAt u id (f items) = fun id => (p'.hoods.lookup id).map f := by
    intro β f u hu
    funext x
    unfold setAt
    by_cases e : x = id
    · subst e; rw [if_pos rfl, hl]; rfl
    · rw [if_neg e, hu, hl' x e]
  have main : ∀ σ, Half g i p' σ a → (∀ x k, σ.userPtr x = some k →
      (p.hoods.lookup x).isSome = true ∧ updatePointers g i p x = .ok k ∧ σ.userAll x = some k.all) →
      (b = true → ∀ id, (p.hoods.lookup id).isSome = true → (σ.userPtr id).isSome = true) →
      ∃ σ', updateUserPtr g p' id σ = .ok σ' ∧ Coherent g i p' σ' b a := by
    intro σ hh hp hm
    obtain ⟨k, e1, e2⟩ := hh.userPtr hw hg' (id := id) (by rw [hl]; rfl)
    refine ⟨_, e1, (hh.ptrs _ _).coherent ?_ ?_⟩
    · intro x k' hk
      have hk : setAt σ.userPtr id k x = some k' := hk
      show _ ∧ _ ∧ setAt σ.userAll id k.all x = some k'.all
      unfold setAt at hk ⊢
      by_cases e : x = id
      · subst e
        rw [if_pos rfl] at hk ⊢
        injection hk with hk; subst hk
        exact ⟨by rw [hl]; rfl, e2, rfl⟩
      · rw [if_neg e] at hk ⊢
        obtain ⟨f1, f2, f3⟩ := hp x k' hk
        have f4 : (p'.hoods.lookup x).isSome = true := by rw [hl' x e]; exact f1
        obtain ⟨H, hH⟩ := Option.isSome_iff_exists.1 f4
        have f5 := (hg'.hoodFor f4).trans hH
        refine ⟨f4, updatePointers_congr h1 h2 ?_ f2 (hg'.pointers hw f5), f3⟩
        rw [hg'.hoodFor f4, hg.hoodFor f1, hl' x e]
    · intro hb x hx
      show (setAt σ.userPtr id k x).isSome = true
      unfold setAt
      by_cases e : x = id
      · rw [if_pos e]; rfl
      · rw [if_neg e]; rw [hl' x e] at hx; exact hm hb x hx
  unfold addStore
  rw [ho, addLists_eq hw hg'.tiled hg'.balanced (x := (id, items)) hx (by rw [h.six, hg.owner])
      (by show σ.userOf id = none; rw [h.userOf]; simp [hn]) (by show σ.userTo id = none; rw [h.userTo]; simp [hn])
      (cellsIn_ne hw hg'.tiled),
    Out.bind_ok, updateUserInfo_eq (H := items) hw hg'.tiled hg'.balanced hx ho hg'.placed
      (by exact if_pos rfl) (by exact if_pos rfl), Out.bind_ok, ← ho,
    userSends_eq (H := items) hw hg' hl (by rw [← ho]; exact if_pos rfl) (by rw [← ho]; exact if_pos rfl) (by exact if_pos rfl),
    Out.bind_ok]
  refine main _ ⟨⟨?_, ?_, ?_, ?_, ?_, ?_, ?_, ?_, ?_, ?_, ?_, ?_, ?_⟩, ?_⟩ h.userPtr h.made
  · rw [h1]; exact h.six
  · rw [h1]; exact h.of
  · rw [h1]; exact h.to
  · exact ext _ _ (by rw [h1]; exact h.userOf)
  · exact ext _ _ (by rw [h1]; exact h.userTo)
  · rw [h1, h2]; exact h.loc
  · rw [h1, h2]; exact h.rem
  · exact ext (fun H => localBoundaryH g H i p'.owner p'.has) _ (by rw [h1, h2]; exact h.userLoc)
  · exact ext (fun H => dedup (remoteBoundaryH g H i p'.owner p'.has)) _ (by rw [h1, h2]; exact h.userRem)
  · rw [h1, h2]; exact h.send
  · rw [h1, h2]; exact h.recv
  · exact ext (fun H => sendList g H i p'.owner p'.has) _ (by rw [h1, h2]; exact h.userSend)
  · exact ext (fun H => recvList g H i p'.owner p'.has) _ (by rw [h1, h2]; exact h.userRecv)
  · exact ⟨fun e => updatePointers_congr h1 h2 ((hoodFor_default p').trans (hoodFor_default p).symm) (h.ptr.1 e)
      (hg'.pointers hw (hoodFor_default p')), h.ptr.2⟩

theorem lookup_filter_ne (l : List (Int × List (V3 Int))) (id x : Int) :
    (l.filter fun y => y.1 != id).lookup x = if x = id then none else l.lookup x := by
  induction l with
  | nil => simp
  | cons a l ih =>
    by_cases ha : a.1 = id
    · rw [List.filter_cons_of_neg (by simp [ha]), ih, List.lookup_cons]
      by_cases hx : x = id
      · rw [if_pos hx, if_pos hx]
      · rw [if_neg hx, if_neg hx]
        have : (x == a.1) = false := by rw [ha]; simpa using hx
        rw [this]
    · rw [List.filter_cons_of_pos (by simpa using ha), List.lookup_cons, List.lookup_cons, ih]
      by_cases hx : x = id
      · rw [if_pos hx, if_pos hx]
        have : (x == a.1) = false := by rw [hx]; simpa using fun e => ha e.symm
        rw [this]
      · rw [if_neg hx, if_neg hx]

/-- `remove_neighborhood` leaves everything else as it was. -/
theorem removeStore_ok (hw : g.WF) (h : Coherent g i p σ b a) (hg : Good g w maxTag i p) {id : Int}
    (hg' : Good g w maxTag i (Dccrg.removeHood p id)) : Coherent g i (Dccrg.removeHood p id) (removeStore id σ) b a := by
  by_cases hid : id = defaultId
  · have e1 : Dccrg.removeHood p id = p := by unfold Dccrg.removeHood; rw [if_pos hid]
    unfold removeStore
    rw [if_pos hid, e1]
    exact h
  · have e1 : Dccrg.removeHood p id = { p with hoods := p.hoods.filter fun h => h.1 != id } := by
      unfold Dccrg.removeHood; rw [if_neg hid]
    have e2 : ∀ x, (Dccrg.removeHood p id).hoods.lookup x = if x = id then none else p.hoods.lookup x := by
      intro x; rw [e1]; exact lookup_filter_ne p.hoods id x
    have ho : (Dccrg.removeHood p id).owner = p.owner := by rw [e1]
    have hh : (Dccrg.removeHood p id).has = p.has := by rw [e1]; rfl
    have ext : ∀ {β : Type} (f : List (V3 Int) → β) (u : Int → Option β), (u = fun id => (p.hoods.lookup id).map f) →
        eraseAt u id = fun x => ((Dccrg.removeHood p id).hoods.lookup x).map f := by
      intro β f u hu
      funext x
      rw [e2]
      unfold eraseAt
      by_cases e : x = id
      · rw [if_pos e, if_pos e]; rfl
      · rw [if_neg e, if_neg e, hu]
    unfold removeStore
    rw [if_neg hid]
    refine Half.coherent ⟨⟨?_, ?_, ?_, ?_, ?_, ?_, ?_, ?_, ?_, ?_, ?_, ?_, ?_⟩, ?_⟩ ?_ ?_
    · rw [ho]; exact h.six
    · rw [ho]; exact h.of
    · rw [ho]; exact h.to
    · exact ext _ _ (by rw [ho]; exact h.userOf)
    · exact ext _ _ (by rw [ho]; exact h.userTo)
    · rw [ho, hh]; exact h.loc
    · rw [ho, hh]; exact h.rem
    · rw [ho, hh]; exact ext (fun H => localBoundaryH g H i p.owner p.has) _ h.userLoc
    · rw [ho, hh]; exact ext (fun H => dedup (remoteBoundaryH g H i p.owner p.has)) _ h.userRem
    · rw [ho, hh]; exact h.send
    · rw [ho, hh]; exact h.recv
    · rw [ho, hh]; exact ext (fun H => sendList g H i p.owner p.has) _ h.userSend
    · rw [ho, hh]; exact ext (fun H => recvList g H i p.owner p.has) _ h.userRecv
    · exact ⟨fun e => updatePointers_congr ho hh ((hoodFor_default _).trans (hoodFor_default p).symm) (h.ptr.1 e)
        (hg'.pointers hw (hoodFor_default _)), h.ptr.2⟩
    · intro x k hk
      have hk : eraseAt σ.userPtr id x = some k := hk
      unfold eraseAt at hk
      by_cases e : x = id
      · rw [if_pos e] at hk; cases hk
      · rw [if_neg e] at hk
        obtain ⟨f1, f2, f3⟩ := h.userPtr x k hk
        have f4 : ((Dccrg.removeHood p id).hoods.lookup x).isSome = true := by rw [e2, if_neg e]; exact f1
        obtain ⟨H, hH⟩ := Option.isSome_iff_exists.1 f4
        refine ⟨f4, updatePointers_congr ho hh ?_ f2 (hg'.pointers hw ((hg'.hoodFor f4).trans hH)), f3⟩
        rw [hg'.hoodFor f4, hg.hoodFor f1, e2, if_neg e]
    · intro hb x hx
      show (eraseAt σ.userPtr id x).isSome = true
      unfold eraseAt
      rw [e2] at hx
      by_cases e : x = id
      · rw [if_pos e] at hx; cases hx
      · rw [if_neg e] at hx ⊢; exact h.made hb x hx

/-- A copy has everything except iterators of user neighborhoods. -/
theorem copyStore_ok (hw : g.WF) {D0 : Type} {q : Proc n D0 W} {dflt : D} (h : Coherent g i q σ b a)
    (hg' : Good g w maxTag i (copyProc g dflt i q)) :
    ∃ σ', copyStore g (copyProc g dflt i q) σ = .ok σ' ∧ Coherent g i (copyProc g dflt i q) σ' false := by
  have hh : (copyProc g dflt i q).has = q.has := by
    funext c
    show ((q.data c).map fun _ => dflt).isSome = _
    rw [Option.isSome_map]; rfl
  have hl : Lists g i (copyProc g dflt i q) { σ with
      ptr := Cache.none
      userPtr := fun _ => none
      userAll := fun _ => none } := by
    constructor
    · exact h.six
    · exact h.of
    · exact h.to
    · exact h.userOf
    · exact h.userTo
    · rw [hh]; exact h.loc
    · rw [hh]; exact h.rem
    · rw [hh]; exact h.userLoc
    · rw [hh]; exact h.userRem
    · rw [hh]; exact h.send
    · rw [hh]; exact h.recv
    · rw [hh]; exact h.userSend
    · rw [hh]; exact h.userRecv
  obtain ⟨k, e1, e2⟩ := hl.updatePtr hw hg'
  exact ⟨_, e1, e2.coherent (fun x k hk => by cases hk) (fun hb => by cases hb)⟩

end

/-! ## Histories -/

theorem Out.collect_all {β : Type} {f : Fin n → Out β} {P : Fin n → β → Prop} (h : ∀ i, ∃ x, f i = .ok x ∧ P i x) :
    ∃ r, Out.collect f = .ok r ∧ ∀ i, P i (r i) :=
  ⟨fun i => Classical.choose (h i), Out.collect_ok fun i => (Classical.choose_spec (h i)).1,
    fun i => (Classical.choose_spec (h i)).2⟩

/-- Operations store everything and nothing more can go wrong in them. -/
theorem inv_storeAfter (hw : g.WF) {s' : Sys n D W} (hi : Inv g w s) {op : Op n D W} (ho : op.Ok s)
    (hs : step g dflt maxTag s op = .ok s') {i : Fin n} {w1 w' : Owner n} (hg : Good g w1 maxTag i (s i))
    (hg' : Good g w' maxTag i (s' i)) {σ : Store n} {b : Bool} {a : Option Cache} (hc : Coherent g i (s i) σ b a) :
    ∃ σ', storeAfter g maxTag op i (s i) (s' i) σ = .ok σ' ∧
      Coherent g i (s' i) σ' (op.makes b) (if op.makes false then none else a) := by
  cases hp : op.plain with
  | true =>
    obtain ⟨h1, h2, h3⟩ := step_plain hw hi hp hs i
    have ew : w' = w1 := by rw [← hg'.owner, ← hg.owner, h1]
    subst ew
    refine ⟨σ, ?_, ?_⟩
    · cases op <;> first | rfl | cases hp
    · have e : op.makes b = b := by cases op <;> first | rfl | cases hp
      have e' : op.makes false = false := by cases op <;> first | rfl | cases hp
      rw [e, e']
      exact hc.same hw hg hg' h1 h2 h3
  | false =>
    cases op with
    | addHood id items =>
      obtain ⟨r, h1, h2⟩ := Out.bind_inv hs
      injection h2 with h2
      have e' : s' i = (r i).2 := by rw [← h2]
      have hx := Out.collect_inv h1 i
      have h3 := addHood_inv (b := (r i).1) (p' := (r i).2) hx
      unfold storeAfter
      simp only []
      by_cases hcond : id = defaultId ∨ ((s i).hoods.lookup id).isSome = true ∨ items.all (itemOk g) = false
      · rw [if_pos hcond]
        have hb : (r i).1 = false := by
          unfold Dccrg.addHood at hx
          rcases hcond with e | e | e
          · rw [if_pos e] at hx; injection hx with hx; rw [← hx]
          · by_cases e0 : id = defaultId
            · rw [if_pos e0] at hx; injection hx with hx; rw [← hx]
            · rw [if_neg e0, if_pos e] at hx; injection hx with hx; rw [← hx]
          · by_cases e0 : id = defaultId
            · rw [if_pos e0] at hx; injection hx with hx; rw [← hx]
            · rw [if_neg e0] at hx
              by_cases e2 : ((s i).hoods.lookup id).isSome = true
              · rw [if_pos e2] at hx; injection hx with hx; rw [← hx]
              · rw [if_neg e2, if_pos e] at hx; injection hx with hx; rw [← hx]
        rw [e', h3.2.1 hb]
        exact ⟨σ, rfl, hc⟩
      · rw [if_neg hcond]
        have hb : (r i).1 = true := by
          unfold Dccrg.addHood at hx
          rw [if_neg (fun e => hcond (Or.inl e)), if_neg (fun e => hcond (Or.inr (Or.inl e))),
            if_neg (fun e => hcond (Or.inr (Or.inr e)))] at hx
          split at hx
          · cases hx
          · split at hx
            · cases hx
            · injection hx with hx; rw [← hx]
        have h4 := h3.1.1 hb
        have h5 := h3.2.2 hb
        rw [← e'] at h5
        have ew : w' = w1 := by rw [← hg'.owner, ← hg.owner, h5]
        subst ew
        exact addStore_ok hw hc hg hg' (by rw [h5]) (by rw [h5]; rfl) h4.2.1 h4.1 (by rw [h5])
    | removeHood id =>
      injection hs with hs
      have e' : s' i = Dccrg.removeHood (s i) id := by rw [← hs]
      refine ⟨_, rfl, ?_⟩
      rw [e'] at hg' ⊢
      have ew : w' = w1 := by
        rw [← hg'.owner, ← hg.owner]
        unfold Dccrg.removeHood
        split <;> rfl
      subst ew
      exact removeStore_ok hw hc hg hg'
    | stop z =>
      have e := stop_hoods hw hi hs i
      have hk := hc.keyed
      rw [← e] at hk
      exact rebuildStore_ok hw hg' ⟨hk.userOf, hk.userTo, hk.userLoc, hk.userRem, hk.userSend, hk.userRecv, hk.userPtr⟩
    | balance z =>
      have e := balance_hoods hw hi ⟨z, rfl⟩ ho hs i
      have hk := hc.keyed
      rw [← e] at hk
      exact rebuildStore_ok hw hg' ⟨hk.userOf, hk.userTo, fun _ _ => rfl, fun _ _ => rfl, fun _ _ => rfl, fun _ _ => rfl,
        hk.userPtr⟩
    | _ => cases hp

theorem storeAfter_ok (hw : g.WF) {s' : Sys n D W} (hr : Reachable g dflt maxTag s) {op : Op n D W} (ho : op.Ok s)
    (hs : step g dflt maxTag s op = .ok s') {i : Fin n} {σ : Store n} {b : Bool} {a : Option Cache} (hc : Coherent g i (s i) σ b a) :
    ∃ σ', storeAfter g maxTag op i (s i) (s' i) σ = .ok σ' ∧
      Coherent g i (s' i) σ' (op.makes b) (if op.makes false then none else a) := by
  obtain ⟨w, hi⟩ := hr.inv hw (by have := i.2; omega)
  obtain ⟨w1, hg⟩ := hr.good hw i
  obtain ⟨w', hg'⟩ := (Reachable.step op hr ho hs).good hw i
  exact inv_storeAfter hw hi ho hs hg hg' hc

/-- States with what is stored are reachable states, and what is stored is up to date. -/
theorem WithStore.coherent (hw : g.WF) {σ : Fin n → Store n} {b : Bool} (h : WithStore g dflt maxTag s σ b) :
    Reachable g dflt maxTag s ∧ ∀ i, Coherent g i (s i) (σ i) b := by
  induction h with
  | @init D dflt maxTag s σ hs hc =>
    have hr : Reachable g dflt maxTag s := .init hs
    refine ⟨hr, fun i => ?_⟩
    have hn : 0 < n := by have := i.2; omega
    obtain ⟨w, hg⟩ := hr.good hw i
    have hM : maxTag ≤ max maxTag g.last := Nat.le_max_left _ _
    have hM' : g.last ≤ max maxTag g.last := Nat.le_max_right _ _
    obtain ⟨s', h1, h2, h3⟩ := createGrid_spec (W := W) hw hn dflt
      (fitsTags_mono hM' (fitsTags_last (createLevel0_tiled hw hn).valid))
    rw [createGrid_mono hM hs] at h1
    injection h1 with h1
    subst h1
    obtain ⟨σ', e1, e2⟩ := initStore_ok hw hg (h3 i).2.1
    rw [Out.collect_inv hc i] at e1
    injection e1 with e1
    rw [e1]; exact e2
  | @step D dflt maxTag s s' σ σ' b op hst ho hs ih =>
    obtain ⟨hr, hc⟩ := ih
    obtain ⟨s1, h1, h2⟩ := Out.bind_inv hs
    obtain ⟨σ1, h3, h4⟩ := Out.bind_inv h2
    injection h4 with h4
    injection h4 with h4 h5
    subst h4; subst h5
    refine ⟨.step op hr ho h1, fun i => ?_⟩
    obtain ⟨σ2, e1, e2⟩ := storeAfter_ok hw hr ho h1 (hc i)
    rw [ite_self] at e2
    rw [Out.collect_inv h3 i] at e1
    injection e1 with e1
    rw [e1]; exact e2
  | @copy D D0 dflt dflt0 maxTag s σ σ' b hst hs ih =>
    obtain ⟨hr, hc⟩ := ih
    have hr' : Reachable g dflt maxTag (copyGrid g dflt s) := .copy hr
    refine ⟨hr', fun i => ?_⟩
    obtain ⟨w, hg⟩ := hr'.good hw i
    obtain ⟨σ2, e1, e2⟩ := copyStore_ok hw (hc i) (dflt := dflt) hg
    rw [Out.collect_inv hs i] at e1
    injection e1 with e1
    rw [e1]; exact e2

/-- Storing never fails: every reachable state has something stored. -/
theorem Reachable.stored (hw : g.WF) (h : Reachable g dflt maxTag s) : ∃ σ b, WithStore g dflt maxTag s σ b := by
  induction h with
  | @init D dflt maxTag s hs =>
    have hr : Reachable g dflt maxTag s := .init hs
    obtain ⟨σ, e1, -⟩ := Out.collect_all (f := fun i => initStore g maxTag i (s i)) (P := fun _ _ => True) (fun i => by
      have hn : 0 < n := by have := i.2; omega
      obtain ⟨w, hg⟩ := hr.good hw i
      have hM : maxTag ≤ max maxTag g.last := Nat.le_max_left _ _
      have hM' : g.last ≤ max maxTag g.last := Nat.le_max_right _ _
      obtain ⟨s', h1, h2, h3⟩ := createGrid_spec (W := W) hw hn dflt
        (fitsTags_mono hM' (fitsTags_last (createLevel0_tiled hw hn).valid))
      rw [createGrid_mono hM hs] at h1
      injection h1 with h1
      subst h1
      obtain ⟨σ', e1, -⟩ := initStore_ok hw hg (h3 i).2.1
      exact ⟨σ', e1, trivial⟩)
    exact ⟨σ, true, .init hs e1⟩
  | @step D dflt maxTag s s' op hr ho hs ih =>
    obtain ⟨σ, b, hst⟩ := ih
    obtain ⟨-, hc⟩ := hst.coherent hw
    obtain ⟨σ', e1, -⟩ := Out.collect_all (f := fun i => storeAfter g maxTag op i (s i) (s' i) (σ i)) (P := fun _ _ => True)
      (fun i => by
        obtain ⟨σ2, e1, -⟩ := storeAfter_ok hw hr ho hs (hc i)
        exact ⟨σ2, e1, trivial⟩)
    refine ⟨σ', _, .step op hst ho ?_⟩
    unfold stepStored
    rw [hs, Out.bind_ok, e1, Out.bind_ok]
  | @copy D D0 dflt dflt0 maxTag s hr ih =>
    obtain ⟨σ, b, hst⟩ := ih
    obtain ⟨-, hc⟩ := hst.coherent hw
    have hr' : Reachable g dflt maxTag (copyGrid g dflt s) := .copy hr
    obtain ⟨σ', e1, -⟩ := Out.collect_all (f := fun i => copyStore g (copyProc g dflt i (s i)) (σ i)) (P := fun _ _ => True)
      (fun i => by
        obtain ⟨w, hg⟩ := hr'.good hw i
        obtain ⟨σ2, e1, -⟩ := copyStore_ok hw (hc i) (dflt := dflt) hg
        exact ⟨σ2, e1, trivial⟩)
    exact ⟨σ', false, .copy hst e1⟩

end Dccrg
