import Verif.StoredHalo
import Verif.Props.Iter
/-!
# Stored lists are those that would be found now
-/
namespace Dccrg
open Cfg
variable {n : Nat} {D W : Type} {g : Cfg} {w : Owner n}

/-- What is known about a process after an operation. -/
structure Good (g : Cfg) (w : Owner n) (maxTag : Nat) (i : Fin n) (p : Proc n D W) : Prop where
  owner : p.owner = w
  tiled : Tiled g (exist w)
  balanced : Balanced g (exist w)
  placed : ∀ c, p.has c = true ↔ w c = some i
  items : ∀ x ∈ p.hoods, ∀ o ∈ x.2, o ∈ hoodOf g
  keys : (keys p.hoods).Nodup
  noDefault : defaultId ∉ Dccrg.keys p.hoods
  fresh : Fresh g maxTag i p

/-- Iterators of the default neighborhood are what would be made now, or they are given ones. -/
def PtrOk (g : Cfg) (i : Fin n) (p : Proc n D W) (σ : Store n) (a : Option Cache) : Prop :=
  (a = none → updatePointers g i p defaultId = .ok σ.ptr) ∧ ∀ k, a = some k → σ.ptr = k

/-- Everything that process `i` has stored is what would be calculated now. `b` tells whether iterators exist for all
neighborhoods, `a` are iterators of the default neighborhood if they have not been made. -/
structure Coherent (g : Cfg) (i : Fin n) (p : Proc n D W) (σ : Store n) (b : Bool) (a : Option Cache := none) : Prop where
  six : σ.six = sixOf g p.owner
  of : σ.of = ofLists g p.owner (hoodOf g)
  to : σ.to = toLists g p.owner (hoodOf g)
  userOf : σ.userOf = fun id => (p.hoods.lookup id).map (ofLists g p.owner)
  userTo : σ.userTo = fun id => (p.hoods.lookup id).map (toLists g p.owner)
  loc : σ.loc = localBoundaryH g (hoodOf g) i p.owner p.has
  rem : σ.rem = dedup (remoteBoundaryH g (hoodOf g) i p.owner p.has)
  userLoc : σ.userLoc = fun id => (p.hoods.lookup id).map fun H => localBoundaryH g H i p.owner p.has
  userRem : σ.userRem = fun id => (p.hoods.lookup id).map fun H => dedup (remoteBoundaryH g H i p.owner p.has)
  send : σ.send = sendList g (hoodOf g) i p.owner p.has
  recv : σ.recv = recvList g (hoodOf g) i p.owner p.has
  userSend : σ.userSend = fun id => (p.hoods.lookup id).map fun H => sendList g H i p.owner p.has
  userRecv : σ.userRecv = fun id => (p.hoods.lookup id).map fun H => recvList g H i p.owner p.has
  ptr : PtrOk g i p σ a
  userPtr : ∀ id k, σ.userPtr id = some k →
    (p.hoods.lookup id).isSome = true ∧ updatePointers g i p id = .ok k ∧ σ.userAll id = some k.all
  made : b = true → ∀ id, (p.hoods.lookup id).isSome = true → (σ.userPtr id).isSome = true

/-- Entries exist for user neighborhoods only. -/
structure Keyed (l : List (Int × List (V3 Int))) (σ : Store n) : Prop where
  userOf : ∀ id, (σ.userOf id).isSome = (l.lookup id).isSome
  userTo : ∀ id, (σ.userTo id).isSome = (l.lookup id).isSome
  userLoc : ∀ id, l.lookup id = none → σ.userLoc id = none
  userRem : ∀ id, l.lookup id = none → σ.userRem id = none
  userSend : ∀ id, l.lookup id = none → σ.userSend id = none
  userRecv : ∀ id, l.lookup id = none → σ.userRecv id = none
  userPtr : ∀ id, l.lookup id = none → σ.userPtr id = none

theorem Coherent.keyed {i : Fin n} {p : Proc n D W} {σ : Store n} {b : Bool} {a : Option Cache} (h : Coherent g i p σ b a) :
    Keyed p.hoods σ := by
  constructor
  · intro id; rw [h.userOf]; simp
  · intro id; rw [h.userTo]; simp
  · intro id e; rw [h.userLoc]; simp [e]
  · intro id e; rw [h.userRem]; simp [e]
  · intro id e; rw [h.userSend]; simp [e]
  · intro id e; rw [h.userRecv]; simp [e]
  · intro id e
    cases hk : σ.userPtr id with
    | none => rfl
    | some k => have := (h.userPtr id k hk).1; rw [e] at this; cases this

section
variable {maxTag : Nat} {i : Fin n} {p : Proc n D W} (hw : g.WF) (hg : Good g w maxTag i p)
include hg

theorem Good.lookup {id : Int} {H : List (V3 Int)} (h : p.hoods.lookup id = some H) : ∀ o ∈ H, o ∈ hoodOf g :=
  hg.items _ (lookup_mem h)

theorem Good.hoodFor {id : Int} (h : (p.hoods.lookup id).isSome = true) : Dccrg.hoodFor g p id = p.hoods.lookup id := by
  unfold Dccrg.hoodFor
  rw [if_neg]
  intro e
  subst e
  rw [lookup_none_iff.2 hg.noDefault] at h; cases h

theorem Good.tags {H : List (V3 Int)} (h : H = hoodOf g ∨ ∃ id, p.hoods.lookup id = some H) :
    (∀ q, (sendList g H i p.owner p.has q).length ≤ maxTag) ∧ ∀ q, (recvList g H i p.owner p.has q).length ≤ maxTag := by
  have h1 := hg.fresh.tags
  unfold tagsFit at h1
  rw [List.all_eq_true] at h1
  have h2 := h1 H (by
    rcases h with rfl | ⟨id, h⟩
    · exact List.mem_cons_self
    · exact List.mem_cons_of_mem _ (List.mem_map.2 ⟨(id, H), lookup_mem h, rfl⟩))
  rw [List.all_eq_true] at h2
  constructor <;> intro q <;> have h3 := h2 q (List.mem_finRange q) <;>
    simp only [Bool.and_eq_true, decide_eq_true_eq] at h3
  · exact h3.1
  · exact h3.2

include hw

theorem infoHoods_eq {σ : Store n} (h1 : σ.userOf = fun id => (p.hoods.lookup id).map (ofLists g w))
    (h2 : σ.userTo = fun id => (p.hoods.lookup id).map (toLists g w)) (h3 : ∀ id, p.hoods.lookup id = none → σ.userLoc id = none)
    (h4 : ∀ id, p.hoods.lookup id = none → σ.userRem id = none) :
    Out.fold (fun x σ => updateUserInfo g i p x.1 σ) p.hoods σ = .ok { σ with
      userLoc := fun id => (p.hoods.lookup id).map fun H => localBoundaryH g H i p.owner p.has
      userRem := fun id => (p.hoods.lookup id).map fun H => dedup (remoteBoundaryH g H i p.owner p.has) } := by
  have key := Out.fold_eq (l := p.hoods) (f := fun x σ => updateUserInfo g i p x.1 σ)
    (fun pre => ({ σ with
      userLoc := fun id => if id ∈ keys pre then (p.hoods.lookup id).map fun H => localBoundaryH g H i p.owner p.has
        else σ.userLoc id
      userRem := fun id => if id ∈ keys pre then
          (p.hoods.lookup id).map fun H => dedup (remoteBoundaryH g H i p.owner p.has) else σ.userRem id } : Store n)) ?_
  · rw [hoods_filled h3, hoods_filled h4] at key
    rw [← key]
    congr 1
  · intro pre a post e
    have ham : a ∈ p.hoods := by rw [e]; simp
    have ha := lookup_of_mem hg.keys ham
    rw [updateUserInfo_eq (H := a.2) hw hg.tiled hg.balanced (hg.items a ham) hg.owner hg.placed
      (by show σ.userOf a.1 = _; rw [h1]; simp [ha]) (by show σ.userTo a.1 = _; rw [h2]; simp [ha])]
    have f1 := setAt_hoods hg.keys σ.userLoc (fun H => localBoundaryH g H i p.owner p.has) e
    have f2 := setAt_hoods hg.keys σ.userRem (fun H => dedup (remoteBoundaryH g H i p.owner p.has)) e
    simp only [f1, f2]

theorem userSends_eq {σ : Store n} {id : Int} {H : List (V3 Int)} (hH : p.hoods.lookup id = some H)
    (h1 : σ.userOf id = some (ofLists g w H)) (h2 : σ.userTo id = some (toLists g w H))
    (h3 : σ.userLoc id = some (localBoundaryH g H i p.owner p.has)) :
    updateUserSends maxTag i p.owner id σ = .ok { σ with
      userSend := setAt σ.userSend id (sendList g H i p.owner p.has)
      userRecv := setAt σ.userRecv id (recvList g H i p.owner p.has) } := by
  have ho := hg.owner
  have ht := hg.tags (Or.inr ⟨id, hH⟩)
  unfold updateUserSends
  rw [Out.at_some h3, Out.bind_ok, Out.at_some h1, Out.bind_ok, Out.at_some h2, Out.bind_ok, ho,
    listsFrom_eq hw hg.tiled hg.balanced (hg.lookup hH) hg.placed (by rw [← ho]; exact ht.1) (by rw [← ho]; exact ht.2),
    Out.bind_ok]

theorem updateSends_eq {σ : Store n} (h0 : σ.of = ofLists g w (hoodOf g)) (h0' : σ.to = toLists g w (hoodOf g))
    (hl : σ.loc = localBoundaryH g (hoodOf g) i p.owner p.has)
    (h1 : σ.userOf = fun id => (p.hoods.lookup id).map (ofLists g w))
    (h2 : σ.userTo = fun id => (p.hoods.lookup id).map (toLists g w))
    (h3 : σ.userLoc = fun id => (p.hoods.lookup id).map fun H => localBoundaryH g H i p.owner p.has)
    (h4 : ∀ id, p.hoods.lookup id = none → σ.userSend id = none)
    (h5 : ∀ id, p.hoods.lookup id = none → σ.userRecv id = none) :
    updateSends maxTag i p σ = .ok { σ with
      send := sendList g (hoodOf g) i p.owner p.has
      recv := recvList g (hoodOf g) i p.owner p.has
      userSend := fun id => (p.hoods.lookup id).map fun H => sendList g H i p.owner p.has
      userRecv := fun id => (p.hoods.lookup id).map fun H => recvList g H i p.owner p.has } := by
  have ho := hg.owner
  have ht := hg.tags (Or.inl rfl)
  unfold updateSends
  have e0 : listsFrom maxTag i p.owner σ.of σ.to σ.loc =
      .ok (sendList g (hoodOf g) i p.owner p.has, recvList g (hoodOf g) i p.owner p.has) := by
    rw [h0, h0', hl, ho]
    exact listsFrom_eq hw hg.tiled hg.balanced (fun o h => h) hg.placed (by rw [← ho]; exact ht.1) (by rw [← ho]; exact ht.2)
  rw [e0, Out.bind_ok]
  have key := Out.fold_eq (l := p.hoods) (f := fun x σ => updateUserSends maxTag i p.owner x.1 σ)
    (fun pre => ({ σ with
      send := sendList g (hoodOf g) i p.owner p.has
      recv := recvList g (hoodOf g) i p.owner p.has
      userSend := fun id => if id ∈ keys pre then (p.hoods.lookup id).map fun H => sendList g H i p.owner p.has
        else σ.userSend id
      userRecv := fun id => if id ∈ keys pre then (p.hoods.lookup id).map fun H => recvList g H i p.owner p.has
        else σ.userRecv id } : Store n)) ?_
  · rw [hoods_filled h4, hoods_filled h5] at key
    rw [← key]
    congr 1
  · intro pre a post e
    have ham : a ∈ p.hoods := by rw [e]; simp
    have ha := lookup_of_mem hg.keys ham
    rw [userSends_eq hw hg ha
      (by show σ.userOf a.1 = _; rw [h1]; simp [ha]) (by show σ.userTo a.1 = _; rw [h2]; simp [ha])
      (by show σ.userLoc a.1 = _; rw [h3]; simp [ha])]
    have f1 := setAt_hoods hg.keys σ.userSend (fun H => sendList g H i p.owner p.has) e
    have f2 := setAt_hoods hg.keys σ.userRecv (fun H => recvList g H i p.owner p.has) e
    simp only [f1, f2]

/-! ## Iterators -/

theorem getOf_eq {id : Int} {H : List (V3 Int)} (hH : Dccrg.hoodFor g p id = some H) (hs : ∀ o ∈ H, o ∈ hoodOf g)
    {c : Nat} (hc : exist w c = true) : getNeighborsOf g p c id = some (ofList g w H c) := by
  obtain ⟨f, h1, -⟩ := C15_neighbors_of hw hg.tiled ((balanced_iff hw hg.tiled).1 hg.balanced) hc hs
  unfold getNeighborsOf ofList
  rw [hg.owner, if_pos hc, hH]
  simp only [h1]

theorem getTo_eq {id : Int} {H : List (V3 Int)} (hH : Dccrg.hoodFor g p id = some H) (hs : ∀ o ∈ H, o ∈ hoodOf g)
    {c : Nat} (hc : exist w c = true) : getNeighborsTo g p c id = some (toList g w H c) := by
  obtain ⟨r, h1, -⟩ := C16_neighbors_to hw hg.tiled ((balanced_iff hw hg.tiled).1 hg.balanced) hc hs
  unfold getNeighborsTo toList
  rw [hg.owner, if_pos hc, hH]
  simp only [h1]

omit hw in
theorem Good.hoodFor_sub {id : Int} {H : List (V3 Int)} (hH : Dccrg.hoodFor g p id = some H) : ∀ o ∈ H, o ∈ hoodOf g := by
  unfold Dccrg.hoodFor at hH
  split at hH
  · injection hH with hH; subst hH; exact fun o h => h
  · exact hg.lookup hH

/-- `get_neighbors_of` reads what would be found now. -/
theorem storedOf_eq {σ : Store n} (h1 : σ.of = ofLists g w (hoodOf g))
    (h2 : σ.userOf = fun id => (p.hoods.lookup id).map (ofLists g w)) (c : Nat) (id : Int) :
    storedOf p σ c id = .ok (getNeighborsOf g p c id) := by
  unfold storedOf
  cases hc : exist w c with
  | false =>
    rw [hg.owner, if_neg (by simp [hc])]
    unfold getNeighborsOf
    rw [hg.owner, if_neg (by simp [hc])]
  | true =>
    rw [hg.owner, if_pos hc]
    split
    · rename_i e
      subst e
      rw [Out.at_some (b := ofList g w (hoodOf g) c) (by rw [h1]; unfold ofLists; rw [if_pos hc]), Out.bind_ok,
        getOf_eq hw hg (if_pos rfl) (fun o h => h) hc]
    · rename_i e
      cases hl : p.hoods.lookup id with
      | none =>
        rw [if_neg (by simp)]
        unfold getNeighborsOf Dccrg.hoodFor
        rw [hg.owner, if_pos hc, if_neg e, hl]
      | some H =>
        rw [if_pos (by rfl), Out.at_some (b := ofLists g w H) (by rw [h2]; simp [hl]), Out.bind_ok,
          Out.at_some (b := ofList g w H c) (by unfold ofLists; rw [if_pos hc]), Out.bind_ok,
          getOf_eq hw hg (by unfold Dccrg.hoodFor; rw [if_neg e, hl]) (hg.lookup hl) hc]

/-- `get_neighbors_to` reads what would be found now. -/
theorem storedTo_eq {σ : Store n} (h1 : σ.to = toLists g w (hoodOf g))
    (h2 : σ.userTo = fun id => (p.hoods.lookup id).map (toLists g w)) (c : Nat) (id : Int) :
    storedTo p σ c id = .ok (getNeighborsTo g p c id) := by
  unfold storedTo
  cases hc : exist w c with
  | false =>
    rw [hg.owner, if_neg (by simp [hc])]
    unfold getNeighborsTo
    rw [hg.owner, if_neg (by simp [hc])]
  | true =>
    rw [hg.owner, if_pos hc]
    split
    · rename_i e
      subst e
      rw [Out.at_some (b := toList g w (hoodOf g) c) (by rw [h1]; unfold toLists; rw [if_pos hc]), Out.bind_ok,
        getTo_eq hw hg (if_pos rfl) (fun o h => h) hc]
    · rename_i e
      cases hl : p.hoods.lookup id with
      | none =>
        rw [if_neg (by simp)]
        unfold getNeighborsTo Dccrg.hoodFor
        rw [hg.owner, if_pos hc, if_neg e, hl]
      | some H =>
        rw [if_pos (by rfl), Out.at_some (b := toLists g w H) (by rw [h2]; simp [hl]), Out.bind_ok,
          Out.at_some (b := toList g w H c) (by unfold toLists; rw [if_pos hc]), Out.bind_ok,
          getTo_eq hw hg (by unfold Dccrg.hoodFor; rw [if_neg e, hl]) (hg.lookup hl) hc]

omit hg hw in
theorem itemsFrom_eq {sets : Nat → Out (Nbrs × Nbrs × Nbrs)} {v : Nat → Nbrs × Nbrs × Nbrs} {l : List Nat}
    (h : ∀ c ∈ l, sets c = .ok (v c)) (start : Nat) : itemsFrom sets l start = .ok (cellItems v l start) := by
  induction l generalizing start with
  | nil => rfl
  | cons c cs ih =>
    unfold itemsFrom cellItems
    rw [h c List.mem_cons_self, Out.bind_ok]
    simp only []
    rw [ih fun x hx => h x (List.mem_cons_of_mem _ hx), Out.bind_ok]

/-- Iterators are made of what is known about cells now. -/
theorem pointersFrom_eq {σ : Store n} {id : Int} {H : List (V3 Int)} (hH : Dccrg.hoodFor g p id = some H)
    (h0 : σ.of = ofLists g w (hoodOf g)) (h0' : σ.to = toLists g w (hoodOf g))
    (h1 : σ.userOf = fun id => (p.hoods.lookup id).map (ofLists g w))
    (h2 : σ.userTo = fun id => (p.hoods.lookup id).map (toLists g w))
    (hr : σ.rem = dedup (remoteBoundaryH g (hoodOf g) i p.owner p.has)) :
    ∃ k, pointersFrom g p σ id (localBoundaryH g H i p.owner p.has) = .ok k ∧ updatePointers g i p id = .ok k := by
  have hs := hg.hoodFor_sub hH
  have hin : ((heldBy g p).filter fun c => !(localBoundaryH g H i p.owner p.has).contains c) =
      (ids g).filter fun c => p.has c && !(localBoundaryH g H i p.owner p.has).contains c := by
    unfold heldBy
    rw [List.filter_filter]
    exact List.filter_congr fun c _ => Bool.and_comm _ _
  have hou : ((heldBy g p).filter fun c => (localBoundaryH g H i p.owner p.has).contains c) =
      (ids g).filter fun c => p.has c && (localBoundaryH g H i p.owner p.has).contains c := by
    unfold heldBy
    rw [List.filter_filter]
    exact List.filter_congr fun c _ => Bool.and_comm _ _
  have hre : σ.rem = dedup (remoteBoundary g i p.owner p.has) := hr
  have hcp : ¬ ∃ c ∈ dedup (remoteBoundary g i p.owner p.has), (p.remote c).isNone = true := by
    rintro ⟨c, h1, h2⟩
    have := hg.fresh.copies c (mem_dedup.1 h1)
    rw [Option.isNone_iff_eq_none] at h2
    rw [h2] at this; cases this
  have hex : ∀ c ∈ ((ids g).filter fun c => p.has c && !(localBoundaryH g H i p.owner p.has).contains c) ++
      ((ids g).filter fun c => p.has c && (localBoundaryH g H i p.owner p.has).contains c) ++
      dedup (remoteBoundary g i p.owner p.has), exist w c = true := by
    intro c hc
    rw [List.mem_append, List.mem_append] at hc
    rcases hc with (hc | hc) | hc
    · have := (List.mem_filter.1 hc).2
      rw [Bool.and_eq_true] at this
      exact exist_of ((hg.placed c).1 this.1)
    · have := (List.mem_filter.1 hc).2
      rw [Bool.and_eq_true] at this
      exact exist_of ((hg.placed c).1 this.1)
    · rw [mem_dedup, remoteBoundary_eq, hg.owner] at hc
      obtain ⟨⟨j, hj, -⟩, -⟩ := (mem_remoteBoundaryH hw hg.tiled hg.balanced (fun o h => h) hg.placed).1 hc
      exact exist_of hj
  have hno : ¬ ∃ c ∈ ((ids g).filter fun c => p.has c && !(localBoundaryH g H i p.owner p.has).contains c) ++
      ((ids g).filter fun c => p.has c && (localBoundaryH g H i p.owner p.has).contains c) ++
      dedup (remoteBoundary g i p.owner p.has), c = 0 ∨ (getNeighborsOf g p c id).isNone = true ∨
        (getNeighborsTo g p c id).isNone = true := by
    rintro ⟨c, hc, h | h | h⟩
    · exact valid_ne_zero (hg.tiled.valid c (hex c hc)) h
    · rw [getOf_eq hw hg hH hs (hex c hc)] at h; cases h
    · rw [getTo_eq hw hg hH hs (hex c hc)] at h; cases h
  have hA : ∃ k, updatePointers g i p id = .ok k := by
    unfold updatePointers
    rw [hH]
    simp only []
    rw [if_neg hcp, if_neg hno]
    exact ⟨_, rfl⟩
  have hB : pointersFrom g p σ id (localBoundaryH g H i p.owner p.has) = updatePointers g i p id := by
    unfold updatePointers pointersFrom
    rw [hH, hin, hou, hre]
    simp only []
    rw [if_neg hcp, if_neg hcp, if_neg hno, itemsFrom_eq (v := fun c => neighborSets ((getNeighborsOf g p c id).getD [])
      ((getNeighborsTo g p c id).getD []))]
    · rw [Out.bind_ok]
    · intro c hc
      unfold setsOf
      rw [if_neg (valid_ne_zero (hg.tiled.valid c (hex c hc))), storedOf_eq hw hg h0 h1, Out.bind_ok,
        storedTo_eq hw hg h0' h2, Out.bind_ok, getOf_eq hw hg hH hs (hex c hc), getTo_eq hw hg hH hs (hex c hc)]
      rfl
  obtain ⟨k, hk⟩ := hA
  exact ⟨k, hB.trans hk, hk⟩

theorem userPtrs_eq {σ : Store n} 
    (h0 : σ.of = ofLists g w (hoodOf g)) (h0' : σ.to = toLists g w (hoodOf g))
    (h1 : σ.userOf = fun id => (p.hoods.lookup id).map (ofLists g w))
    (h2 : σ.userTo = fun id => (p.hoods.lookup id).map (toLists g w))
    (h3 : σ.userLoc = fun id => (p.hoods.lookup id).map fun H => localBoundaryH g H i p.owner p.has)
    (hr : σ.rem = dedup (remoteBoundaryH g (hoodOf g) i p.owner p.has))
    {id : Int} (hid : (p.hoods.lookup id).isSome = true) :
    ∃ k, updateUserPtr g p id σ = .ok { σ with userPtr := setAt σ.userPtr id k, userAll := setAt σ.userAll id k.all } ∧
      updatePointers g i p id = .ok k := by
  obtain ⟨H, hH⟩ := Option.isSome_iff_exists.1 hid
  have hf := (hg.hoodFor hid).trans hH
  obtain ⟨k, e1, e2⟩ := pointersFrom_eq hw hg hf h0 h0' h1 h2 hr
  refine ⟨k, ?_, e2⟩
  unfold updateUserPtr
  rw [if_neg (by rw [hH]; simp), Out.at_some (b := localBoundaryH g H i p.owner p.has) (by rw [h3]; simp [hH]),
    Out.bind_ok, e1, Out.bind_ok]

/-- Everything except iterators. -/
structure Lists (g : Cfg) (i : Fin n) (p : Proc n D W) (σ : Store n) : Prop where
  six : σ.six = sixOf g p.owner
  of : σ.of = ofLists g p.owner (hoodOf g)
  to : σ.to = toLists g p.owner (hoodOf g)
  userOf : σ.userOf = fun id => (p.hoods.lookup id).map (ofLists g p.owner)
  userTo : σ.userTo = fun id => (p.hoods.lookup id).map (toLists g p.owner)
  loc : σ.loc = localBoundaryH g (hoodOf g) i p.owner p.has
  rem : σ.rem = dedup (remoteBoundaryH g (hoodOf g) i p.owner p.has)
  userLoc : σ.userLoc = fun id => (p.hoods.lookup id).map fun H => localBoundaryH g H i p.owner p.has
  userRem : σ.userRem = fun id => (p.hoods.lookup id).map fun H => dedup (remoteBoundaryH g H i p.owner p.has)
  send : σ.send = sendList g (hoodOf g) i p.owner p.has
  recv : σ.recv = recvList g (hoodOf g) i p.owner p.has
  userSend : σ.userSend = fun id => (p.hoods.lookup id).map fun H => sendList g H i p.owner p.has
  userRecv : σ.userRecv = fun id => (p.hoods.lookup id).map fun H => recvList g H i p.owner p.has

/-- Everything except iterators of user neighborhoods. -/
structure Half (g : Cfg) (i : Fin n) (p : Proc n D W) (σ : Store n) (a : Option Cache := none) : Prop extends Lists g i p σ where
  ptr : PtrOk g i p σ a

theorem Lists.updatePtr {σ : Store n} (h : Lists g i p σ) :
    ∃ k, Dccrg.updatePtr g p σ = .ok { σ with ptr := k } ∧ Half g i p { σ with ptr := k } := by
  have ho := hg.owner
  obtain ⟨k, e1, e2⟩ := pointersFrom_eq (id := defaultId) (H := hoodOf g) hw hg (if_pos rfl)
    (by rw [← ho]; exact h.of) (by rw [← ho]; exact h.to) (by rw [← ho]; exact h.userOf)
    (by rw [← ho]; exact h.userTo) h.rem
  refine ⟨k, ?_, ⟨h.six, h.of, h.to, h.userOf, h.userTo, h.loc, h.rem, h.userLoc, h.userRem, h.send, h.recv, h.userSend,
    h.userRecv⟩, fun _ => e2, nofun⟩
  unfold Dccrg.updatePtr
  rw [h.loc, e1, Out.bind_ok]

omit hg hw in
theorem Half.coherent {σ : Store n} {b : Bool} {a : Option Cache} (h : Half g i p σ a) (h1 : ∀ id k, σ.userPtr id = some k →
    (p.hoods.lookup id).isSome = true ∧ updatePointers g i p id = .ok k ∧ σ.userAll id = some k.all)
    (h2 : b = true → ∀ id, (p.hoods.lookup id).isSome = true → (σ.userPtr id).isSome = true) : Coherent g i p σ b a :=
  ⟨h.six, h.of, h.to, h.userOf, h.userTo, h.loc, h.rem, h.userLoc, h.userRem, h.send, h.recv, h.userSend, h.userRecv,
    h.ptr, h1, h2⟩

omit hg hw in
theorem Coherent.half {σ : Store n} {b : Bool} {a : Option Cache} (h : Coherent g i p σ b a) : Half g i p σ a :=
  ⟨⟨h.six, h.of, h.to, h.userOf, h.userTo, h.loc, h.rem, h.userLoc, h.userRem, h.send, h.recv, h.userSend, h.userRecv⟩,
    h.ptr⟩

omit hg hw in
theorem Half.ptrs {σ : Store n} {a : Option Cache} (h : Half g i p σ a) (x : Int → Option Cache) (y : Int → Option (Nat × Nat)) :
    Half g i p { σ with userPtr := x, userAll := y } a :=
  ⟨⟨h.six, h.of, h.to, h.userOf, h.userTo, h.loc, h.rem, h.userLoc, h.userRem, h.send, h.recv, h.userSend, h.userRecv⟩,
    h.ptr⟩

theorem Half.userPtr {σ : Store n} {a : Option Cache} (h : Half g i p σ a) {id : Int} (hid : (p.hoods.lookup id).isSome = true) :
    ∃ k, updateUserPtr g p id σ = .ok { σ with userPtr := setAt σ.userPtr id k, userAll := setAt σ.userAll id k.all } ∧
      updatePointers g i p id = .ok k := by
  have ho := hg.owner
  exact userPtrs_eq hw hg (by rw [← ho]; exact h.of) (by rw [← ho]; exact h.to) (by rw [← ho]; exact h.userOf)
    (by rw [← ho]; exact h.userTo) h.userLoc h.rem hid

/-- Iterators of all user neighborhoods are made. -/
theorem Half.hoods {σ : Store n} (h : Half g i p σ) (hk : ∀ id, p.hoods.lookup id = none → σ.userPtr id = none) :
    ∃ σ', Out.fold (fun x σ => updateUserPtr g p x.1 σ) p.hoods σ = .ok σ' ∧ Coherent g i p σ' true := by
  suffices ∀ (post pre : List (Int × List (V3 Int))) (σ : Store n), p.hoods = pre ++ post → Half g i p σ →
      (∀ id, p.hoods.lookup id = none → σ.userPtr id = none) →
      (∀ id ∈ keys pre, ∃ k, σ.userPtr id = some k ∧ σ.userAll id = some k.all ∧ updatePointers g i p id = .ok k) →
      ∃ σ', Out.fold (fun x σ => updateUserPtr g p x.1 σ) post σ = .ok σ' ∧ Coherent g i p σ' true from
    this p.hoods [] σ rfl h hk (by simp [keys])
  intro post
  induction post with
  | nil =>
    intro pre σ e h hk hp
    rw [List.append_nil] at e
    rw [← e] at hp
    refine ⟨σ, rfl, h.coherent ?_ ?_⟩
    · intro id k hid
      have hin : id ∈ keys p.hoods := by
        by_cases hin : id ∈ keys p.hoods
        · exact hin
        · rw [hk id (lookup_none_iff.2 hin)] at hid; cases hid
      obtain ⟨k', e1, e2, e3⟩ := hp id hin
      rw [e1] at hid
      injection hid with hid
      subst hid
      refine ⟨?_, e3, e2⟩
      rw [Option.isSome_iff_ne_none]
      exact fun e => lookup_none_iff.1 e hin
    · intro _ id hid
      have hin : id ∈ keys p.hoods := by
        by_cases hin : id ∈ keys p.hoods
        · exact hin
        · rw [lookup_none_iff.2 hin] at hid; cases hid
      obtain ⟨k', e1, -, -⟩ := hp id hin
      rw [e1]; rfl
  | cons a post ih =>
    intro pre σ e h hk hp
    have ham : a ∈ p.hoods := by rw [e]; simp
    have hid : (p.hoods.lookup a.1).isSome = true := by rw [lookup_of_mem hg.keys ham]; rfl
    obtain ⟨k, e1, e2⟩ := h.userPtr hw hg hid
    obtain ⟨σ', e3, e4⟩ := ih (pre ++ [a]) { σ with userPtr := setAt σ.userPtr a.1 k, userAll := setAt σ.userAll a.1 k.all }
      (by rw [e, List.append_assoc]; rfl) (h.ptrs _ _)
      (by
        intro id hn
        show setAt σ.userPtr a.1 k id = none
        unfold setAt
        rw [if_neg]
        · exact hk id hn
        · rintro rfl; rw [hn] at hid; cases hid)
      (by
        intro id hin
        by_cases e : id = a.1
        · subst e
          exact ⟨k, if_pos rfl, if_pos rfl, e2⟩
        · have : id ∈ keys pre := by
            unfold keys at hin ⊢
            rw [List.map_append, List.mem_append] at hin
            rcases hin with hin | hin
            · exact hin
            · simp only [List.map_cons, List.map_nil, List.mem_singleton] at hin; exact absurd hin e
          obtain ⟨k', f1, f2, f3⟩ := hp id this
          exact ⟨k', (if_neg e).trans f1, (if_neg e).trans f2, f3⟩)
    refine ⟨σ', ?_, e4⟩
    unfold Out.fold
    rw [e1]
    exact e3

/-- Everything is recalculated. -/
theorem rebuildStore_ok {σ : Store n} (hk : Keyed p.hoods σ) :
    ∃ σ', rebuildStore g maxTag i p σ = .ok σ' ∧ Coherent g i p σ' true := by
  have ho := hg.owner
  have main : ∀ σ, Lists g i p σ → (∀ id, p.hoods.lookup id = none → σ.userPtr id = none) → ∃ σ', ((updatePtr g p σ).bind fun σ =>
      Out.fold (fun x σ => updateUserPtr g p x.1 σ) p.hoods σ) = .ok σ' ∧ Coherent g i p σ' true := by
    intro σ h1 h2
    obtain ⟨k, e1, e2⟩ := h1.updatePtr hw hg
    rw [e1, Out.bind_ok]
    exact e2.hoods hw hg h2
  unfold rebuildStore
  simp only []
  rw [ho, updateSix_eq hw hg.tiled, updateLists_eq hw hg.tiled hg.balanced rfl, Out.bind_ok,
    clearUserLists_eq hg.keys (by exact hk.userOf) (by exact hk.userTo), Out.bind_ok,
    userLists_eq hw hg.tiled hg.balanced hg.keys hg.items rfl rfl rfl, Out.bind_ok,
    updateInfo_eq' hw hg.tiled hg.balanced (fun o h => h) ho hg.placed rfl rfl, Out.bind_ok,
    infoHoods_eq hw hg rfl rfl (by exact hk.userLoc) (by exact hk.userRem), Out.bind_ok,
    updateSends_eq hw hg rfl rfl rfl rfl rfl rfl (by exact hk.userSend) (by exact hk.userRecv), Out.bind_ok]
  refine main _ ?_ ?_
  · constructor <;> first | rfl | (simp only [ho]; done)
  · exact hk.userPtr

/-- Everything is calculated by `initialize`. -/
theorem initStore_ok (hno : p.hoods = []) : ∃ σ', initStore g maxTag i p = .ok σ' ∧ Coherent g i p σ' true := by
  have ho := hg.owner
  have hl : ∀ {β : Type} (f : List (V3 Int) → β), (fun id => (p.hoods.lookup id).map f) = fun _ => none := by
    intro β f; funext id; rw [hno]; rfl
  have main : ∀ σ, Lists g i p σ → (σ.userPtr = fun _ => none) → ∃ σ', updatePtr g p σ = .ok σ' ∧ Coherent g i p σ' true := by
    intro σ h1 h2
    obtain ⟨k, e1, e2⟩ := h1.updatePtr hw hg
    refine ⟨_, e1, e2.coherent ?_ ?_⟩
    · intro id k h
      have h : σ.userPtr id = some k := h
      rw [h2] at h; cases h
    · intro _ id h; rw [hno] at h; cases h
  unfold initStore
  simp only []
  rw [ho, updateSix_eq hw hg.tiled, initLists_eq hw hg.tiled hg.balanced rfl rfl rfl, Out.bind_ok,
    updateInfo_eq' hw hg.tiled hg.balanced (fun o h => h) ho hg.placed rfl rfl, Out.bind_ok,
    updateSends_eq hw hg rfl rfl rfl (hl _).symm (hl _).symm (hl _).symm (fun _ _ => rfl) (fun _ _ => rfl), Out.bind_ok]
  refine main _ ?_ rfl
  constructor <;> first | rfl | (simp only [ho]; done) | exact (hl _).symm

end

end Dccrg
