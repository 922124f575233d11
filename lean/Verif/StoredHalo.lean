import Verif.StoredLists
/-!
# Loops that fill lists of user neighborhoods, cells on process boundaries and cells to send and receive
-/
namespace Dccrg
open Cfg
variable {n : Nat} {D W : Type} {g : Cfg} {w : Owner n}

/-- Keys of a container of neighborhoods. -/
def keys (l : List (Int × List (V3 Int))) : List Int := l.map (·.1)

theorem lookup_mem {l : List (Int × List (V3 Int))} {id : Int} {H : List (V3 Int)} (h : l.lookup id = some H) :
    (id, H) ∈ l := by
  induction l with
  | nil => cases h
  | cons a l ih =>
    rw [List.lookup_cons] at h
    split at h
    · rename_i e
      injection h with h
      have : id = a.1 := by simpa using e
      rw [this, ← h]; exact List.mem_cons_self
    · exact List.mem_cons_of_mem _ (ih h)

theorem lookup_none_iff {l : List (Int × List (V3 Int))} {id : Int} : l.lookup id = none ↔ id ∉ keys l := by
  induction l with
  | nil => simp [keys]
  | cons a l ih =>
    rw [List.lookup_cons]
    split
    · rename_i e
      have : id = a.1 := by simpa using e
      simp [keys, this]
    · rename_i e
      have : id ≠ a.1 := by simpa using e
      rw [ih]
      simp [keys, this]

theorem lookup_of_mem {l : List (Int × List (V3 Int))} (hn : (keys l).Nodup) {x : Int × List (V3 Int)} (h : x ∈ l) :
    l.lookup x.1 = some x.2 := by
  induction l with
  | nil => cases h
  | cons a l ih =>
    unfold keys at hn
    rw [List.map_cons, List.nodup_cons] at hn
    rw [List.lookup_cons]
    rcases List.mem_cons.1 h with rfl | h
    · simp
    · have : x.1 ≠ a.1 := fun e => hn.1 (e ▸ List.mem_map.2 ⟨x, h, rfl⟩)
      rw [show (x.1 == a.1) = false by simpa using this]
      exact ih hn.2 h

/-- A loop over neighborhoods sets one entry for each. -/
theorem setAt_hoods {β : Type} {l : List (Int × List (V3 Int))} (hn : (keys l).Nodup)
    (m : Int → Option β) (v : List (V3 Int) → β) {pre : List (Int × List (V3 Int))} {a : Int × List (V3 Int)}
    {post : List (Int × List (V3 Int))} (e : l = pre ++ a :: post) :
    setAt (fun id => if id ∈ keys pre then (l.lookup id).map v else m id) a.1 (v a.2) =
      fun id => if id ∈ keys (pre ++ [a]) then (l.lookup id).map v else m id := by
  have ha : l.lookup a.1 = some a.2 := lookup_of_mem hn (by rw [e]; simp)
  funext id
  unfold setAt
  by_cases h : id = a.1
  · subst h; rw [if_pos rfl, if_pos (by simp [keys]), ha]; rfl
  · rw [if_neg h]
    have : id ∈ keys (pre ++ [a]) ↔ id ∈ keys pre := by simp [keys, h]
    simp only [this]

/-- All entries are set. -/
theorem hoods_filled {β : Type} {l : List (Int × List (V3 Int))} {m : Int → Option β} {v : List (V3 Int) → β}
    (hm : ∀ id, l.lookup id = none → m id = none) :
    (fun id => if id ∈ keys l then (l.lookup id).map v else m id) = fun id => (l.lookup id).map v := by
  funext id
  split
  · rfl
  · rename_i h
    have h := lookup_none_iff.2 h
    rw [h, hm id h]; rfl

/-! ## Neighbors in user neighborhoods -/

theorem clearUserLists_eq {l : List (Int × List (V3 Int))} (hn : (keys l).Nodup) {σ : Store n}
    (h1 : ∀ id, (σ.userOf id).isSome = (l.lookup id).isSome) (h2 : ∀ id, (σ.userTo id).isSome = (l.lookup id).isSome) :
    Out.fold (fun x σ => clearUserLists x σ) l σ = .ok { σ with
      userOf := fun id => (l.lookup id).map fun _ _ => none
      userTo := fun id => (l.lookup id).map fun _ _ => none } := by
  have e1 : ∀ id, l.lookup id = none → σ.userOf id = none := fun id h => by
    have := h1 id; rw [h] at this; simpa using this
  have e2 : ∀ id, l.lookup id = none → σ.userTo id = none := fun id h => by
    have := h2 id; rw [h] at this; simpa using this
  have key := Out.fold_eq (l := l) (f := fun x σ => clearUserLists x σ)
    (fun pre => ({ σ with
      userOf := fun id => if id ∈ keys pre then (l.lookup id).map fun _ _ => none else σ.userOf id
      userTo := fun id => if id ∈ keys pre then (l.lookup id).map fun _ _ => none else σ.userTo id } : Store n)) ?_
  · rw [hoods_filled e1, hoods_filled e2] at key
    rw [← key]
    congr 1
  · intro pre a post e
    have ha : l.lookup a.1 = some a.2 := lookup_of_mem hn (by rw [e]; simp)
    have hno : a.1 ∉ keys pre := by
      intro h
      rw [e] at hn
      unfold keys at hn h
      rw [List.map_append, List.map_cons, List.nodup_append] at hn
      exact hn.2.2 _ h _ List.mem_cons_self rfl
    obtain ⟨x, hx⟩ : ∃ x, σ.userOf a.1 = some x := Option.isSome_iff_exists.1 (by rw [h1, ha]; rfl)
    obtain ⟨y, hy⟩ : ∃ y, σ.userTo a.1 = some y := Option.isSome_iff_exists.1 (by rw [h2, ha]; rfl)
    unfold clearUserLists
    rw [Out.at_some (b := x) (by simp only [if_neg hno]; exact hx), Out.bind_ok,
      Out.at_some (b := y) (by simp only [if_neg hno]; exact hy), Out.bind_ok]
    have f1 := setAt_hoods (β := Nat → Option Nbrs) hn σ.userOf (fun _ _ => none) e
    have f2 := setAt_hoods (β := Nat → Option Nbrs) hn σ.userTo (fun _ _ => none) e
    simp only [f1, f2]

section
variable (hw : g.WF) (ht : Tiled g (exist w)) (hb : Balanced g (exist w))
include hw ht hb

theorem updateUserLists_eq {x : Int × List (V3 Int)} (hx : ∀ o ∈ x.2, o ∈ hoodOf g) {c : Nat} (hc : exist w c = true)
    {σ : Store n} (hσ : σ.six = sixOf g w) :
    updateUserLists g w x c σ = .ok { σ with
      userOf := setAt σ.userOf x.1 (setAt (entry σ.userOf x.1) c (ofList g w x.2 c))
      userTo := setAt σ.userTo x.1 (setAt (entry σ.userTo x.1) c (toList g w x.2 c)) } := by
  unfold updateUserLists
  rw [hσ, findOf_ok hw ht hb hx hc, Out.bind_ok, findTo_ok hw ht hb hx hc, Out.bind_ok]

/-- All lists of neighbors in user neighborhoods. -/
theorem userLists_eq {l : List (Int × List (V3 Int))} (hn : (keys l).Nodup) (hl : ∀ x ∈ l, ∀ o ∈ x.2, o ∈ hoodOf g)
    {σ : Store n} (hσ : σ.six = sixOf g w)
    (h1 : σ.userOf = fun id => (l.lookup id).map fun _ _ => none)
    (h2 : σ.userTo = fun id => (l.lookup id).map fun _ _ => none) :
    Out.fold (fun c σ => Out.fold (fun x σ => updateUserLists g w x c σ) l σ) (cellsIn g w) σ = .ok { σ with
      userOf := fun id => (l.lookup id).map (ofLists g w)
      userTo := fun id => (l.lookup id).map (toLists g w) } := by
  have key := Out.fold_eq (l := cellsIn g w) (f := fun c σ => Out.fold (fun x σ => updateUserLists g w x c σ) l σ)
    (fun pre => ({ σ with
      userOf := fun id => (l.lookup id).map fun H c => if c ∈ pre then some (ofList g w H c) else none
      userTo := fun id => (l.lookup id).map fun H c => if c ∈ pre then some (toList g w H c) else none } : Store n)) ?_
  · have f1 : (fun (H : List (V3 Int)) c => if c ∈ cellsIn g w then some (ofList g w H c) else none) = ofLists g w :=
      funext fun H => fill_of ht H
    have f2 : (fun (H : List (V3 Int)) c => if c ∈ cellsIn g w then some (toList g w H c) else none) = toLists g w :=
      funext fun H => fill_to ht H
    rw [f1, f2] at key
    rw [← key]
    congr 1
    cases σ
    simp only at h1 h2
    subst h1 h2
    simp
  · intro pre c post e
    have hc : exist w c = true := (mem_cellsIn ht).1 (by rw [e]; simp)
    have inner := Out.fold_eq (l := l) (f := fun x σ => updateUserLists g w x c σ)
      (fun preH => ({ σ with
        userOf := fun id => (l.lookup id).map fun H x =>
          if x ∈ pre ∨ x = c ∧ id ∈ keys preH then some (ofList g w H x) else none
        userTo := fun id => (l.lookup id).map fun H x =>
          if x ∈ pre ∨ x = c ∧ id ∈ keys preH then some (toList g w H x) else none } : Store n)) ?_
    · refine Eq.trans ?_ (inner.trans ?_)
      · congr 2
        · funext id; congr 1; funext H x; simp [keys]
        · funext id; congr 1; funext H x; simp [keys]
      · congr 2
        · funext id
          cases h : l.lookup id with
          | none => rfl
          | some H =>
            have : id ∈ keys l := by
              by_cases hk : id ∈ keys l
              · exact hk
              · rw [lookup_none_iff.2 hk] at h; cases h
            simp [this]
        · funext id
          cases h : l.lookup id with
          | none => rfl
          | some H =>
            have : id ∈ keys l := by
              by_cases hk : id ∈ keys l
              · exact hk
              · rw [lookup_none_iff.2 hk] at h; cases h
            simp [this]
    · intro preH a postH eH
      have ham : a ∈ l := by rw [eH]; simp
      have ha : l.lookup a.1 = some a.2 := lookup_of_mem hn ham
      rw [updateUserLists_eq hw ht hb (hl a ham) hc (by exact hσ)]
      congr 2
      · funext id
        show (if id = a.1 then _ else _ : Option _) = _
        by_cases h : id = a.1
        · subst h
          rw [if_pos rfl, ha]
          simp only [Option.map_some, Option.some.injEq]
          unfold entry
          simp only [ha, Option.map_some, Option.getD_some]
          funext x
          unfold setAt
          by_cases hx : x = c
          · subst hx; simp [keys]
          · simp [hx]
        · rw [if_neg h]
          have hk : id ∈ keys (preH ++ [a]) ↔ id ∈ keys preH := by simp [keys, h]
          simp only [hk]
      · funext id
        show (if id = a.1 then _ else _ : Option _) = _
        by_cases h : id = a.1
        · subst h
          rw [if_pos rfl, ha]
          simp only [Option.map_some, Option.some.injEq]
          unfold entry
          simp only [ha, Option.map_some, Option.getD_some]
          funext x
          unfold setAt
          by_cases hx : x = c
          · subst hx; simp [keys]
          · simp [hx]
        · rw [if_neg h]
          have hk : id ∈ keys (preH ++ [a]) ↔ id ∈ keys preH := by simp [keys, h]
          simp only [hk]

/-- Lists of neighbors in a new neighborhood. -/
theorem addLists_eq {x : Int × List (V3 Int)} (hx : ∀ o ∈ x.2, o ∈ hoodOf g) {σ : Store n} (hσ : σ.six = sixOf g w)
    (h1 : σ.userOf x.1 = none) (h2 : σ.userTo x.1 = none) (hne : cellsIn g w ≠ []) :
    Out.fold (fun c σ => updateUserLists g w x c σ) (cellsIn g w) σ = .ok { σ with
      userOf := setAt σ.userOf x.1 (ofLists g w x.2)
      userTo := setAt σ.userTo x.1 (toLists g w x.2) } := by
  have key := Out.fold_eq (l := cellsIn g w) (f := fun c σ => updateUserLists g w x c σ)
    (fun pre => if pre = [] then σ else ({ σ with
      userOf := setAt σ.userOf x.1 fun c => if c ∈ pre then some (ofList g w x.2 c) else none
      userTo := setAt σ.userTo x.1 fun c => if c ∈ pre then some (toList g w x.2 c) else none } : Store n)) ?_
  · rw [if_pos rfl, if_neg hne, fill_of ht, fill_to ht] at key
    exact key
  · intro pre c post e
    have hc : exist w c = true := (mem_cellsIn ht).1 (by rw [e]; simp)
    by_cases hp : pre = []
    · subst hp
      rw [if_pos rfl, if_neg (by simp), updateUserLists_eq hw ht hb hx hc hσ]
      congr 2
      · congr 1
        unfold entry
        rw [h1]
        funext y
        unfold setAt
        by_cases hy : y = c
        · subst hy; simp
        · simp [hy]
      · congr 1
        unfold entry
        rw [h2]
        funext y
        unfold setAt
        by_cases hy : y = c
        · subst hy; simp
        · simp [hy]
    · rw [if_neg hp, if_neg (by simp), updateUserLists_eq hw ht hb hx hc (by exact hσ)]
      have twice : ∀ (m : Int → Option (Nat → Option Nbrs)) a b, setAt (setAt m x.1 a) x.1 b = setAt m x.1 b := by
        intro m a b; funext y; unfold setAt; split <;> rfl
      have get : ∀ (m : Int → Option (Nat → Option Nbrs)) a, entry (setAt m x.1 a) x.1 = a := by
        intro m a; unfold entry setAt; simp
      simp only [twice, get, setAt_fill]

end

/-! ## Cells on process boundaries -/

/-- Remote neighbors in a list. -/
def remoteIn (i : Fin n) (w : Owner n) (l : List Nat) : List Nat := l.filter fun b => b != 0 && w b != some i

theorem infoLoop_eq {i : Fin n} {skip : Bool} {c : Nat} {l : Nbrs}
    (hl : ∀ x ∈ l, exist w x.1 = true ∧ x.1 ≠ 0) (A B : List Nat) :
    infoLoop i w skip c l (dedup A, dedup B) =
      .ok (dedup (A ++ (remoteIn i w (l.map (·.1))).map fun _ => c), dedup (B ++ remoteIn i w (l.map (·.1)))) := by
  induction l generalizing A B with
  | nil => simp [infoLoop, Out.fold, remoteIn]
  | cons b l ih =>
    obtain ⟨h1, h2⟩ := hl b List.mem_cons_self
    obtain ⟨j, hj⟩ := exist_iff.1 h1
    have ih := ih fun x hx => hl x (List.mem_cons_of_mem _ hx)
    unfold infoLoop at ih ⊢
    unfold Out.fold
    simp only [h2, and_false, if_false]
    rw [Out.at_some hj, Out.bind_ok]
    by_cases e : j = i
    · subst e
      rw [if_neg (by simp)]
      have : remoteIn j w ((b :: l).map (·.1)) = remoteIn j w (l.map (·.1)) := by
        unfold remoteIn
        rw [List.map_cons, List.filter_cons_of_neg (by simp [hj])]
      rw [this]
      exact ih A B
    · rw [if_pos e, ins_dedup, ins_dedup]
      have : remoteIn i w ((b :: l).map (·.1)) = b.1 :: remoteIn i w (l.map (·.1)) := by
        unfold remoteIn
        rw [List.map_cons, List.filter_cons_of_pos (by simp [hj, h2, e])]
      simp only [this]
      rw [ih (A ++ [c]) (B ++ [b.1])]
      simp

section
variable (hw : g.WF) (ht : Tiled g (exist w)) (hb : Balanced g (exist w)) {H : List (V3 Int)}
  (hH : ∀ o ∈ H, o ∈ hoodOf g)

/-- Remote neighbors of a cell. -/
def remoteNbrs (g : Cfg) (w : Owner n) (H : List (V3 Int)) (i : Fin n) (c : Nat) : List Nat :=
  remoteIn i w (nbrsOfH g (exist w) H c ++ nbrsToH g (exist w) H c)

include hw ht hb hH

theorem bothLoops_eq {i : Fin n} {c : Nat} (hc : exist w c = true) (A B : List Nat) :
    ((Out.at (ofLists g w H) c).bind fun l => (infoLoop i w true c l (dedup A, dedup B)).bind fun s =>
      (Out.at (toLists g w H) c).bind fun r => infoLoop i w false c r s) =
    .ok (dedup (A ++ (remoteNbrs g w H i c).map fun _ => c), dedup (B ++ remoteNbrs g w H i c)) := by
  rw [Out.at_some (b := ofList g w H c) (by unfold ofLists; rw [if_pos hc]), Out.bind_ok, infoLoop_eq, Out.bind_ok,
    Out.at_some (b := toList g w H c) (by unfold toLists; rw [if_pos hc]), Out.bind_ok, infoLoop_eq]
  · rw [ofList_ids, toList_ids]
    unfold remoteNbrs remoteIn
    simp
  · intro x hx
    have := toList_exist hw ht hb hH hc hx
    exact ⟨this, valid_ne_zero (ht.valid _ this)⟩
  · intro x hx
    have := ofList_exist hw ht hb hH hc hx
    exact ⟨this, valid_ne_zero (ht.valid _ this)⟩

theorem infoFold_eq {i : Fin n} {p : Proc n D W} (ho : p.owner = w) (hd : ∀ c, p.has c = true ↔ w c = some i)
    {f : Nat → List Nat × List Nat → Out (List Nat × List Nat)}
    (hf : ∀ c A B, w c = some i → f c (dedup A, dedup B) =
      .ok (dedup (A ++ (remoteNbrs g w H i c).map fun _ => c), dedup (B ++ remoteNbrs g w H i c))) :
    Out.fold (fun c s => if c ≠ getChild g (exist p.owner) c then .ok s else f c s) (heldBy g p) ([], []) =
      .ok (localBoundaryH g H i p.owner p.has, dedup (remoteBoundaryH g H i p.owner p.has)) := by
  subst ho
  have key := Out.fold_eq (l := heldBy g p)
    (f := fun c s => if c ≠ getChild g (exist p.owner) c then .ok s else f c s)
    (fun pre => (dedup (pre.flatMap fun c => (remoteNbrs g p.owner H i c).map fun _ => c),
      dedup (pre.flatMap (remoteNbrs g p.owner H i)))) ?_
  · refine key.trans ?_
    have hnd : (heldBy g p).Nodup := List.Pairwise.filter _ (by unfold ids; exact List.nodup_range)
    have e1 : localBoundaryH g H i p.owner p.has = (heldBy g p).filter fun c => !(remoteNbrs g p.owner H i c).isEmpty := by
      unfold localBoundaryH heldBy
      rw [List.filter_filter]
      apply List.filter_congr
      intro c _
      rw [Bool.eq_iff_iff]
      have hx : (!(remoteNbrs g p.owner H i c).isEmpty) = true ↔
          ((nbrsOfH g (exist p.owner) H c ++ nbrsToH g (exist p.owner) H c).any fun b => b != 0 && p.owner b != some i) = true := by
        unfold remoteNbrs remoteIn
        rw [Bool.not_eq_true', List.isEmpty_eq_false_iff, List.any_eq_true, ← List.length_pos_iff, List.length_pos_iff_exists_mem]
        constructor
        · rintro ⟨b, hb⟩; exact ⟨b, List.mem_filter.1 hb⟩
        · rintro ⟨b, hb⟩; exact ⟨b, List.mem_filter.2 hb⟩
      simp only [Bool.and_eq_true, hx, beq_iff_eq]
      constructor
      · rintro ⟨⟨⟨h1, h2⟩, h3⟩, h4⟩; exact ⟨h4, h1⟩
      · rintro ⟨h4, h1⟩
        have h3 := (hd c).1 h1
        have he := exist_of h3
        exact ⟨⟨⟨h1, (ht.getChild_eq_iff hw (valid_ne_zero (ht.valid c he))).2 he⟩, h3⟩, h4⟩
    rw [dedup_repeat hnd, ← e1]
    unfold remoteBoundaryH
    rw [e1, flatMap_filter_nil (l := heldBy g p) (fun c => !(remoteNbrs g p.owner H i c).isEmpty)]
    · rfl
    · intro c _ h
      simpa using h
  · intro pre c post e
    have hm : c ∈ heldBy g p := by rw [e]; simp
    have hwc := (hd c).1 (List.mem_filter.1 hm).2
    have he := exist_of hwc
    rw [if_neg (by simpa using ((ht.getChild_eq_iff hw (valid_ne_zero (ht.valid c he))).2 he).symm), hf c _ _ hwc]
    simp

theorem updateInfo_eq' {i : Fin n} {p : Proc n D W} (ho : p.owner = w) (hd : ∀ c, p.has c = true ↔ w c = some i)
    {σ : Store n} (h1 : σ.of = ofLists g w H) (h2 : σ.to = toLists g w H) :
    updateInfo g i p σ = .ok { σ with
      loc := localBoundaryH g H i p.owner p.has
      rem := dedup (remoteBoundaryH g H i p.owner p.has) } := by
  unfold updateInfo
  rw [infoFold_eq hw ht hb hH ho hd, Out.bind_ok]
  intro c A B hc
  unfold cellInfo
  rw [ho, hc, h1, h2]
  simp only [ne_eq, not_true, if_false]
  exact bothLoops_eq hw ht hb hH (exist_of hc) A B

theorem updateUserInfo_eq {i : Fin n} {p : Proc n D W} (ho : p.owner = w) (hd : ∀ c, p.has c = true ↔ w c = some i)
    {σ : Store n} {id : Int} (h1 : σ.userOf id = some (ofLists g w H)) (h2 : σ.userTo id = some (toLists g w H)) :
    updateUserInfo g i p id σ = .ok { σ with
      userLoc := setAt σ.userLoc id (localBoundaryH g H i p.owner p.has)
      userRem := setAt σ.userRem id (dedup (remoteBoundaryH g H i p.owner p.has)) } := by
  unfold updateUserInfo
  rw [infoFold_eq hw ht hb hH ho hd, Out.bind_ok]
  intro c A B hc
  have he := exist_of hc
  rw [Out.at_some h1, Out.bind_ok, Out.at_some h2, Out.bind_ok]
  unfold userCellInfo
  rw [ho, Out.at_some hc, Out.bind_ok, if_neg (by simp),
    if_neg (by simpa using ((ht.getChild_eq_iff hw (valid_ne_zero (ht.valid c he))).2 he).symm)]
  exact bothLoops_eq hw ht hb hH he A B

end

/-! ## Cells to send and receive -/

/-- Neighbors in a list that are on process `q`. -/
def onProc (i : Fin n) (w : Owner n) (q : Fin n) (l : List Nat) : List Nat :=
  l.filter fun b => b != 0 && w b != some i && w b == some q

theorem listLoop_eq {i : Fin n} {f : Nat → Nat} {l : Nbrs} (hl : ∀ x ∈ l, exist w x.1 = true)
    (A : Fin n → List Nat) :
    listLoop i w f l (fun q => dedup (A q)) =
      .ok fun q => dedup (A q ++ (onProc i w q (l.map (·.1))).map f) := by
  induction l generalizing A with
  | nil => simp [listLoop, Out.fold, onProc]
  | cons b l ih =>
    have h1 := hl b List.mem_cons_self
    obtain ⟨j, hj⟩ := exist_iff.1 h1
    have ih := ih fun x hx => hl x (List.mem_cons_of_mem _ hx)
    unfold listLoop at ih ⊢
    unfold Out.fold
    by_cases h0 : b.1 = 0
    · rw [if_pos h0]
      have : ∀ q, onProc i w q ((b :: l).map (·.1)) = onProc i w q (l.map (·.1)) := by
        intro q
        unfold onProc
        rw [List.map_cons, List.filter_cons_of_neg (by simp [h0])]
      simp only [this]
      exact ih A
    · rw [if_neg h0, Out.at_some hj, Out.bind_ok]
      by_cases e : j = i
      · subst e
        rw [if_neg (by simp)]
        have : ∀ q, onProc j w q ((b :: l).map (·.1)) = onProc j w q (l.map (·.1)) := by
          intro q
          unfold onProc
          rw [List.map_cons, List.filter_cons_of_neg (by simp [hj])]
        simp only [this]
        exact ih A
      · rw [if_pos e]
        have : ∀ q, onProc i w q ((b :: l).map (·.1)) =
            if q = j then b.1 :: onProc i w q (l.map (·.1)) else onProc i w q (l.map (·.1)) := by
          intro q
          unfold onProc
          by_cases hq : q = j
          · subst hq
            rw [if_pos rfl, List.map_cons, List.filter_cons_of_pos (by simp [hj, h0, e])]
          · have hq' : j ≠ q := fun e => hq e.symm
            rw [if_neg hq, List.map_cons, List.filter_cons_of_neg (by simp [hj, hq'])]
        have e2 : insAt j (f b.1) (fun q => dedup (A q)) = fun q => dedup (if q = j then A q ++ [f b.1] else A q) := by
          funext q
          unfold insAt
          split
          · rw [ins_dedup]
          · rfl
        rw [e2]
        refine (ih _).trans ?_
        congr 1
        funext q
        rw [this]
        split
        · simp
        · rfl

section
variable (hw : g.WF) (ht : Tiled g (exist w)) (hb : Balanced g (exist w)) {H : List (V3 Int)}
  (hH : ∀ o ∈ H, o ∈ hoodOf g)
include hw ht hb hH

theorem listsFrom_eq {maxTag : Nat} {i : Fin n} {has : Nat → Bool} (hd : ∀ c, has c = true ↔ w c = some i)
    (h1 : ∀ q, (sendList g H i w has q).length ≤ maxTag) (h2 : ∀ q, (recvList g H i w has q).length ≤ maxTag) :
    listsFrom maxTag i w (ofLists g w H) (toLists g w H) (localBoundaryH g H i w has) =
      .ok (sendList g H i w has, recvList g H i w has) := by
  unfold listsFrom
  have key := Out.fold_eq (l := localBoundaryH g H i w has)
    (f := fun c (m : (Fin n → List Nat) × (Fin n → List Nat)) =>
      (Out.at (ofLists g w H) c).bind fun l => (listLoop i w (fun b => b) l m.2).bind fun rcv =>
      (Out.at (toLists g w H) c).bind fun r => (listLoop i w (fun _ => c) r m.1).bind fun snd => .ok (snd, rcv))
    (fun pre => (fun q => dedup (pre.flatMap fun c => (onProc i w q (nbrsToH g (exist w) H c)).map fun _ => c),
      fun q => dedup (pre.flatMap fun c => onProc i w q (nbrsOfH g (exist w) H c)))) ?_
  · have e0 : ((fun q => dedup (([] : List Nat).flatMap fun c => (onProc i w q (nbrsToH g (exist w) H c)).map fun _ => c),
        fun q => dedup (([] : List Nat).flatMap fun c => onProc i w q (nbrsOfH g (exist w) H c))) :
        (Fin n → List Nat) × (Fin n → List Nat)) = ((fun _ => []), fun _ => []) := rfl
    rw [e0] at key
    rw [key, Out.bind_ok]
    have e1 : ∀ q, isort (dedup ((localBoundaryH g H i w has).flatMap fun c =>
        (onProc i w q (nbrsToH g (exist w) H c)).map fun _ => c)) = sendList g H i w has q := by
      intro q
      unfold sendList
      apply isort_eq (nodup_dedup _) (nodup_dedup _)
      intro c
      rw [mem_dedup, mem_dedup, List.mem_flatMap, List.mem_filter, List.any_eq_true]
      constructor
      · rintro ⟨a, ha, h⟩
        obtain ⟨b, hb, e⟩ := List.mem_map.1 h
        subst e
        exact ⟨ha, b, (List.mem_filter.1 hb).1, (List.mem_filter.1 hb).2⟩
      · rintro ⟨ha, b, hb, h⟩
        exact ⟨c, ha, List.mem_map.2 ⟨b, List.mem_filter.2 ⟨hb, h⟩, rfl⟩⟩
    have e2 : ∀ q, isort (dedup ((localBoundaryH g H i w has).flatMap fun c =>
        onProc i w q (nbrsOfH g (exist w) H c))) = recvList g H i w has q := fun q => rfl
    rw [if_neg]
    · simp only [e1, e2]
    · rintro ⟨q, h | h⟩
      · have := h1 q
        rw [← e1 q, (isort_perm _).length_eq] at this
        exact absurd this (by simp only at h; omega)
      · have := h2 q
        rw [← e2 q, (isort_perm _).length_eq] at this
        exact absurd this (by simp only at h; omega)
  · intro pre c post e
    have hm : c ∈ localBoundaryH g H i w has := by rw [e]; simp
    have hc := exist_of ((mem_localBoundaryH hw ht hd).1 hm).1
    rw [Out.at_some (b := ofList g w H c) (by unfold ofLists; rw [if_pos hc]), Out.bind_ok,
      listLoop_eq (fun x hx => ofList_exist hw ht hb hH hc hx), Out.bind_ok,
      Out.at_some (b := toList g w H c) (by unfold toLists; rw [if_pos hc]), Out.bind_ok,
      listLoop_eq (fun x hx => toList_exist hw ht hb hH hc hx), Out.bind_ok, ofList_ids, toList_ids]
    simp

end
end Dccrg
