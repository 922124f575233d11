import Verif.Stored
import Verif.Copies
/-!
# Loops that fill containers

What the loops in Verif/Stored.lean leave in containers and sets.
-/
namespace Dccrg
open Cfg
variable {n : Nat} {D W : Type}

/-- A loop with a known state after every part of it. -/
theorem Out.fold_eq {α β : Type} {f : α → β → Out β} {l : List α} (S : List α → β)
    (h : ∀ pre a post, l = pre ++ a :: post → f a (S pre) = .ok (S (pre ++ [a]))) :
    Out.fold f l (S []) = .ok (S l) := by
  suffices ∀ (post pre : List α), l = pre ++ post → Out.fold f post (S pre) = .ok (S l) from this l [] rfl
  intro post
  induction post with
  | nil => intro pre e; rw [List.append_nil] at e; subst e; rfl
  | cons a post ih =>
    intro pre e
    unfold Out.fold
    rw [h pre a post e]
    exact ih (pre ++ [a]) (by rw [e, List.append_assoc]; rfl)

theorem Out.at_some {α β : Type} {m : α → Option β} {a : α} {b : β} (h : m a = some b) : Out.at m a = .ok b := by
  unfold Out.at; rw [h]

theorem Out.at_none {α β : Type} {m : α → Option β} {a : α} (h : m a = none) : Out.at m a = .throws := by
  unfold Out.at; rw [h]

theorem Out.at_ok {α β : Type} {m : α → Option β} {a : α} {b : β} (h : Out.at m a = .ok b) : m a = some b := by
  unfold Out.at at h
  split at h
  · rename_i e; injection h with h; rw [e, h]
  · cases h

theorem setAt_fill {α β : Type} [DecidableEq α] (m : α → Option β) (v : α → β) (pre : List α) (a : α) :
    setAt (fun x => if x ∈ pre then some (v x) else m x) a (v a) =
      fun x => if x ∈ pre ++ [a] then some (v x) else m x := by
  funext x
  unfold setAt
  by_cases e : x = a
  · subst e; simp
  · rw [if_neg e]; simp [e]

/-! ## Sets -/

theorem dedup_filter (x : Nat) (l : List Nat) : dedup (l.filter (· != x)) = (dedup l).filter (· != x) := by
  induction l with
  | nil => rfl
  | cons a l ih =>
    by_cases h : a = x
    · subst h
      rw [List.filter_cons_of_neg (by simp), ih]
      by_cases h1 : a ∈ l
      · rw [dedup, if_pos h1]
      · rw [dedup, if_neg h1, List.filter_cons_of_neg (by simp)]
    · have e : (a != x) = true := by simpa using h
      rw [List.filter_cons_of_pos (by exact e)]
      by_cases h1 : a ∈ l
      · rw [dedup, dedup, if_pos h1, if_pos (List.mem_filter.2 ⟨h1, e⟩), ih]
      · rw [dedup, dedup, if_neg h1, if_neg (fun h => h1 (List.mem_filter.1 h).1), ih,
          List.filter_cons_of_pos (by exact e)]

/-- Insertion of one more element. -/
theorem ins_dedup (x : Nat) (l : List Nat) : ins x (dedup l) = dedup (l ++ [x]) := by
  unfold ins
  induction l with
  | nil => rfl
  | cons a l ih =>
    rw [List.cons_append]
    by_cases h : a ∈ l
    · rw [dedup, if_pos h, dedup, if_pos (List.mem_append_left _ h), ih]
    · rw [dedup, if_neg h]
      by_cases e : a = x
      · subst e
        rw [List.filter_cons_of_neg (by simp), ih, dedup, if_pos (by simp)]
      · rw [List.filter_cons_of_pos (by simpa using e), List.cons_append, ih, dedup, if_neg (by simp [h, e])]

theorem dedup_nodup {l : List Nat} (h : l.Nodup) : dedup l = l := by
  induction l with
  | nil => rfl
  | cons a l ih =>
    rw [List.nodup_cons] at h
    rw [dedup, if_neg h.1, ih h.2]

/-- Each cell inserted any number of times. -/
theorem dedup_repeat {l : List Nat} (hl : l.Nodup) (f : Nat → List Nat) :
    dedup (l.flatMap fun c => (f c).map fun _ => c) = l.filter fun c => !(f c).isEmpty := by
  induction l with
  | nil => rfl
  | cons a l ih =>
    rw [List.nodup_cons] at hl
    rw [List.flatMap_cons]
    have ha : a ∉ l.flatMap fun c => (f c).map fun _ => c := by
      intro h
      obtain ⟨c, h1, h2⟩ := List.mem_flatMap.1 h
      obtain ⟨_, -, e⟩ := List.mem_map.1 h2
      subst e
      exact hl.1 h1
    have hk : ∀ k : List Nat, k ≠ [] → dedup (k.map (fun _ => a) ++ l.flatMap fun c => (f c).map fun _ => c) =
        a :: dedup (l.flatMap fun c => (f c).map fun _ => c) := by
      intro k hk
      induction k with
      | nil => exact absurd rfl hk
      | cons b k ihk =>
        cases k with
        | nil => rw [List.map_cons, List.map_nil, List.cons_append, List.nil_append, dedup, if_neg ha]
        | cons b' k =>
          rw [List.map_cons, List.cons_append, dedup, if_pos (by simp)]
          exact ihk (by simp)
    cases e : f a with
    | nil => rw [List.map_nil, List.nil_append, ih hl.2, List.filter_cons_of_neg (by simp [e])]
    | cons b k =>
      rw [hk (b :: k) (by simp), ih hl.2, List.filter_cons_of_pos (by simp [e])]

theorem flatMap_filter_nil {l : List Nat} {f : Nat → List Nat} (p : Nat → Bool) (h : ∀ c ∈ l, p c = false → f c = []) :
    l.flatMap f = (l.filter p).flatMap f := by
  induction l with
  | nil => rfl
  | cons a l ih =>
    have ih := ih fun c hc => h c (List.mem_cons_of_mem _ hc)
    rw [List.flatMap_cons]
    cases e : p a with
    | true => rw [List.filter_cons_of_pos (by exact e), List.flatMap_cons, ih]
    | false => rw [List.filter_cons_of_neg (by simp [e]), h a List.mem_cons_self e, ih]; rfl

/-! ## Neighbors -/

/-- Neighbors found now. -/
def ofList (g : Cfg) (w : Owner n) (H : List (V3 Int)) (c : Nat) : Nbrs :=
  match findNeighborsOf g (exist w) c H with
  | .ok l => l
  | _ => []

def toList (g : Cfg) (w : Owner n) (H : List (V3 Int)) (c : Nat) : Nbrs :=
  match findNeighborsTo g (exist w) c (negHood H) with
  | .ok l => l.map fun b => (b, fun _ => 0)
  | _ => []

/-- What containers of neighbors should have. -/
def ofLists (g : Cfg) (w : Owner n) (H : List (V3 Int)) (c : Nat) : Option Nbrs :=
  if exist w c then some (ofList g w H c) else none

def toLists (g : Cfg) (w : Owner n) (H : List (V3 Int)) (c : Nat) : Option Nbrs :=
  if exist w c then some (toList g w H c) else none

def sixOf (g : Cfg) (w : Owner n) (c : Nat) : Option (Fin 3 → Bool → Nat) :=
  if exist w c then some (nbr6 g (exist w) c) else none

theorem ofList_ids (g : Cfg) (w : Owner n) (H : List (V3 Int)) (c : Nat) :
    (ofList g w H c).map (·.1) = nbrsOfH g (exist w) H c := by
  unfold ofList nbrsOfH
  cases findNeighborsOf g (exist w) c H <;> rfl

theorem toList_ids (g : Cfg) (w : Owner n) (H : List (V3 Int)) (c : Nat) :
    (toList g w H c).map (·.1) = nbrsToH g (exist w) H c := by
  unfold toList nbrsToH
  cases findNeighborsTo g (exist w) c (negHood H) with
  | ok l => simp [Function.comp_def]
  | throws => rfl
  | hangs => rfl
  | undef => rfl

section
variable {g : Cfg} {w : Owner n}

theorem mem_cellsIn (ht : Tiled g (exist w)) {c : Nat} : c ∈ cellsIn g w ↔ exist w c = true := by
  unfold cellsIn
  rw [List.mem_filter, mem_ids]
  exact ⟨fun h => h.2, fun h => ⟨(ht.valid c h).2, h⟩⟩

theorem sixEntry_eq (hw : g.WF) (ht : Tiled g (exist w)) {c : Nat} (hc : exist w c = true) :
    sixEntry g (exist w) c = some (nbr6 g (exist w) c) := by
  have h0 := valid_ne_zero (ht.valid c hc)
  unfold sixEntry
  rw [if_neg]
  rintro (h | h | h)
  · exact h0 h
  · rw [hc] at h; cases h
  · exact h ((ht.getChild_eq_iff hw h0).2 hc).symm

theorem updateSix_eq (hw : g.WF) (ht : Tiled g (exist w)) : updateSix g w = sixOf g w := by
  have : ∀ (l : List Nat) (m : Nat → Option (Fin 3 → Bool → Nat)), (∀ c ∈ l, exist w c = true) →
      l.foldl (fun m c => match sixEntry g (exist w) c with
        | some x => setAt m c x
        | none => m) m = fun c => if c ∈ l then some (nbr6 g (exist w) c) else m c := by
    intro l
    induction l with
    | nil => intro m _; funext c; simp
    | cons a l ih =>
      intro m h
      rw [List.foldl_cons, ih _ fun c hc => h c (List.mem_cons_of_mem _ hc), sixEntry_eq hw ht (h a List.mem_cons_self)]
      funext c
      by_cases e : c ∈ l
      · rw [if_pos e, if_pos (List.mem_cons_of_mem _ e)]
      · rw [if_neg e]
        show setAt m a _ c = _
        unfold setAt
        by_cases e' : c = a
        · subst e'; simp
        · rw [if_neg e', if_neg (by simp [e, e'])]
  unfold updateSix
  refine (this _ _ fun c hc => (mem_cellsIn ht).1 hc).trans ?_
  funext c
  unfold sixOf
  by_cases h : exist w c = true
  · rw [if_pos ((mem_cellsIn ht).2 h), if_pos h]
  · rw [if_neg (fun e => h ((mem_cellsIn ht).1 e)), if_neg h]

theorem walkT_eq (hw : g.WF) (ht : Tiled g (exist w)) (L : Int) (o : V3 Int) (fuel : Nat) :
    ∀ (cur : Nat) (off : V3 Int), cur ≠ 0 →
      walkT g (sixOf g w) L o fuel cur off = walk g (exist w) L o fuel cur off := by
  induction fuel with
  | zero => intro cur off _; unfold walkT walk; rfl
  | succ fuel ih =>
    intro cur off h0
    unfold walkT walk
    cases nextDir L o (g.side cur) off with
    | none => rfl
    | some x =>
      obtain ⟨d, pos⟩ := x
      simp only []
      cases hc : exist w cur with
      | false =>
        have e : sixOf g w cur = none := by unfold sixOf; rw [if_neg (by simp [hc])]
        rw [e, if_pos (fun e => by rw [(ht.getChild_eq_iff hw h0).1 e] at hc; cases hc)]
      | true =>
        have e : sixOf g w cur = some (nbr6 g (exist w) cur) := by unfold sixOf; rw [if_pos hc]
        rw [e, if_neg (by simpa using (ht.getChild_eq_iff hw h0).2 hc)]
        simp only []
        split
        · rfl
        · rename_i h1; exact ih _ _ h1

theorem findItemsT_eq (hw : g.WF) (ht : Tiled g (exist w)) {c : Nat} (h0 : c ≠ 0) (H : List (V3 Int)) :
    findItemsT g (sixOf g w) c H = findItems g (exist w) c H := by
  induction H with
  | nil => rfl
  | cons o H ih =>
    unfold findItemsT findItems
    rw [walkT_eq hw ht _ _ _ _ _ h0, ih]
    cases walk g (exist w) (g.side c) o (walkFuel g o) c fun _ => 0 with
    | found cur off =>
      simp only []
      cases collect g c cur off with
      | none => rfl
      | some l => cases findItems g (exist w) c H <;> rfl
    | _ => rfl

/-- Searches which read stored neighbors find the same. -/
theorem findNeighborsOfT_eq (hw : g.WF) (ht : Tiled g (exist w)) (c : Nat) (H : List (V3 Int)) :
    findNeighborsOfT g (exist w) (sixOf g w) c H = findNeighborsOf g (exist w) c H := by
  unfold findNeighborsOfT findNeighborsOf
  split
  · rfl
  · rename_i h
    have h0 : c ≠ 0 := fun e => h (Or.inl e)
    have hc : exist w c = true := by
      cases hc : exist w c with
      | true => rfl
      | false => exact absurd (Or.inr hc) h
    rw [if_neg (by simpa using (ht.getChild_eq_iff hw h0).2 hc), show sixOf g w c = some _ from if_pos hc]
    exact findItemsT_eq hw ht h0 H

variable (hw : g.WF) (ht : Tiled g (exist w)) (hb : Balanced g (exist w)) {H : List (V3 Int)}
  (hH : ∀ o ∈ H, o ∈ hoodOf g)
include hw ht hb hH

theorem findOf_ok {c : Nat} (hc : exist w c = true) :
    findNeighborsOfT g (exist w) (sixOf g w) c H = .ok (ofList g w H c) := by
  obtain ⟨f, h1, -⟩ := C15_neighbors_of hw ht ((balanced_iff hw ht).1 hb) hc hH
  rw [findNeighborsOfT_eq hw ht]
  unfold ofList
  rw [h1]

theorem findTo_ok {c : Nat} (hc : exist w c = true) :
    findNeighborsTo0 g (exist w) c (negHood H) = .ok (toList g w H c) := by
  obtain ⟨r, h1, -⟩ := C16_neighbors_to hw ht ((balanced_iff hw ht).1 hb) hc hH
  unfold findNeighborsTo0 toList
  rw [h1]
  rfl

theorem ofList_exist {c : Nat} (hc : exist w c = true) {x : Nat × V3 Int} (hx : x ∈ ofList g w H c) :
    exist w x.1 = true := by
  have : x.1 ∈ nbrsOfH g (exist w) H c := by rw [← ofList_ids]; exact List.mem_map.2 ⟨x, hx, rfl⟩
  exact ((mem_nbrsOfH hw ht hb hH hc).1 this).1

theorem toList_exist {c : Nat} (hc : exist w c = true) {x : Nat × V3 Int} (hx : x ∈ toList g w H c) :
    exist w x.1 = true := by
  have : x.1 ∈ nbrsToH g (exist w) H c := by rw [← toList_ids]; exact List.mem_map.2 ⟨x, hx, rfl⟩
  exact ((mem_nbrsToH hw ht hb hH hc).1 this).1

end

section
variable {g : Cfg} {w : Owner n}

theorem fill_of (ht : Tiled g (exist w)) (H : List (V3 Int)) :
    (fun c => if c ∈ cellsIn g w then some (ofList g w H c) else none) = ofLists g w H := by
  funext c
  unfold ofLists
  by_cases h : exist w c = true
  · rw [if_pos ((mem_cellsIn ht).2 h), if_pos h]
  · rw [if_neg (fun e => h ((mem_cellsIn ht).1 e)), if_neg h]

theorem fill_to (ht : Tiled g (exist w)) (H : List (V3 Int)) :
    (fun c => if c ∈ cellsIn g w then some (toList g w H c) else none) = toLists g w H := by
  funext c
  unfold toLists
  by_cases h : exist w c = true
  · rw [if_pos ((mem_cellsIn ht).2 h), if_pos h]
  · rw [if_neg (fun e => h ((mem_cellsIn ht).1 e)), if_neg h]

theorem getParent_leaf (hw : g.WF) (ht : Tiled g (exist w)) {c : Nat} (hc : exist w c = true) :
    getParent g (exist w) c = c := by
  unfold getParent
  rw [if_pos hc]
  split
  · rename_i h
    by_cases h0 : g.lvl c = 0
    · unfold Cfg.parent; rw [if_pos h0]
    · rw [ht.parent_gone hw hc (by omega)] at h; cases h
  · rfl

variable (hw : g.WF) (ht : Tiled g (exist w)) (hb : Balanced g (exist w))
include hw ht hb

theorem updateLists_eq {σ : Store n} (hσ : σ.six = sixOf g w) :
    updateLists g w σ = .ok { σ with of := ofLists g w (hoodOf g), to := toLists g w (hoodOf g) } := by
  unfold updateLists
  have key := Out.fold_eq (l := cellsIn g w) (f := fun c σ =>
    if exist w c = false then .ok σ
    else if c ≠ getChild g (exist w) c then .ok σ
    else if c ≠ getParent g (exist w) c then .ok σ
    else
      (findNeighborsOfT g (exist w) σ.six c (hoodOf g)).bind fun l =>
      (findNeighborsTo0 g (exist w) c (negHood (hoodOf g))).bind fun r =>
      .ok { σ with of := setAt σ.of c l, to := setAt σ.to c r })
    (fun pre => ({ σ with
      of := fun c => if c ∈ pre then some (ofList g w (hoodOf g) c) else none
      to := fun c => if c ∈ pre then some (toList g w (hoodOf g) c) else none } : Store n)) ?_
  · rw [← fill_of ht, ← fill_to ht, ← key]
    congr 1
  · intro pre a post e
    have hc : exist w a = true := (mem_cellsIn ht).1 (by rw [e]; simp)
    have h0 := valid_ne_zero (ht.valid a hc)
    rw [if_neg (by simp [hc]), if_neg (by simpa using ((ht.getChild_eq_iff hw h0).2 hc).symm),
      if_neg (by simpa using (getParent_leaf hw ht hc).symm)]
    simp only [hσ]
    rw [findOf_ok hw ht hb (fun o h => h) hc, Out.bind_ok, findTo_ok hw ht hb (fun o h => h) hc, Out.bind_ok,
      setAt_fill, setAt_fill]

theorem initLists_eq {σ : Store n} (hσ : σ.six = sixOf g w) (h1 : σ.of = fun _ => none) (h2 : σ.to = fun _ => none) :
    initLists g w σ = .ok { σ with of := ofLists g w (hoodOf g), to := toLists g w (hoodOf g) } := by
  unfold initLists
  have key := Out.fold_eq (l := cellsIn g w) (f := fun c σ =>
      (findNeighborsOfT g (exist w) σ.six c (hoodOf g)).bind fun l =>
      (findNeighborsTo0 g (exist w) c (negHood (hoodOf g))).bind fun r =>
      .ok { σ with of := setAt σ.of c l, to := setAt σ.to c r })
    (fun pre => ({ σ with
      of := fun c => if c ∈ pre then some (ofList g w (hoodOf g) c) else none
      to := fun c => if c ∈ pre then some (toList g w (hoodOf g) c) else none } : Store n)) ?_
  · rw [← fill_of ht, ← fill_to ht, ← key]
    congr 1
    cases σ
    simp only at h1 h2
    subst h1 h2
    simp
  · intro pre a post e
    have hc : exist w a = true := (mem_cellsIn ht).1 (by rw [e]; simp)
    simp only [hσ]
    rw [findOf_ok hw ht hb (fun o h => h) hc, Out.bind_ok, findTo_ok hw ht hb (fun o h => h) hc, Out.bind_ok,
      setAt_fill, setAt_fill]

end
end Dccrg
