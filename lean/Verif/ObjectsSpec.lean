import Verif.Objects
/-!
# Objects and data of cells
-/
namespace Dccrg
open Cfg
variable {n : Nat} {D W X Y : Type} {g : Cfg} {w : Owner n} {dflt : D} {maxTag : Nat}

/-! ## Containers -/

theorem Objs.add_isSome (m : Pool) (h : Objs) (c : Nat) (m' : Pool) (x : Nat) :
    ((h.add m c).obj m' x).isSome = ((h.obj m' x).isSome || decide (m' = m ∧ x = c)) := by
  unfold Objs.add
  split
  · rename_i e
    by_cases e' : m' = m ∧ x = c
    · obtain ⟨rfl, rfl⟩ := e'; simp [e]
    · simp [e']
  · by_cases e' : m' = m ∧ x = c
    · simp [e']
    · simp [e']

theorem Objs.add_keep (m : Pool) (h : Objs) (c : Nat) {m' : Pool} {x a : Nat} (e : h.obj m' x = some a) :
    (h.add m c).obj m' x = some a := by
  unfold Objs.add
  split
  · exact e
  · rename_i e'
    show (if m' = m ∧ x = c then _ else _) = _
    rw [if_neg, e]
    rintro ⟨rfl, rfl⟩
    rw [e] at e'; exact e' rfl

theorem Objs.addAll_isSome (m : Pool) (l : List Nat) (h : Objs) (m' : Pool) (x : Nat) :
    ((h.addAll m l).obj m' x).isSome = ((h.obj m' x).isSome || decide (m' = m ∧ x ∈ l)) := by
  unfold Objs.addAll
  induction l generalizing h with
  | nil => simp
  | cons a l ih =>
    rw [List.foldl_cons, ih, Objs.add_isSome]
    by_cases e : m' = m
    · by_cases e1 : x = a <;> simp [e, e1]
    · simp [e]

theorem Objs.addAll_keep (m : Pool) (l : List Nat) (h : Objs) {m' : Pool} {x a : Nat} (e : h.obj m' x = some a) :
    (h.addAll m l).obj m' x = some a := by
  unfold Objs.addAll
  induction l generalizing h with
  | nil => exact e
  | cons b l ih => exact ih _ (h.add_keep m b e)

theorem Objs.addAll_other (m : Pool) (l : List Nat) (h : Objs) {m' : Pool} {x : Nat} (e : ¬ (m' = m ∧ x ∈ l)) :
    (h.addAll m l).obj m' x = h.obj m' x := by
  cases h1 : h.obj m' x with
  | some a => exact h.addAll_keep m l h1
  | none =>
    have := h.addAll_isSome m l m' x
    rw [h1] at this
    simp only [Option.isSome_none, Bool.false_or, decide_eq_false e] at this
    cases h2 : (h.addAll m l).obj m' x with
    | none => rfl
    | some b => rw [h2] at this; cases this

/-- Objects that exist already are not made again. -/
theorem Objs.addAll_same (m : Pool) (l : List Nat) (h : Objs) (hl : ∀ c ∈ l, (h.obj m c).isSome = true) : h.addAll m l = h := by
  unfold Objs.addAll
  induction l generalizing h with
  | nil => rfl
  | cons a l ih =>
    have e : h.add m a = h := if_pos (hl a List.mem_cons_self)
    rw [List.foldl_cons, e]
    exact ih h fun c hc => hl c (List.mem_cons_of_mem _ hc)

theorem Objs.del_obj (m : Pool) (l : List Nat) (h : Objs) (m' : Pool) (x : Nat) :
    (h.del m l).obj m' x = if m' = m ∧ x ∈ l then none else h.obj m' x := rfl

theorem Objs.clear_obj (m : Pool) (h : Objs) (m' : Pool) (x : Nat) :
    (h.clear m).obj m' x = if m' = m then none else h.obj m' x := rfl

/-- Every object is in one place. -/
structure Objs.Distinct (h : Objs) : Prop where
  used : ∀ m c a, h.obj m c = some a → a < h.next
  once : ∀ m c m' c' a, h.obj m c = some a → h.obj m' c' = some a → m = m' ∧ c = c'

theorem Objs.Distinct.empty : Objs.empty.Distinct := by
  constructor
  · intro m c a h; cases h
  · intro m c m' c' a h; cases h

theorem Objs.Distinct.add {h : Objs} (d : h.Distinct) (m : Pool) (c : Nat) : (h.add m c).Distinct := by
  unfold Objs.add
  split
  · exact d
  · constructor
    · intro m' x a e
      replace e : (if m' = m ∧ x = c then some h.next else h.obj m' x) = some a := e
      show a < h.next + 1
      split at e
      · injection e with e; omega
      · have := d.used _ _ _ e; omega
    · intro m1 x1 m2 x2 a e1 e2
      replace e1 : (if m1 = m ∧ x1 = c then some h.next else h.obj m1 x1) = some a := e1
      replace e2 : (if m2 = m ∧ x2 = c then some h.next else h.obj m2 x2) = some a := e2
      split at e1
      · rename_i h1
        injection e1 with e1
        split at e2
        · rename_i h2; exact ⟨h1.1.trans h2.1.symm, h1.2.trans h2.2.symm⟩
        · have := d.used _ _ _ e2; omega
      · split at e2
        · injection e2 with e2
          have := d.used _ _ _ e1; omega
        · exact d.once _ _ _ _ _ e1 e2

theorem Objs.Distinct.addAll {h : Objs} (d : h.Distinct) (m : Pool) (l : List Nat) : (h.addAll m l).Distinct := by
  unfold Objs.addAll
  induction l generalizing h with
  | nil => exact d
  | cons a l ih => exact ih (d.add m a)

theorem Objs.Distinct.del {h : Objs} (d : h.Distinct) (m : Pool) (l : List Nat) : (h.del m l).Distinct := by
  have key : ∀ {m' x a}, (h.del m l).obj m' x = some a → h.obj m' x = some a := by
    intro m' x a e
    rw [Objs.del_obj] at e
    split at e
    · cases e
    · exact e
  exact ⟨fun _ _ _ e => d.used _ _ _ (key e), fun _ _ _ _ _ e1 e2 => d.once _ _ _ _ _ (key e1) (key e2)⟩

theorem Objs.Distinct.clear {h : Objs} (d : h.Distinct) (m : Pool) : (h.clear m).Distinct := by
  have key : ∀ {m' x a}, (h.clear m).obj m' x = some a → h.obj m' x = some a := by
    intro m' x a e
    rw [Objs.clear_obj] at e
    split at e
    · cases e
    · exact e
  exact ⟨fun _ _ _ e => d.used _ _ _ (key e), fun _ _ _ _ _ e1 e2 => d.once _ _ _ _ _ (key e1) (key e2)⟩

/-- There is an object for every cell that has data. -/
def Matches (p : Proc n D W) (h : Objs) : Prop := ∀ m c, (h.obj m c).isSome = (p.pool m c).isSome

theorem forall_pool {P : Pool → Prop} : (∀ m, P m) ↔ P .own ∧ P .copy ∧ P .refined ∧ P .unrefined :=
  ⟨fun h => ⟨h _, h _, h _, h _⟩, fun ⟨h1, h2, h3, h4⟩ m => by cases m <;> assumption⟩

theorem Matches.access {p : Proc n D W} {h : Objs} (hm : Matches p h) (c : Nat) :
    (h.access c).isSome = (Dccrg.access p c).isSome := by
  have h1 : (h.obj .own c).isSome = (p.data c).isSome := hm .own c
  have h2 : (h.obj .copy c).isSome = (p.remote c).isSome := hm .copy c
  have h3 : (h.obj .refined c).isSome = (p.refinedData c).isSome := hm .refined c
  have h4 : (h.obj .unrefined c).isSome = (p.unrefinedData c).isSome := hm .unrefined c
  unfold Objs.access Dccrg.access
  cases e1 : h.obj .own c <;> cases e1' : p.data c <;> rw [e1, e1'] at h1 <;> first | cases h1; done | skip
  · cases e2 : h.obj .copy c <;> cases e2' : p.remote c <;> rw [e2, e2'] at h2 <;> first | cases h2; done | skip
    · cases e3 : h.obj .refined c <;> cases e3' : p.refinedData c <;> rw [e3, e3'] at h3 <;> first | cases h3; done | skip
      · exact h4
      · rfl
    · rfl
  · rfl

/-! ## Loops -/

theorem follow_inv {α β γ : Type} {f : α → β → Out β} {k : α → β → γ → γ} {M : β → γ → Prop} {l : List α}
    (hk : ∀ a ∈ l, ∀ b b' c, M b c → f a b = .ok b' → M b' (k a b c)) {b b' : β} {c : γ} (h : M b c)
    (hf : Out.fold f l b = .ok b') : M b' (follow f k l b c) := by
  induction l generalizing b c with
  | nil =>
    replace hf : Out.ok b = Out.ok b' := hf
    injection hf with hf
    subst hf
    exact h
  | cons a l ih =>
    unfold Out.fold at hf
    unfold follow
    cases e : f a b with
    | ok b1 =>
      rw [e] at hf
      exact ih (fun a ha => hk a (List.mem_cons_of_mem _ ha)) (hk a List.mem_cons_self b b1 c h e) hf
    | throws => rw [e] at hf; cases hf
    | hangs => rw [e] at hf; cases hf
    | undef => rw [e] at hf; cases hf

theorem follow_keep {α β γ : Type} {f : α → β → Out β} {k : α → β → γ → γ} {M : γ → Prop} {l : List α}
    (hk : ∀ a ∈ l, ∀ b c, M c → M (k a b c)) {b : β} {c : γ} (h : M c) : M (follow f k l b c) := by
  induction l generalizing b c with
  | nil => exact h
  | cons a l ih =>
    unfold follow
    cases e : f a b with
    | ok b1 => exact ih (fun a ha => hk a (List.mem_cons_of_mem _ ha)) (hk a List.mem_cons_self b c h)
    | throws => exact h
    | hangs => exact h
    | undef => exact h

theorem Out.fold_inv {α β : Type} {f : α → β → Out β} {M : β → Prop} {l : List α} (hk : ∀ a ∈ l, ∀ b b', M b → f a b = .ok b' → M b')
    {b b' : β} (h : M b) (hf : Out.fold f l b = .ok b') : M b' := by
  induction l generalizing b with
  | nil =>
    replace hf : Out.ok b = Out.ok b' := hf
    injection hf with hf
    subst hf
    exact h
  | cons a l ih =>
    unfold Out.fold at hf
    cases e : f a b with
    | ok b1 => rw [e] at hf; exact ih (fun a ha => hk a (List.mem_cons_of_mem _ ha)) (hk a List.mem_cons_self b b1 h e) hf
    | throws => rw [e] at hf; cases hf
    | hangs => rw [e] at hf; cases hf
    | undef => rw [e] at hf; cases hf

/-! ## Refinement -/

theorem refineOne_matches {i : Fin n} {c : Nat} {s s' : Proc n D W × List Nat} {h : Objs} (hm : Matches s.1 h)
    (hs : refineOne g dflt i c s = .ok s') : Matches s'.1 (refineObjs g i c s h) := by
  unfold refineOne at hs
  cases e : s.1.owner c with
  | none => rw [e] at hs; cases hs
  | some o =>
    rw [e] at hs
    simp only at hs
    split at hs
    · cases hs
    · rename_i h1
      split at hs
      · cases hs
      · injection hs with hs
        subst hs
        by_cases ho : o = i
        · subst ho
          have hr : refineObjs g o c s h = ((h.add .refined c).del .own [c]).addAll .own (g.children c) := if_pos e
          rw [hr]
          have hd : (s.1.data c).isSome = true := by
            cases hx : s.1.data c with
            | some _ => rfl
            | none => exact absurd ⟨rfl, by rw [hx]; rfl⟩ h1
          intro m x
          rw [Objs.addAll_isSome, Objs.del_obj]
          cases m with
          | own =>
            show _ = ((if o = o then fun x => if x ∈ g.children c then some ((s.1.data x).getD dflt)
              else if x = c then none else s.1.data x else s.1.data) x).isSome
            rw [if_pos rfl]
            by_cases hx : x ∈ g.children c
            · simp [hx]
            · by_cases hx' : x = c
              · subst hx'; simp [hx]
              · have := hm .own x
                simp only [hx, hx', if_false, and_false, List.mem_singleton, decide_false, Bool.or_false]
                rw [Objs.add_isSome]
                simpa [Proc.pool] using this
          | copy =>
            have := hm .copy x
            simp only [reduceCtorEq, false_and, if_false, decide_false, Bool.or_false]
            rw [Objs.add_isSome]
            simpa [Proc.pool] using this
          | unrefined =>
            have := hm .unrefined x
            simp only [reduceCtorEq, false_and, if_false, decide_false, Bool.or_false]
            rw [Objs.add_isSome]
            simpa [Proc.pool] using this
          | refined =>
            show _ = ((if o = o then put s.1.refinedData [c] (s.1.data c) else s.1.refinedData) x).isSome
            rw [if_pos rfl]
            have := hm .refined x
            simp only [reduceCtorEq, false_and, if_false, decide_false, Bool.or_false]
            rw [Objs.add_isSome]
            unfold put
            by_cases hx : x = c
            · subst hx; simp [hd]
            · simpa [hx, Proc.pool] using this
        · have hr : refineObjs g i c s h = h := if_neg (by rw [e]; simpa using ho)
          rw [hr]
          intro m x
          have := hm m x
          cases m
          · show _ = ((if o = i then _ else s.1.data) x).isSome
            rw [if_neg ho]; exact this
          · exact this
          · show _ = ((if o = i then _ else s.1.refinedData) x).isSome
            rw [if_neg ho]; exact this
          · exact this

theorem unrefineOne_matches {i : Fin n} {u : Nat} {s s' : Moving n D W} {h : Objs} (hm : Matches s.1 h)
    (hs : unrefineOne g i u s = .ok s') : Matches s'.1 (unrefineObjs g i u s h) := by
  unfold unrefineOne at hs
  split at hs
  · rename_i op ou e1 e2
    simp only at hs
    unfold unrefineObjs
    rw [e1, e2]
    split at hs
    · rename_i h1
      obtain ⟨rfl, rfl⟩ := h1
      split at hs
      · cases hs
      · rename_i h2
        injection hs with hs
        subst hs
        rw [if_pos ⟨rfl, rfl⟩]
        have hd : (s.1.data u).isSome = true := by
          cases hx : s.1.data u with
          | some _ => rfl
          | none => rw [hx] at h2; exact absurd rfl h2
        intro m x
        rw [Objs.del_obj]
        have := hm m x
        cases m with
        | own =>
          show _ = (put s.1.data [u] none x).isSome
          unfold put
          by_cases hx : x = u
          · subst hx; simp
          · simp only [List.mem_singleton, hx, and_false, if_false]
            rw [Objs.add_isSome]
            simpa [Proc.pool] using this
        | copy =>
          simp only [reduceCtorEq, false_and, if_false]
          rw [Objs.add_isSome]
          simpa [Proc.pool] using this
        | refined =>
          simp only [reduceCtorEq, false_and, if_false]
          rw [Objs.add_isSome]
          simpa [Proc.pool] using this
        | unrefined =>
          show _ = (put s.1.unrefinedData [u] (s.1.data u) x).isSome
          simp only [reduceCtorEq, false_and, if_false]
          rw [Objs.add_isSome]
          unfold put
          by_cases hx : x = u
          · subst hx; simp [hd]
          · simpa [hx, Proc.pool] using this
    · rename_i h1
      have hne : ¬ (some ou = some i ∧ some op = some i) := by
        rintro ⟨h2, h3⟩
        injection h2 with h2
        injection h3 with h3
        exact h1 ⟨h2.symm, h3.symm⟩
      rw [if_neg hne]
      split at hs
      · injection hs with hs; subst hs; intro m x; have := hm m x; cases m <;> exact this
      · split at hs
        · injection hs with hs; subst hs; intro m x; have := hm m x; cases m <;> exact this
        · injection hs with hs; subst hs; intro m x; have := hm m x; cases m <;> exact this
  · cases hs

end Dccrg
