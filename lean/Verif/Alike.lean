import Verif.Hist
import Verif.Rounds
/-!
# Pin requests and weights don't affect anything else

New pin requests and weights of cells have an effect only in load balancing, everything else that is done to two grids that
differ only in them gives two grids that differ only in them.
-/
namespace Dccrg
open Cfg
variable {n : Nat} {D W : Type} {g : Cfg} {dflt : D} {maxTag : Nat}

/-- States of a process that are the same except for new pin requests and weights. -/
def Alike (p p' : Proc n D W) : Prop := p' = { p with newPins := p'.newPins, weights := p'.weights }

theorem Alike.mk (p : Proc n D W) (a : Nat → Option (Option (Fin n))) (b : Nat → Option W) :
    Alike p { p with newPins := a, weights := b } := rfl

theorem Alike.refl (p : Proc n D W) : Alike p p := rfl

theorem Alike.symm {p p' : Proc n D W} (h : Alike p p') : Alike p' p := by
  unfold Alike at h ⊢
  rw [h]

theorem Alike.trans {p p' p'' : Proc n D W} (h : Alike p p') (h' : Alike p' p'') : Alike p p'' := by
  unfold Alike at h h' ⊢
  rw [h', h]

/-- How two results are related. -/
def Out.Rel {α : Type} (R : α → α → Prop) : Out α → Out α → Prop
  | .ok a, .ok b => R a b
  | .throws, .throws => True
  | .hangs, .hangs => True
  | .undef, .undef => True
  | _, _ => False

theorem Out.Rel.inv {α : Type} {R : α → α → Prop} {x y : Out α} (h : Out.Rel R x y) {a : α} (hx : x = .ok a) :
    ∃ b, y = .ok b ∧ R a b := by
  subst hx
  cases y with
  | ok b => exact ⟨b, rfl, h⟩
  | throws => exact h.elim
  | hangs => exact h.elim
  | undef => exact h.elim

theorem Out.Rel.bind {α β : Type} {R : α → α → Prop} {S : β → β → Prop} {x y : Out α} {f f' : α → Out β}
    (h : Out.Rel R x y) (hf : ∀ a b, R a b → Out.Rel S (f a) (f' b)) : Out.Rel S (x.bind f) (y.bind f') := by
  cases x <;> cases y <;> first | exact hf _ _ h | exact h | exact h.elim

theorem Out.Rel.fold {α β : Type} {R : β → β → Prop} {f f' : α → β → Out β}
    (hf : ∀ a b b', R b b' → Out.Rel R (f a b) (f' a b')) : ∀ (l : List α) (b b' : β), R b b' →
    Out.Rel R (Out.fold f l b) (Out.fold f' l b')
  | [], _, _, h => h
  | a :: l, b, b', h => by
    have h1 := hf a b b' h
    unfold Out.fold
    cases hx : f a b <;> cases hy : f' a b' <;> rw [hx, hy] at h1 <;>
      first | exact Out.Rel.fold hf l _ _ h1 | exact h1 | exact h1.elim

theorem Out.Rel.collect {α : Type} {R : Fin n → α → α → Prop} {f f' : Fin n → Out α}
    (h : ∀ i, Out.Rel (R i) (f i) (f' i)) :
    Out.Rel (fun x y => ∀ i, R i (x i) (y i)) (Out.collect f) (Out.collect f') := by
  have e1 : ∀ i, (f' i).isOk = (f i).isOk := by
    intro i; have := h i; cases hx : f i <;> cases hy : f' i <;> rw [hx, hy] at this <;> first | rfl | exact this.elim
  have e2 : ∀ i, (f' i).isUndef = (f i).isUndef := by
    intro i; have := h i; cases hx : f i <;> cases hy : f' i <;> rw [hx, hy] at this <;> first | rfl | exact this.elim
  have e3 : ∀ i, (f' i).isHang = (f i).isHang := by
    intro i; have := h i; cases hx : f i <;> cases hy : f' i <;> rw [hx, hy] at this <;> first | rfl | exact this.elim
  unfold Out.collect
  by_cases h1 : ∀ i, (f i).isOk = true
  · rw [dif_pos h1, dif_pos (fun i => (e1 i).trans (h1 i))]
    intro i
    have hg : ∀ (o : Out α) (ho : o.isOk = true) (a : α), o = .ok a → o.get ho = a := by
      rintro _ _ _ rfl; rfl
    have h3 := h i
    cases hx : f i with
    | ok a =>
      obtain ⟨b, hb, hab⟩ := h3.inv hx
      show R i ((f i).get _) ((f' i).get _)
      rw [hg _ _ _ hx, hg _ _ _ hb]
      exact hab
    | _ => have := h1 i; rw [hx] at this; cases this
  · rw [dif_neg h1, dif_neg (fun h2 => h1 fun i => (e1 i).symm.trans (h2 i))]
    simp only [e2, e3]
    split
    · trivial
    · split <;> trivial

section
variable {i : Fin n}

theorem refineOne_alike (c : Nat) (s s' : Proc n D W × List Nat) (h : Alike s.1 s'.1 ∧ s'.2 = s.2) :
    Out.Rel (fun s s' => Alike s.1 s'.1 ∧ s'.2 = s.2) (refineOne g dflt i c s) (refineOne g dflt i c s') := by
  obtain ⟨p, l⟩ := s
  obtain ⟨p', l'⟩ := s'
  obtain ⟨h, rfl⟩ := h
  simp only at h
  unfold Alike at h
  generalize p'.newPins = a at h
  generalize p'.weights = b at h
  subst h
  unfold refineOne
  simp only
  split
  · trivial
  · split
    · trivial
    · split
      · trivial
      · exact ⟨rfl, rfl⟩

theorem unrefineOne_alike (u : Nat) (s s' : Moving n D W) (h : Alike s.1 s'.1 ∧ s'.2 = s.2) :
    Out.Rel (fun s s' => Alike s.1 s'.1 ∧ s'.2 = s.2) (unrefineOne g i u s) (unrefineOne g i u s') := by
  obtain ⟨p, l⟩ := s
  obtain ⟨p', l'⟩ := s'
  obtain ⟨h, rfl⟩ := h
  simp only at h
  unfold Alike at h
  generalize p'.newPins = a at h
  generalize p'.weights = b at h
  subst h
  unfold unrefineOne
  simp only
  split
  · split
    · split
      · trivial
      · exact ⟨rfl, rfl⟩
    · split
      · exact ⟨rfl, rfl⟩
      · split
        · exact ⟨rfl, rfl⟩
        · exact ⟨rfl, rfl⟩
  · trivial

theorem prepare_alike {p p' : Proc n D W} (h : Alike p p') :
    Out.Rel (fun s s' => Alike s.1.1 s'.1.1 ∧ s'.1.2 = s.1.2 ∧ s'.2 = s.2) (prepare g dflt i p) (prepare g dflt i p') := by
  have er : p'.req = p.req := by rw [h]
  unfold prepare
  rw [er]
  refine Out.Rel.bind (Out.Rel.fold (fun c => refineOne_alike c) _ _ _ ⟨?_, rfl⟩) ?_
  · show Alike _ _
    unfold Alike at h ⊢
    rw [h]
  · rintro ⟨q, l⟩ ⟨q', l'⟩ ⟨h1, rfl⟩
    simp only at h1
    have eo : q'.owner = q.owner := by rw [h1]
    simp only [eo]
    refine Out.Rel.bind (R := fun a b => a = b) ?_ ?_
    · cases Out.fold (parentOwner g) (dedup p.req.toUnrefine) q.owner <;> first | rfl | trivial
    · rintro w _ rfl
      refine Out.Rel.bind (Out.Rel.fold (fun c => unrefineOne_alike c) _ _ _ ⟨?_, rfl⟩) ?_
      · show Alike _ _
        unfold Alike at h1 ⊢
        rw [h1]
      · rintro m m' ⟨h2, h3⟩
        exact ⟨h2, h3, rfl⟩

theorem rebuild_alike {p p' : Proc n D W} (h : Alike p p') :
    Out.Rel Alike (rebuild g dflt maxTag i p) (rebuild g dflt maxTag i p') := by
  unfold Alike at h
  generalize p'.newPins = a at h
  generalize p'.weights = b at h
  subst h
  unfold rebuild
  have e1 : neighborsFound g { p with newPins := a, weights := b } = neighborsFound g p := rfl
  have e2 : tagsFit g maxTag i { p with newPins := a, weights := b } = tagsFit g maxTag i p := rfl
  rw [e1, e2]
  split
  · trivial
  · split
    · trivial
    · (show Alike _ _; rfl)

theorem finishRefines_alike {p p' : Proc n D W} (h : Alike p p') :
    Out.Rel Alike (finishRefines g dflt i p) (finishRefines g dflt i p') := by
  unfold Alike at h
  generalize p'.newPins = a at h
  generalize p'.weights = b at h
  subst h
  unfold finishRefines
  simp only
  split
  · trivial
  · (show Alike _ _; rfl)

end

variable {s s' : Sys n D W}

theorem executeRefines_alike (h : ∀ i, Alike (s i) (s' i)) :
    Out.Rel (fun r r' => ∀ i, Alike (r i).1 (r' i).1 ∧ (r' i).2 = (r i).2) (executeRefines g dflt maxTag s)
      (executeRefines g dflt maxTag s') := by
  unfold executeRefines
  refine Out.Rel.bind (Out.Rel.collect fun i => prepare_alike (h i)) fun m m' hm => ?_
  have e1 : (fun p q => isort ((m' p).1.2.1 q)) = fun p q => isort ((m p).1.2.1 q) := by
    funext p q; rw [(hm p).2.1]
  have e2 : (fun q p => isort ((m' q).1.2.2 p)) = fun q p => isort ((m q).1.2.2 p) := by
    funext p q; rw [(hm p).2.1]
  have e3 : (fun p => (m' p).1.1.data) = fun p => (m p).1.1.data := by funext p; rw [(hm p).1]
  have e4 : (fun p => (m' p).1.1.unrefinedData) = fun p => (m p).1.1.unrefinedData := by funext p; rw [(hm p).1]
  rw [e1, e2, e3, e4]
  refine Out.Rel.bind (R := fun a b => a = b) ?_ ?_
  · cases transfer maxTag (fun p q => isort ((m p).1.2.1 q)) (fun q p => isort ((m q).1.2.2 p)) (fun p => (m p).1.1.data)
      (fun p => (m p).1.1.unrefinedData) <;> first | rfl | trivial
  · rintro un _ rfl
    refine Out.Rel.collect (R := fun i (r r' : Proc n D W × List Nat) => Alike r.1 r'.1 ∧ r'.2 = r.2) fun i => ?_
    refine Out.Rel.bind (finishRefines_alike ?_) fun p p' hp => ?_
    · have := (hm i).1
      unfold Alike at this ⊢
      rw [this]
    · exact Out.Rel.bind (rebuild_alike hp) fun q q' hq => ⟨hq, (hm i).2.2⟩

/-- `stop_refining` of two grids that differ only in new pin requests and weights. -/
theorem stopRefining_alike {sorted : Bool} (h : ∀ i, Alike (s i) (s' i)) :
    Out.Rel (fun r r' => ∀ i, Alike (r i).1 (r' i).1 ∧ (r' i).2 = (r i).2) (stopRefining g dflt maxTag sorted s)
      (stopRefining g dflt maxTag sorted s') := by
  have e1 : (fun i => exist (s' i).owner) = fun i => exist (s i).owner := by funext i; rw [h i]
  have e2 : (fun i => (s' i).req) = fun i => (s i).req := by funext i; rw [h i]
  have e3 : (fun i => (s' i).owner) = fun i => (s i).owner := by funext i; rw [h i]
  have e4 : (fun i c => ((s' i).data c).isSome) = fun i c => ((s i).data c).isSome := by funext i; rw [h i]
  unfold stopRefining
  rw [e1, e2, e3, e4]
  split
  · trivial
  · rename_i r hr
    refine Out.Rel.bind (R := fun a b => a = b) ?_ ?_
    · cases induceRefines g (fun i => (s i).owner) (fun i c => ((s i).data c).isSome) (fun i => (r i).toRefine) <;>
        first | rfl | trivial
    · rintro refs _ rfl
      refine Out.Rel.bind (R := fun a b => a = b) ?_ ?_
      · cases overrideUnrefines g (fun i => exist (s i).owner) refs (fun i => (r i).notUnrefine)
          (fun i => (r i).toUnrefine) <;> first | rfl | trivial
      · rintro unrefs _ rfl
        refine Out.Rel.bind (executeRefines_alike fun i => ?_) fun res res' hr => ?_
        · have := h i
          unfold Alike at this ⊢
          rw [this]
        · intro i
          exact ⟨(hr i).1, by show (if sorted = true then _ else _) = if sorted = true then _ else _; rw [(hr i).2]⟩

theorem ask_alike {i : Fin n} {o : Out (Bool × Req)} (h : ∀ i, Alike (s i) (s' i)) :
    Out.Rel (fun t t' => ∀ i, Alike (t i) (t' i)) (s.ask i o) (s'.ask i o) := by
  unfold Sys.ask
  refine Out.Rel.bind (R := fun a b => a = b) ?_ ?_
  · cases o <;> first | rfl | trivial
  · rintro x _ rfl j
    unfold Sys.set
    split
    · have := h i
      unfold Alike at this ⊢
      rw [this]
    · exact h j

theorem set_alike {i : Fin n} {p p' : Proc n D W} (h : ∀ i, Alike (s i) (s' i)) (hp : Alike p p') (j : Fin n) :
    Alike (s.set i p j) (s'.set i p' j) := by
  unfold Sys.set
  split
  · exact hp
  · exact h j

theorem pin_alike {i : Fin n} {p : Proc n D W} {c : Nat} {q : Int} : Alike p (pin g i p c q).2 := by
  unfold pin
  split
  · rfl
  · split
    · split <;> rfl
    · rfl

theorem unpin_alike {i : Fin n} {p : Proc n D W} {c : Nat} : Alike p (unpin g i p c).2 := by
  unfold unpin
  split
  · rfl
  · split <;> rfl

theorem unpinLocal_alike {i : Fin n} {p : Proc n D W} : Alike p (unpinLocal g i p).2 := by
  unfold unpinLocal
  generalize (ids g).filter _ = l
  suffices ∀ b (q : Proc n D W), Alike p q → Alike p (l.foldl (fun s c => let r := unpin g i s.2 c; (s.1 && r.1, r.2)) (b, q)).2
    from this true p (.refl p)
  induction l with
  | nil => exact fun _ _ h => h
  | cons a l ih => exact fun b q h => ih _ _ (h.trans unpin_alike)

theorem setWeight_alike {i : Fin n} {p : Proc n D W} {c : Nat} {x : W} : Alike p (setWeight g i p c x).2 := by
  unfold setWeight
  split <;> rfl

theorem updateRemote_alike {id : Int} (h : ∀ i, Alike (s i) (s' i)) :
    Out.Rel (fun r r' : Fin n → Bool × Proc n D W => ∀ i, Alike (r i).2 (r' i).2) (updateRemote g maxTag id s)
      (updateRemote g maxTag id s') := by
  have eo : ∀ i, (s' i).owner = (s i).owner := fun i => by rw [h i]
  have ed : ∀ i, (s' i).data = (s i).data := fun i => by rw [h i]
  unfold updateRemote
  have eh : ∀ i, hoodFor g (s' i) id = hoodFor g (s i) id := fun i => by rw [h i]; rfl
  have em : ∀ i, (s' i).remote = (s i).remote := fun i => by rw [h i]
  simp only [eh, eo, ed, em]
  split
  · trivial
  · refine Out.Rel.bind (R := fun a b => a = b) ?_ ?_
    · generalize transfer maxTag _ _ _ _ = o
      cases o <;> first | rfl | trivial
    · rintro rem _ rfl i
      have := h i
      show _ = _
      simp only
      unfold Alike at this
      rw [this]

/-- Everything except load balancing. -/
theorem step_alike {op : Op n D W} (hb : ∀ z, op ≠ .balance z) (h : ∀ i, Alike (s i) (s' i)) :
    Out.Rel (fun t t' => ∀ i, Alike (t i) (t' i)) (step g dflt maxTag s op) (step g dflt maxTag s' op) := by
  have eo : ∀ i, (s' i).owner = (s i).owner := fun i => by rw [h i]
  have ed : ∀ i, (s' i).data = (s i).data := fun i => by rw [h i]
  have er : ∀ i, (s' i).req = (s i).req := fun i => by rw [h i]
  cases op with
  | refine i c => show Out.Rel _ (s.ask i _) (s'.ask i _); rw [eo, ed, er]; exact ask_alike h
  | unrefine i c => show Out.Rel _ (s.ask i _) (s'.ask i _); rw [eo, ed, er]; exact ask_alike h
  | dontRefine i c => show Out.Rel _ (s.ask i _) (s'.ask i _); rw [eo, er]; exact ask_alike h
  | dontUnrefine i c => show Out.Rel _ (s.ask i _) (s'.ask i _); rw [eo, er]; exact ask_alike h
  | pin i c q => exact set_alike h ((pin_alike.symm.trans (h i)).trans pin_alike)
  | unpin i c => exact set_alike h ((unpin_alike.symm.trans (h i)).trans unpin_alike)
  | unpinLocal i => exact set_alike h ((unpinLocal_alike.symm.trans (h i)).trans unpinLocal_alike)
  | setWeight i c x => exact set_alike h ((setWeight_alike.symm.trans (h i)).trans setWeight_alike)
  | write i c v =>
    refine set_alike h ?_
    have := h i
    generalize s' i = p' at this ⊢
    unfold Alike at this
    generalize p'.newPins = a at this
    generalize p'.weights = b at this
    subst this
    unfold write
    simp only
    split
    · rfl
    · split
      · rfl
      · split
        · rfl
        · split <;> rfl
  | clearRefined i =>
    refine set_alike h ?_
    have := h i
    unfold Alike clearRefined at *
    rw [this]
  | unpinAll =>
    intro i
    have := h i
    show Alike (unpinAll _) (unpinAll _)
    unfold Alike unpinAll at *
    rw [this]
  | update id =>
    refine Out.Rel.bind (R := fun r r' => ∀ i, Alike (r i).2 (r' i).2) ?_ fun r r' hr => (hr : ∀ i, Alike (r i).2 (r' i).2)
    exact updateRemote_alike h
  | addHood id items =>
    refine Out.Rel.bind (R := fun r r' => ∀ i, Alike (r i).2 (r' i).2) ?_ fun r r' hr => (hr : ∀ i, Alike (r i).2 (r' i).2)
    refine Out.Rel.collect (R := fun i (r r' : Bool × Proc n D W) => Alike r.2 r'.2) fun i => ?_
    have := h i
    generalize s i = p at this ⊢
    generalize s' i = p' at this ⊢
    unfold Alike at this
    generalize p'.newPins = a at this
    generalize p'.weights = b at this
    subst this
    unfold addHood
    have e1 : neighborsFound g { p with newPins := a, weights := b, hoods := [(id, items)] } =
      neighborsFound g { p with hoods := [(id, items)] } := rfl
    have e2 : tagsFit g maxTag i { p with newPins := a, weights := b, hoods := [(id, items)] } =
      tagsFit g maxTag i { p with hoods := [(id, items)] } := rfl
    simp only [e1, e2]
    split
    · (show Alike _ _; rfl)
    · split
      · (show Alike _ _; rfl)
      · split
        · (show Alike _ _; rfl)
        · split
          · trivial
          · split
            · trivial
            · (show Alike _ _; rfl)
  | removeHood id =>
    intro i
    have := h i
    show Alike (removeHood _ _) (removeHood _ _)
    generalize s i = p at this ⊢
    generalize s' i = p' at this ⊢
    unfold Alike at this
    generalize p'.newPins = a at this
    generalize p'.weights = b at this
    subst this
    unfold removeHood
    split <;> rfl
  | stop sorted =>
    refine Out.Rel.bind (stopRefining_alike h) fun r r' hr => ?_
    intro i
    exact (hr i).1
  | balance z => exact absurd rfl (hb z)

end Dccrg
