import Verif.DebugStore
/-!
# Checks of debug builds in stop_refining always succeed
-/
namespace Dccrg
open Cfg
variable {n : Nat} {D W α β : Type} {g : Cfg} {w : Owner n} {R U : Nat → Prop}

/-- Loops are equal if their steps are equal in states that are reached. -/
theorem Out.fold_congr_prefix {f f' : α → β → Out β} : ∀ {l : List α} {b : β},
    (∀ pre a post b', l = pre ++ a :: post → Out.fold f pre b = .ok b' → f' a b' = f a b') →
    Out.fold f' l b = Out.fold f l b := by
  intro l
  induction l with
  | nil => intro b _; rfl
  | cons a l ih =>
    intro b h
    have h0 := h [] a l b rfl rfl
    unfold Out.fold
    rw [h0]
    cases hx : f a b with
    | ok b' =>
      simp only []
      apply ih
      intro pre a' post b'' e1 e2
      refine h (a :: pre) a' post b'' (by rw [e1]; rfl) ?_
      show Out.fold f (a :: pre) b = _
      unfold Out.fold
      rw [hx]
      exact e2
    | throws => rfl
    | hangs => rfl
    | undef => rfl

theorem cellAt_firstChild {c : Nat} : g.cellAt (g.lvl c + 1) (g.idx c) = firstChild g c := by
  unfold firstChild Cfg.child
  congr 1
  funext d
  simp

theorem Out.fold_append {f : α → β → Out β} (l m : List α) (b : β) :
    Out.fold f (l ++ m) b = (Out.fold f l b).bind (Out.fold f m) := by
  induction l generalizing b with
  | nil => rfl
  | cons a l ih =>
    show Out.fold f (a :: (l ++ m)) b = _
    unfold Out.fold
    cases f a b with
    | ok b' => exact ih b'
    | throws => rfl
    | hangs => rfl
    | undef => rfl

/-- A cell without children. -/
theorem getChild_self {E : Nat → Bool} {c : Nat} (hv : g.Valid c) (he : E c = true)
    (hc : g.lvl c < g.maxLvl → E (firstChild g c) = false) : getChild g E c = c := by
  unfold getChild
  rw [if_neg (by simpa using hv)]
  by_cases hl : g.lvl c = g.maxLvl
  · rw [if_pos hl, if_pos he]
  · have hl' : g.lvl c < g.maxLvl := by have := lvl_le hv; omega
    rw [if_neg hl]
    simp only []
    rw [cellAt_firstChild, hc hl', if_neg (by simp), if_pos he]

/-- A cell with children. -/
theorem getChild_refined (hw : g.WF) {E : Nat → Bool} {c : Nat} (hv : g.Valid c) (hl : g.lvl c < g.maxLvl)
    (hc : E (firstChild g c) = true) : getChild g E c ≠ c := by
  unfold getChild
  rw [if_neg (by simpa using hv), if_neg (by omega)]
  simp only []
  rw [cellAt_firstChild, if_pos hc]
  intro e
  have h := firstChild_mem (g := g) (P := c)
  rw [e] at h
  exact self_not_child hw hv hl h

/-- Cells that are not refined get no children. -/
theorem Plan.leaf_child (hw : g.WF) (ht : Tiled g (exist w)) (hp : Plan g (exist w) R U) {k : Nat}
    (hk : exist w k = true) (hr : ¬ R k) (hl : g.lvl k < g.maxLvl) :
    exist w (firstChild g k) = false ∧ ¬ New g R (firstChild g k) ∧ ¬ Par g U (firstChild g k) := by
  have hv := ht.valid k hk
  have hs := (children_spec hw hv hl).1 (firstChild_mem (g := g) (P := k))
  refine ⟨ht.no_child hw hk hl firstChild_mem, ?_, ?_⟩
  · rintro ⟨r, h1, h2⟩
    obtain ⟨e1, e2⟩ := hp.refE r h1
    have := ((children_spec hw (ht.valid r e1) e2).1 h2).2.2
    rw [hs.2.2] at this
    exact hr (this ▸ h1)
  · rintro ⟨u, h1, h2⟩
    obtain ⟨e3, e4, e5⟩ := hp.parent hw ht h1
    have hvu := ht.valid u (hp.unE u h1).1
    have hm := mem_of_mem_children hw hv hl (firstChild_mem (g := g) (P := k)) (h2 ▸ mem_parent hw hvu (mem_idx u))
    have hku := ht.unique _ k u hk (hp.unE u h1).1 hm (mem_idx u)
    have h3 := hs.2.1
    rw [← h2, ← hku] at h3
    rw [← hku] at e5
    omega

theorem prepareD_eq (hw : g.WF) (dflt : D) {s : Sys n D W} (hs : SysCore g w s)
    (hp : Plan g (exist w) R U) (i : Fin n) (hR : ∀ c, c ∈ (s i).req.toRefine ↔ R c)
    (hU : ∀ c, c ∈ (s i).req.toUnrefine ↔ U c) {σ : Store n} (h1 : ∀ c, exist w c = true → σ.of c ≠ none)
    (h2 : ∀ c, exist w c = true → σ.to c ≠ none) :
    prepareD g dflt i σ (s i) = prepare g dflt i (s i) := by
  have ht := hs.tiled
  have howner := hs.owner i
  have hR' : ∀ c, c ∈ dedup (s i).req.toRefine ↔ R c := fun c => mem_dedup.trans (hR c)
  have hU' : ∀ c, c ∈ dedup (s i).req.toUnrefine ↔ U c := fun c => mem_dedup.trans (hU c)
  have hfam : ∀ x, x ∈ families g (s i).req.toUnrefine ↔ Fam g U x := by
    intro x; unfold families Fam; rw [mem_dedup, List.mem_flatMap]; simp only [hU]
  -- cells of a part of the refined cells have children
  have hfold : ∀ l : List Nat, l.Nodup → (∀ c ∈ l, R c) → ∃ p', Out.fold (refineOne g dflt i) l
      ({ s i with remote := fun _ => none, refinedData := fun _ => none, unrefinedData := fun _ => none }, []) =
        .ok (p', [] ++ (l.filter fun c => decide ((s i).owner c = some i)).flatMap g.children) ∧
      Refined g dflt i l { s i with remote := fun _ => none, refinedData := fun _ => none, unrefinedData := fun _ => none } p' := by
    intro l hn hl
    refine refine_fold hw dflt i l _ [] hn ?_ ?_
    · intro c hc
      have hr := hl c hc
      obtain ⟨a1, a2⟩ := hp.refE c hr
      obtain ⟨o, ho⟩ := exist_iff.1 a1
      refine ⟨ht.valid c a1, a2, o, by show (s i).owner c = _; rw [howner, ho], ?_⟩
      rintro rfl
      exact (hs.placed o c).2 ho
    · rintro c hc ⟨r, hr, hk⟩
      have := hp.new_not_exist hw ht ⟨r, hl r hr, hk⟩
      rw [(hp.refE c (hl c hc)).1] at this; cases this
  have hex : ∀ l p', (∀ c ∈ l, R c) → Refined g dflt i l { s i with remote := fun _ => none, refinedData := fun _ => none, unrefinedData := fun _ => none } p' →
      ∀ x, exist w x = true → p'.owner x = w x := by
    intro l p' hl hq x hx
    rw [hq.owner, if_neg]
    · show (s i).owner x = _; rw [howner]
    · rintro ⟨r, hr, hk⟩
      have := hp.new_not_exist hw ht ⟨r, hl r hr, hk⟩
      rw [hx] at this; cases this
  unfold prepareD prepare
  rw [Out.fold_congr_prefix (f := refineOne g dflt i) (f' := refineOneD g dflt i σ) (by
    intro pre c post b' e1 e2
    have hn : (pre ++ c :: post).Nodup := e1 ▸ nodup_dedup _
    rw [List.nodup_append] at hn
    have hc : R c := (hR' c).1 (by rw [e1]; simp)
    unfold refineOneD
    rw [if_neg]
    rintro ⟨-, h⟩
    have he := (hp.refE c hc).1
    rcases h with h | h
    · exact h1 c he h
    · exact h2 c he h)]
  obtain ⟨p1, e1, q1⟩ := hfold (dedup (s i).req.toRefine) (nodup_dedup _) (fun c hc => (hR' c).1 hc)
  rw [e1, Out.bind_ok, Out.bind_ok]
  simp only []
  have hw1e := hex _ p1 (fun c hc => (hR' c).1 hc) q1
  have hd1 : ∀ x, exist w x = true → ¬ R x → p1.data x = (s i).data x := by
    intro x hx hr
    rw [q1.data, if_neg, if_neg]
    · rintro ⟨h, -⟩; exact hr ((hR' x).1 h)
    · rintro ⟨⟨r, hr, hk⟩, -⟩
      have := hp.new_not_exist hw ht ⟨r, (hR' r).1 hr, hk⟩
      rw [hx] at this; cases this
  -- parents of a part of the unrefined cells
  have hpar : ∀ l : List Nat, (∀ u ∈ l, U u) → ∃ w', Out.fold (parentOwner g) l p1.owner = .ok w' ∧
      (∀ x, exist w x = true → w' x = w x) ∧
      ∀ k, exist w k = true → ¬ R k → getChild g (exist w') k = k := by
    intro l hl
    obtain ⟨w', a1, a2⟩ := parentOwner_fold (g := g) l p1.owner
      (by
        intro u hu
        have hp' : Par g U (g.parent u) := ⟨u, hl u hu, rfl⟩
        have := (hp.par_children hw ht hp' firstChild_mem).2.1
        show (p1.owner (firstChild g (g.parent u))).isSome = true
        rw [hw1e _ this]; exact this)
      (by
        intro u hu u' hu' e
        have hp' : Par g U (g.parent u) := ⟨u, hl u hu, rfl⟩
        have h3 := (hp.par_children hw ht hp' firstChild_mem).2.1
        have h4 := hp.par_not_exist hw ht (x := g.parent u') ⟨u', hl u' hu', rfl⟩
        rw [← e] at h4
        exact absurd (h3.symm.trans h4) (by simp))
    have hsame : ∀ x, exist w x = true → w' x = w x := by
      intro x hx
      rw [a2, if_neg, hw1e x hx]
      rintro ⟨u, h, h'⟩
      have := hp.par_not_exist hw ht (x := x) ⟨u, hl u h, h'⟩
      rw [hx] at this; cases this
    refine ⟨w', a1, hsame, fun k hk hr => ?_⟩
    refine getChild_self (ht.valid k hk) (by unfold exist; rw [hsame k hk]; exact hk) (fun hlk => ?_)
    obtain ⟨b1, b2, b3⟩ := hp.leaf_child hw ht hk hr hlk
    have : w' (firstChild g k) = none := by
      rw [a2, if_neg, q1.owner, if_neg]
      · show (s i).owner _ = none
        rw [howner]
        unfold exist at b1
        cases hx : w (firstChild g k) with
        | none => rfl
        | some o => rw [hx] at b1; cases b1
      · rintro ⟨r, hr, hk⟩
        exact b2 ⟨r, (hR' r).1 hr, hk⟩
      · rintro ⟨u, h, h'⟩
        exact b3 ⟨u, hl u h, h'⟩
    unfold exist; rw [this]; rfl
  rw [Out.fold_congr_prefix (f := parentOwner g) (f' := parentOwnerD g i p1) (by
    intro pre u post b' e1 e2
    have hu : U u := (hU' u).1 (by rw [e1]; simp)
    have hl : ∀ x ∈ pre ++ [u], U x := by
      intro x hx
      apply (hU' x).1
      rw [e1]
      rcases List.mem_append.1 hx with h | h
      · exact List.mem_append_left _ h
      · rw [List.mem_singleton.1 h]; simp
    obtain ⟨w1, a1, a2, a3⟩ := hpar pre (fun x hx => hl x (List.mem_append_left _ hx))
    rw [a1] at e2
    injection e2 with e2
    subst e2
    obtain ⟨w2, c1, c2, c3⟩ := hpar (pre ++ [u]) hl
    obtain ⟨d1, d2, d3⟩ := hp.unE u hu
    obtain ⟨f1, f2, f3⟩ := hp.parent hw ht hu
    have hnr : ¬ R u := (d3 u (mem_children_parent hw (ht.valid u d1) d2)).2
    have hstep : parentOwner g u w1 = .ok w2 := by
      have : Out.fold (parentOwner g) (pre ++ [u]) p1.owner = (parentOwner g u w1).bind fun x => .ok x := by
        rw [Out.fold_append, a1, Out.bind_ok]
        unfold Out.fold
        cases parentOwner g u w1 <;> rfl
      rw [this] at c1
      cases hx : parentOwner g u w1 with
      | ok x => rw [hx] at c1; exact c1
      | throws => rw [hx] at c1; cases c1
      | hangs => rw [hx] at c1; cases c1
      | undef => rw [hx] at c1; cases c1
    unfold parentOwnerD
    rw [if_neg, hstep, Out.bind_ok, if_pos]
    · refine ⟨fun k hk => Or.inr ?_, mem_children_parent hw (ht.valid u d1) d2⟩
      obtain ⟨g1, g2⟩ := d3 k hk
      refine ⟨by unfold exist; rw [c2 k g1]; exact g1, (c3 k g1 g2).symm, fun hik => ?_⟩
      rw [c2 k g1] at hik
      show (p1.data k).isSome = true
      rw [hd1 k g1 g2]
      exact (hs.placed i k).2 hik
    · rintro (h | h | h)
      · exact h (a3 u d1 hnr).symm
      · exact valid_ne_zero f1 h
      · omega)]
  obtain ⟨w2, e2, -, -⟩ := hpar (dedup (s i).req.toUnrefine) (fun u hu => (hU' u).1 hu)
  rw [e2, Out.bind_ok, Out.bind_ok]
  congr 1
  apply Out.fold_congr_prefix
  intro pre u post b' e1 _
  unfold unrefineOneD
  rw [if_neg]
  obtain ⟨v, h3, h4⟩ := (hfam u).1 (by rw [e1]; simp)
  obtain ⟨f1, f2, f3⟩ := hp.parent hw ht h3
  have := ((children_spec hw f1 f2).1 h4).2.1
  omega

theorem finishRefinesD_eq (hw : g.WF) (ht : Tiled g (exist w)) (hp : Plan g (exist w) R U) {dflt : D} {i : Fin n}
    {p p' : Proc n D W} (hU : ∀ c, c ∈ p.req.toUnrefine ↔ U c) (ho : ∀ x, ¬ R x → p.owner x = newOwner g w R U x)
    (hf : finishRefines g dflt i p = .ok p') (hd : ∀ c, p'.has c = true ↔ newOwner g w R U c = some i) :
    finishRefinesD g dflt i p = .ok p' := by
  have hpar : ∀ P, P ∈ parents g p.req.toUnrefine ↔ Par g U P := by
    intro P; unfold parents Par; rw [mem_dedup, List.mem_map]; simp only [hU]
  have hnr : ∀ x, exist w x = false → ¬ R x := fun x hx hr => by rw [(hp.refE x hr).1] at hx; cases hx
  have hex : ∀ x, ¬ R x → exist p.owner x = exist (newOwner g w R U) x := fun x hx => by unfold exist; rw [ho x hx]
  unfold finishRefinesD
  rw [if_neg, hf, Out.bind_ok, if_pos]
  · unfold dbgData
    rw [List.all_eq_true]
    intro c _
    simp only []
    have hh : ({ p' with owner := p.owner } : Proc n D W).has c = p'.has c := rfl
    rw [hh]
    by_cases hr : R c
    · obtain ⟨e1, e2⟩ := hp.refE c hr
      have h0 : p'.has c = false := by
        cases hx : p'.has c with
        | false => rfl
        | true =>
          have := (hd c).1 hx
          rw [newOwner_gone hw ht hp (Or.inl hr)] at this; cases this
      have hn : New g R (firstChild g c) := ⟨c, hr, firstChild_mem⟩
      have he : exist p.owner (firstChild g c) = true := by
        rw [hex _ (hnr _ (hp.new_not_exist hw ht hn)), newOwner_exist hw ht hp]
        exact Or.inr (Or.inl hn)
      have h1 : (c == getChild g (exist p.owner) c) = false := by
        have := getChild_refined hw (ht.valid c e1) e2 he
        simpa using fun e => this e.symm
      rw [h0, h1]; simp
    · rw [ho c hr]
      cases hx : p'.has c with
      | true => rw [(hd c).1 hx]; simp
      | false =>
        have : newOwner g w R U c ≠ some i := fun e => by rw [(hd c).2 e] at hx; cases hx
        have e : (newOwner g w R U c == some i) = false := by simpa using this
        rw [e]; simp
  · rintro ⟨P, h1, h2⟩
    have hP := (hpar P).1 h1
    have hx := hp.par_not_exist hw ht hP
    have hk := (hp.par_children hw ht hP (firstChild_mem (g := g) (P := P)))
    apply h2
    have hPv : g.Valid P := by
      obtain ⟨u, h3, h4⟩ := hP
      rw [← h4]; exact (hp.parent hw ht h3).1
    refine (getChild_self hPv ?_ fun _ => ?_).symm
    · rw [hex P (hnr P hx), newOwner_exist hw ht hp]
      obtain ⟨u, h3, h4⟩ := hP
      exact Or.inr (Or.inr ⟨u, h3, h4.symm⟩)
    · rw [hex _ hk.2.2]
      unfold exist
      rw [newOwner_gone hw ht hp (Or.inr hk.1)]; rfl

/-- What a process has stored that checks of refinement use. -/
structure Knows (g : Cfg) (w : Owner n) (i : Fin n) (p : Proc n D W) (σ : Store n) : Prop where
  six : σ.six = sixOf g w
  of : σ.of = ofLists g w (hoodOf g)
  to : σ.to = toLists g w (hoodOf g)
  loc : σ.loc = localBoundaryH g (hoodOf g) i p.owner p.has
  rem : σ.rem = dedup (remoteBoundaryH g (hoodOf g) i p.owner p.has)

theorem Coherent.knows {i : Fin n} {p : Proc n D W} {σ : Store n} {b : Bool} {a : Option Cache} (h : Coherent g i p σ b a)
    (ho : p.owner = w) : Knows g w i p σ :=
  ⟨ho ▸ h.six, ho ▸ h.of, ho ▸ h.to, h.loc, h.rem⟩

theorem executeRefinesD_eq (hw : g.WF) (dflt : D) {maxTag : Nat} {s : Sys n D W} (hs : SysCore g w s)
    (hp : Plan g (exist w) R U) (hR : ∀ i c, c ∈ (s i).req.toRefine ↔ R c)
    (hU : ∀ i c, c ∈ (s i).req.toUnrefine ↔ U c) {σ : Fin n → Store n} (hk : ∀ i, Knows g w i (s i) (σ i)) :
    executeRefinesD g dflt maxTag s σ = executeRefines g dflt maxTag s := by
  have ht := hs.tiled
  have hb := hs.balanced
  unfold executeRefinesD executeRefines
  rw [Out.collect_ok (x := fun _ => ()) (by
    intro i
    rw [dbgInfo_true hw ht hb (hs.owner i) (hs.placed i) (hk i).six (hk i).loc (hk i).rem, Out.check_true,
      if_pos (dbgData_true (hs.owner i) (hs.placed i))]), Out.bind_ok]
  have hsame : ∀ {f : Fin n → List Nat} {P : Nat → Prop}, (∀ i c, c ∈ f i ↔ P c) → dbgSame f = true := by
    intro f P h
    apply dbgSame_true
    intro p q
    apply isort_eq (nodup_dedup _) (nodup_dedup _)
    intro c
    rw [mem_dedup, mem_dedup, h, h]
  rw [if_neg (by rw [hsame hR, hsame hU]; simp)]
  have hprep : ∀ i, ∃ x : Moving n D W × List Nat, prepare g dflt i (s i) = .ok x ∧
      Prepared g w R U dflt i (s i) x.1 x.2 := by
    intro i
    obtain ⟨m, nc, h1, h2⟩ := prepare_spec hw dflt hs hp i (hR i) (hU i)
    exact ⟨(m, nc), h1, h2⟩
  obtain ⟨m, hm1, hm2⟩ := Out.collect_all hprep
  have e1 : (fun i => prepareD g dflt i (σ i) (s i)) = fun i => prepare g dflt i (s i) := by
    funext i
    refine prepareD_eq hw dflt hs hp i (hR i) (hU i) (fun c hc => ?_) (fun c hc => ?_)
    · rw [(hk i).of]; unfold ofLists; rw [if_pos hc]; simp
    · rw [(hk i).to]; unfold toLists; rw [if_pos hc]; simp
  rw [e1, hm1, Out.bind_ok, Out.bind_ok, if_neg]
  · cases htr : transfer maxTag (fun p q => isort ((m p).1.2.1 q)) (fun q p => isort ((m q).1.2.2 p))
      (fun p => (m p).1.1.data) (fun p => (m p).1.1.unrefinedData) with
    | throws => rfl
    | hangs => rfl
    | undef => rfl
    | ok un =>
      rw [Out.bind_ok, Out.bind_ok]
      congr 1
      funext i
      -- the same with enough tags
      have hM : maxTag ≤ max maxTag g.last := Nat.le_max_left _ _
      have hM' : g.last ≤ max maxTag g.last := Nat.le_max_right _ _
      have ht' := hp.tiled hw ht (newOwner_exist hw ht hp)
      obtain ⟨res, x1, x2⟩ := executeRefines_spec hw dflt hs hp hR hU
        (fitsTags_mono hM' (fitsTags_last ht.valid)) (fitsTags_mono hM' (fitsTags_last ht'.valid))
      unfold executeRefines at x1
      rw [hm1, Out.bind_ok, transfer_mono hM htr, Out.bind_ok] at x1
      obtain ⟨p', y1, y2⟩ := Out.bind_inv (Out.collect_inv x1 i)
      obtain ⟨p'', y3, y4⟩ := Out.bind_inv y2
      injection y4 with y4
      have hpl := (x2 i).1.placed
      rw [← y4] at hpl
      simp only [] at hpl
      have hdd : p''.data = p'.data := by
        unfold rebuild at y3
        split at y3
        · cases y3
        · split at y3
          · cases y3
          · injection y3 with y3; rw [← y3]
      rw [hdd] at hpl
      rw [y1, finishRefinesD_eq hw ht hp (p := { (m i).1.1 with unrefinedData := un i }) (by
        intro c
        show c ∈ (m i).1.1.req.toUnrefine ↔ _
        rw [(hm2 i).req, hU]) (hm2 i).owner y1 hpl]
  · unfold dbgSelf
    rw [decide_eq_false_iff_not, Classical.not_not]
    intro i
    constructor
    · rw [List.eq_nil_iff_forall_not_mem]
      intro x hx
      exact (((hm2 i).send i).2 x |>.1 hx).1 rfl
    · rw [List.eq_nil_iff_forall_not_mem]
      intro x hx
      exact (((hm2 i).recv i).2 x |>.1 hx).1 rfl

theorem dbgInduced_true (hw : g.WF) (ht : Tiled g (exist w)) (hb : Balanced g (exist w)) {p : Proc n D W} (ho : p.owner = w)
    {σ : Store n} (h1 : σ.six = sixOf g w) {l : List Nat} (hl : ∀ c, c ∈ l ↔ R c) (hE : ∀ c, R c → exist w c = true)
    (hcl : ∀ r b, R r → exist w b = true → Near g b r → g.lvl b < g.lvl r → R b) : dbgInduced g p σ l = .ok true := by
  unfold dbgInduced
  refine Out.every_true fun c hc => ?_
  have hr := (hl c).1 hc
  have he := hE c hr
  have hH : ∀ o ∈ hoodOf g, o ∈ hoodOf g := fun _ h => h
  rw [ho, h1, findOf_ok hw ht hb hH he, Out.bind_ok, findTo_ok hw ht hb hH he, Out.bind_ok]
  congr 1
  rw [List.all_eq_true]
  intro x hx
  have hm : g.lvl x.1 < g.lvl c → exist w x.1 = true ∧ Near g x.1 c := by
    intro hlt
    refine (mem_nbrs_larger hw ht hb he hlt).1 ?_
    rcases List.mem_append.1 hx with h | h
    · apply List.mem_append_left
      rw [nbrsOf_eq, ← ofList_ids]; exact List.mem_map.2 ⟨x, h, rfl⟩
    · apply List.mem_append_right
      rw [nbrsTo_eq, ← toList_ids]; exact List.mem_map.2 ⟨x, h, rfl⟩
  by_cases hlt : g.lvl x.1 < g.lvl c
  · obtain ⟨a1, a2⟩ := hm hlt
    have : x.1 ∈ l := (hl _).2 (hcl c x.1 hr a1 a2 hlt)
    simp [this]
  · simp [hlt]

theorem dbgUnrefines_true (hw : g.WF) (ht : Tiled g (exist w)) (hb : Balanced g (exist w)) {i : Fin n} {p : Proc n D W}
    (ho : p.owner = w) (hd : ∀ c, p.has c = true ↔ w c = some i) {σ : Store n} (h1 : σ.six = sixOf g w) {l m : List Nat}
    (hp : Plan g (exist w) R U) (hl : ∀ c, c ∈ l ↔ R c) (hm : ∀ c, c ∈ m ↔ U c) : dbgUnrefines g i p σ l m = .ok true := by
  unfold dbgUnrefines
  refine Out.every_true fun u hu => ?_
  have hu := (hm u).1 hu
  obtain ⟨d1, d2, d3⟩ := hp.unE u hu
  have hH : ∀ o ∈ hoodOf g, o ∈ hoodOf g := fun _ h => h
  rw [ho, if_neg, getParent_leaf hw ht d1, h1, findOf_ok hw ht hb hH d1, Out.bind_ok]
  · congr 1
    rw [List.all_eq_true]
    intro x hx
    have hx' : x.1 ∈ nbrsOfH g (exist w) (hoodOf g) u := by rw [← ofList_ids]; exact List.mem_map.2 ⟨x, hx, rfl⟩
    obtain ⟨e1, o, e2, e3⟩ := (mem_nbrsOfH hw ht hb hH d1).1 hx'
    have hn : Near g u x.1 := (near_iff hw).2 (Or.inr ⟨o, e2, e3⟩)
    obtain ⟨f1, f2⟩ := hp.unN u x.1 hu e1 (hn.mono (sub_of_mem_children hw (hp.parent hw ht hu).1 (hp.parent hw ht hu).2.1 (mem_children_parent hw (ht.valid u d1) d2)) (Sub.refl _))
    rw [Bool.or_eq_true, Bool.and_eq_true, decide_eq_true_eq]
    refine Or.inr ⟨f1, ?_⟩
    by_cases he : g.lvl x.1 = g.lvl u
    · have : x.1 ∉ l := fun h => f2 he ((hl _).1 h)
      simp [this]
    · simp [he]
  · rintro (h | h | ⟨h, h'⟩)
    · exact h (getChild_leaf hw ht d1).symm
    · rw [d1] at h; cases h
    · rw [(hd u).2 h] at h'; cases h'

theorem stopRefiningD_eq (hw : g.WF) (dflt : D) {maxTag : Nat} (sorted : Bool) {s : Sys n D W}
    (hs : SysCore g w s) (hr : ∀ i, ReqOk g w (s i).req) {σ : Fin n → Store n} (hk : ∀ i, Knows g w i (s i) (σ i)) :
    stopRefiningD g dflt maxTag sorted s σ = stopRefining g dflt maxTag sorted s := by
  have ht := hs.tiled
  have hb := hs.balanced
  have hp := plan_of_requests hr
  obtain ⟨r, o1, o2⟩ := overrideRefines_spec hw ht hb (fun i => (s i).req)
  have hQ : ∀ c, ((∃ j, c ∈ (s j).req.toRefine) ∧ ¬ Vetoed g w s c) → exist w c = true := by
    rintro c ⟨⟨j, hj⟩, -⟩
    exact ((hr j).refine c hj).1
  obtain ⟨refs, i1, i2⟩ := induceRefines_spec hw ht hb (has := fun i c => ((s i).data c).isSome)
    hs.placed _ hQ (refs := fun i => (r i).toRefine) (fun i c => (o2 i).2.1 c)
  obtain ⟨un, u1, u2⟩ := overrideUnrefines_spec hw ht hb (notUnref := fun i => (r i).notUnrefine)
    (unref := fun i => (r i).toUnrefine) (R := Refines g w s) i2
    (by
      intro i u hu
      rw [(o2 i).2.2.1] at hu
      obtain ⟨e1, e2, e3⟩ := (hr i).unrefine u hu
      exact ⟨e1, e2, e3⟩)
  have hU : ∀ i u, u ∈ un i ↔ Unrefines g w s u := by
    intro i u
    rw [u2]
    unfold Unrefines
    constructor
    · rintro ⟨⟨j, h1⟩, h2, h3⟩
      refine ⟨⟨j, by rw [← (o2 j).2.2.1]; exact h1⟩, fun k hk => ⟨(h2 k hk).1, fun j => ?_⟩, h3⟩
      rw [← (o2 j).2.2.2]; exact (h2 k hk).2 j
    · rintro ⟨⟨j, h1⟩, h2, h3⟩
      refine ⟨⟨j, by rw [(o2 j).2.2.1]; exact h1⟩, fun k hk => ⟨(h2 k hk).1, fun j => ?_⟩, h3⟩
      rw [(o2 j).2.2.2]; exact (h2 k hk).2 j
  have hs' : SysCore g w (fun i => { s i with
      req := ⟨refs i, un i, (r i).notRefine, []⟩ } : Sys n D W) :=
    ⟨hs.owner, ht, hb, hs.placed, hs.pins, hs.pinsAgree, hs.hoods⟩
  have hcons : dbgConsistent g s = true := dbgConsistent_true hs.owner
  unfold stopRefiningD stopRefining
  have e1 : (fun i => exist (s i).owner) = fun _ => exist w := funext fun i => by rw [hs.owner i]
  have e2 : (fun i => (s i).owner) = fun _ => w := funext hs.owner
  rw [e1, o1, e2]
  simp only []
  rw [if_neg]
  · rw [i1, Out.bind_ok, Out.bind_ok, hcons, Out.collect_ok (x := fun _ => ()) (by
      intro i
      rw [dbgInduced_true hw ht hb (hs.owner i) (hk i).six (i2 i) (fun c hc => (hp.refE c hc).1) hp.refC, Out.check_true]),
      Out.bind_ok, if_neg (by simp), u1, Out.bind_ok, Out.bind_ok, Out.collect_ok (x := fun _ => ()) (by
      intro i
      rw [dbgUnrefines_true hw ht hb (hs.owner i) (hs.placed i) (hk i).six hp (i2 i) (hU i), Out.check_true]),
      Out.bind_ok, if_neg (by simp),
      executeRefinesD_eq hw dflt hs' hp i2 hU (fun i => ⟨(hk i).six, (hk i).of, (hk i).to, (hk i).loc, (hk i).rem⟩)]
  · rintro (⟨i, h⟩ | h)
    · unfold dbgRefines at h
      rw [decide_eq_false_iff_not] at h
      apply h
      intro c hc
      have he := hQ c (((o2 i).2.1 c).1 hc)
      rw [hs.owner i, getChild_leaf hw ht he]
      exact ⟨rfl, he, fun h => (hs.placed i c).2 h⟩
    · rw [hcons] at h; cases h

end Dccrg
