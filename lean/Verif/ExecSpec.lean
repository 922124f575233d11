import Verif.ExecLocal
import Verif.Balance
/-!
# Results of execute_refines
-/
namespace Dccrg
open Cfg
variable {n : Nat} {D W : Type} {g : Cfg} {w : Owner n} {R U : Nat → Prop}

/-- First of the eight children of a cell. -/
def firstChild (g : Cfg) (P : Nat) : Nat := g.child P (fun _ => 0)

/-- One of the cells removed by unrefining `U`. -/
def Fam (g : Cfg) (U : Nat → Prop) (x : Nat) : Prop := ∃ u, U u ∧ x ∈ g.children (g.parent u)

/-- One of the cells created by unrefining `U`. -/
def Par (g : Cfg) (U : Nat → Prop) (x : Nat) : Prop := ∃ u, U u ∧ g.parent u = x

/-- One of the cells created by refining `R`. -/
def New (g : Cfg) (R : Nat → Prop) (x : Nat) : Prop := ∃ r, R r ∧ x ∈ g.children r

/-- Consistent state of all processes; `w` are the owners of cells. -/
structure SysOk (g : Cfg) (w : Owner n) (s : Sys n D W) : Prop where
  owner : ∀ i, (s i).owner = w
  tiled : Tiled g (exist w)
  balanced : Balanced g (exist w)
  placed : ∀ i c, ((s i).data c).isSome = true ↔ w c = some i
  pins : ∀ i c, exist w c = false → (s i).pins c = none ∧ (s i).newPins c = none
  pinsAgree : ∀ i j c, (s i).pins c = (s j).pins c
  newPins : ∀ i c, w c ≠ some i → (s i).newPins c = none
  weights : ∀ i c, w c ≠ some i → (s i).weights c = none
  hoods : ∀ i, ∀ h ∈ (s i).hoods, ∀ o ∈ h.2, o ∈ hoodOf g

/-- Same without what is known of processes that have pin requests and weights. -/
structure SysCore (g : Cfg) (w : Owner n) (s : Sys n D W) : Prop where
  owner : ∀ i, (s i).owner = w
  tiled : Tiled g (exist w)
  balanced : Balanced g (exist w)
  placed : ∀ i c, ((s i).data c).isSome = true ↔ w c = some i
  pins : ∀ i c, exist w c = false → (s i).pins c = none ∧ (s i).newPins c = none
  pinsAgree : ∀ i j c, (s i).pins c = (s j).pins c
  hoods : ∀ i, ∀ h ∈ (s i).hoods, ∀ o ∈ h.2, o ∈ hoodOf g

theorem SysOk.core {s : Sys n D W} (h : SysOk g w s) : SysCore g w s :=
  ⟨h.owner, h.tiled, h.balanced, h.placed, h.pins, h.pinsAgree, h.hoods⟩

open Classical in
/-- Owners of cells after refining `R` and unrefining `U`. -/
noncomputable def newOwner (g : Cfg) (w : Owner n) (R U : Nat → Prop) : Owner n := fun x =>
  if R x ∨ Fam g U x then none
  else if Par g U x then w (firstChild g x)
  else if New g R x then w (g.parent x) else w x

theorem firstChild_mem {P : Nat} : firstChild g P ∈ g.children P :=
  mem_children.2 ⟨_, fun _ => by omega, rfl⟩

section
variable (hw : g.WF) (ht : Tiled g (exist w)) (hp : Plan g (exist w) R U)
include hw ht hp

theorem Plan.new_not_exist {x : Nat} (h : New g R x) : exist w x = false := by
  obtain ⟨r, h1, h2⟩ := h
  obtain ⟨e1, e2⟩ := hp.refE r h1
  exact ht.no_child hw e1 e2 h2

theorem Plan.par_not_exist {x : Nat} (h : Par g U x) : exist w x = false := by
  obtain ⟨u, h1, rfl⟩ := h
  obtain ⟨e1, e2, e3⟩ := hp.parent hw ht h1
  cases hx : exist w (g.parent u) with
  | false => rfl
  | true =>
    have := ht.no_child hw hx e2 (mem_children_parent hw (ht.valid u (hp.unE u h1).1) (hp.unE u h1).2.1)
    rw [(hp.unE u h1).1] at this; cases this

theorem Plan.fam_exist {x : Nat} (h : Fam g U x) : exist w x = true ∧ ¬ R x ∧ Par g U (g.parent x) ∧
    x ∈ g.children (g.parent x) := by
  obtain ⟨u, h1, h2⟩ := h
  obtain ⟨e1, e2, e3⟩ := hp.parent hw ht h1
  obtain ⟨a1, a2⟩ := (hp.unE u h1).2.2 x h2
  have h3 := ((children_spec hw e1 e2).1 h2).2.2
  rw [h3]
  exact ⟨a1, a2, ⟨u, h1, rfl⟩, h2⟩

theorem Plan.par_children {x k : Nat} (h : Par g U x) (hk : k ∈ g.children x) :
    Fam g U k ∧ exist w k = true ∧ ¬ R k := by
  obtain ⟨u, h1, rfl⟩ := h
  exact ⟨⟨u, h1, hk⟩, (hp.unE u h1).2.2 k hk⟩

theorem Plan.first_exist {x : Nat} (h : Par g U x) : ∃ o, w (firstChild g x) = some o :=
  exist_iff.1 (hp.par_children hw ht h firstChild_mem).2.1

theorem newOwner_new {x : Nat} (h : New g R x) : newOwner g w R U x = w (g.parent x) := by
  have hx := hp.new_not_exist hw ht h
  unfold newOwner
  rw [if_neg, if_neg, if_pos h]
  · rintro ⟨u, h1, rfl⟩
    obtain ⟨r, h2, h3⟩ := h
    obtain ⟨e1, e2⟩ := hp.refE r h2
    -- the unrefined cell is inside the refined cell
    obtain ⟨e3, e4, e5⟩ := hp.parent hw ht h1
    have hv := ht.valid u (hp.unE u h1).1
    have hm := mem_of_mem_children hw (ht.valid r e1) e2 h3 (mem_parent hw hv (mem_idx u))
    have := ht.unique _ r u e1 (hp.unE u h1).1 hm (mem_idx u)
    have h6 := ((children_spec hw (ht.valid r e1) e2).1 h3).2.1
    rw [this] at h6
    omega
  · rintro (h' | h')
    · rw [(hp.refE x h').1] at hx; cases hx
    · rw [(hp.fam_exist hw ht h').1] at hx; cases hx

theorem newOwner_par {x : Nat} (h : Par g U x) : newOwner g w R U x = w (firstChild g x) := by
  have hx := hp.par_not_exist hw ht h
  unfold newOwner
  rw [if_neg, if_pos h]
  rintro (h' | h')
  · rw [(hp.refE x h').1] at hx; cases hx
  · rw [(hp.fam_exist hw ht h').1] at hx; cases hx

theorem newOwner_same {x : Nat} (h : exist w x = true) (h1 : ¬ R x) (h2 : ¬ Fam g U x) :
    newOwner g w R U x = w x := by
  unfold newOwner
  rw [if_neg (by rintro (h | h); exact h1 h; exact h2 h), if_neg, if_neg]
  · intro h'; rw [hp.new_not_exist hw ht h'] at h; cases h
  · intro h'; rw [hp.par_not_exist hw ht h'] at h; cases h

theorem newOwner_gone {x : Nat} (h : R x ∨ Fam g U x) : newOwner g w R U x = none := by
  unfold newOwner; rw [if_pos h]

/-- Existing cells afterwards. -/
theorem newOwner_exist (x : Nat) :
    exist (newOwner g w R U) x = true ↔ After g (exist w) R U x := by
  constructor
  · intro h
    by_cases h1 : R x ∨ Fam g U x
    · unfold exist at h; rw [newOwner_gone hw ht hp h1] at h; cases h
    by_cases h2 : Par g U x
    · obtain ⟨u, h3, h4⟩ := h2
      exact Or.inr (Or.inr ⟨u, h3, h4.symm⟩)
    by_cases h3 : New g R x
    · exact Or.inr (Or.inl h3)
    · left
      have h4 : exist w x = true := by
        unfold exist newOwner at h
        rw [if_neg h1, if_neg h2, if_neg h3] at h
        exact h
      exact ⟨h4, fun h => h1 (Or.inl h), fun h => h1 (Or.inr h)⟩
  · rintro (⟨h1, h2, h3⟩ | h | ⟨u, h1, h2⟩)
    · unfold exist; rw [newOwner_same hw ht hp h1 h2 h3]; exact h1
    · unfold exist; rw [newOwner_new hw ht hp h]
      obtain ⟨r, h1, h2⟩ := h
      obtain ⟨e1, e2⟩ := hp.refE r h1
      rw [((children_spec hw (ht.valid r e1) e2).1 h2).2.2]
      exact e1
    · have hpar : Par g U x := ⟨u, h1, h2.symm⟩
      obtain ⟨o, ho⟩ := hp.first_exist hw ht hpar
      unfold exist; rw [newOwner_par hw ht hp hpar, ho]; rfl

end

/-- State of one process before data of unrefined cells is transferred. -/
structure Prepared (g : Cfg) (w : Owner n) (R U : Nat → Prop) (dflt : D) (i : Fin n) (p : Proc n D W)
    (m : Moving n D W) (nc : List Nat) : Prop where
  owner : ∀ x, ¬ R x → m.1.owner x = newOwner g w R U x
  dataNew : ∀ x, New g R x → m.1.data x =
    if w (g.parent x) = some i then some ((p.data x).getD dflt) else p.data x
  dataRef : ∀ x, R x → m.1.data x = if w x = some i then none else p.data x
  dataFam : ∀ x, Fam g U x → w (firstChild g (g.parent x)) ≠ some i → m.1.data x = p.data x
  dataOther : ∀ x, ¬ New g R x → ¬ R x → ¬ Fam g U x → m.1.data x = p.data x
  refinedData : ∀ x, (R x → w x = some i → m.1.refinedData x = p.data x) ∧
    (¬ (R x ∧ w x = some i) → m.1.refinedData x = none)
  unrefinedData : ∀ x, (Fam g U x → w x = some i → w (firstChild g (g.parent x)) = some i →
      m.1.unrefinedData x = p.data x) ∧
    (¬ (Fam g U x ∧ w x = some i ∧ w (firstChild g (g.parent x)) = some i) →
      m.1.unrefinedData x = none)
  pins : ∀ x, (R x ∨ Fam g U x → m.1.pins x = none) ∧
    (New g R x → m.1.pins x = (p.pins (g.parent x)).or (p.pins x)) ∧
    (¬ R x → ¬ Fam g U x → ¬ New g R x → m.1.pins x = p.pins x)
  newPins : ∀ x, (R x ∨ Fam g U x → m.1.newPins x = none) ∧
    (New g R x → m.1.newPins x = (p.newPins (g.parent x)).or (p.newPins x)) ∧
    (¬ R x → ¬ Fam g U x → ¬ New g R x → m.1.newPins x = p.newPins x)
  weights : ∀ x, (R x ∧ w x = some i ∨ Fam g U x → m.1.weights x = none) ∧
    (New g R x → m.1.weights x = if w (g.parent x) = some i then
      (p.weights (g.parent x)).or (p.weights x) else p.weights x) ∧
    (¬ (R x ∧ w x = some i) → ¬ Fam g U x → ¬ New g R x → m.1.weights x = p.weights x)
  send : ∀ q, (m.2.1 q).Nodup ∧ ∀ x, x ∈ m.2.1 q ↔
    q ≠ i ∧ Fam g U x ∧ w x = some i ∧ w (firstChild g (g.parent x)) = some q
  recv : ∀ q, (m.2.2 q).Nodup ∧ ∀ x, x ∈ m.2.2 q ↔
    q ≠ i ∧ Fam g U x ∧ w x = some q ∧ w (firstChild g (g.parent x)) = some i
  remote : m.1.remote = fun _ => none
  req : m.1.req = p.req
  hoods : m.1.hoods = p.hoods
  newCells : nc.Nodup ∧ ∀ x, x ∈ nc ↔ ∃ r, R r ∧ w r = some i ∧ x ∈ g.children r

theorem flatMap_children_nodup (hw : g.WF) {l : List Nat} (hn : l.Nodup)
    (hl : ∀ c ∈ l, g.Valid c ∧ g.lvl c < g.maxLvl) : (l.flatMap g.children).Nodup := by
  unfold List.Nodup
  rw [List.pairwise_flatMap]
  constructor
  · intro c hc; exact children_nodup hw (hl c hc).1 (hl c hc).2
  · apply List.Pairwise.imp_of_mem _ hn
    intro a b ha hb hne x hx y hy e
    subst e
    exact hne (((children_spec hw (hl a ha).1 (hl a ha).2).1 hx).2.2.symm.trans
      ((children_spec hw (hl b hb).1 (hl b hb).2).1 hy).2.2)

theorem prepare_spec (hw : g.WF) (dflt : D) {s : Sys n D W} (hs : SysCore g w s)
    (hp : Plan g (exist w) R U) (i : Fin n) (hR : ∀ c, c ∈ (s i).req.toRefine ↔ R c)
    (hU : ∀ c, c ∈ (s i).req.toUnrefine ↔ U c) :
    ∃ m nc, prepare g dflt i (s i) = .ok (m, nc) ∧ Prepared g w R U dflt i (s i) m nc := by
  have ht := hs.tiled
  have howner := hs.owner i
  have hR' : ∀ c, c ∈ dedup (s i).req.toRefine ↔ R c := fun c => mem_dedup.trans (hR c)
  have hU' : ∀ c, c ∈ dedup (s i).req.toUnrefine ↔ U c := fun c => mem_dedup.trans (hU c)
  have hkid : ∀ x, Kid g (dedup (s i).req.toRefine) x ↔ New g R x := by
    intro x; unfold Kid New; simp only [hR']
  have hfam : ∀ x, x ∈ families g (s i).req.toUnrefine ↔ Fam g U x := by
    intro x; unfold families Fam; rw [mem_dedup, List.mem_flatMap]; simp only [hU]
  have hpar : ∀ x, (∃ u ∈ dedup (s i).req.toUnrefine, g.parent u = x) ↔ Par g U x := by
    intro x; unfold Par; simp only [hU']
  obtain ⟨p1, e1, h1⟩ := refine_fold hw dflt i (dedup (s i).req.toRefine)
    { s i with remote := fun _ => none, refinedData := fun _ => none, unrefinedData := fun _ => none } []
    (nodup_dedup _)
    (by
      intro c hc
      have hr := (hR' c).1 hc
      obtain ⟨a1, a2⟩ := hp.refE c hr
      obtain ⟨o, ho⟩ := exist_iff.1 a1
      refine ⟨ht.valid c a1, a2, o, by show (s i).owner c = _; rw [howner, ho], ?_⟩
      rintro rfl
      exact (hs.placed o c).2 ho)
    (by
      intro c hc hk
      have := hp.new_not_exist hw ht ((hkid c).1 hk)
      rw [(hp.refE c ((hR' c).1 hc)).1] at this; cases this)
  have hw1 : ∀ x, p1.owner x = if Kid g (dedup (s i).req.toRefine) x then w (g.parent x) else w x := by
    intro x; rw [h1.owner]; show (if _ then (s i).owner _ else (s i).owner _) = _; rw [howner]
  have hw1e : ∀ x, exist w x = true → p1.owner x = w x := by
    intro x hx
    rw [hw1, if_neg]
    intro hk
    rw [hp.new_not_exist hw ht ((hkid x).1 hk)] at hx; cases hx
  obtain ⟨w2, e2, h2⟩ := parentOwner_fold (g := g) (dedup (s i).req.toUnrefine) p1.owner
    (by
      intro u hu
      have hp' : Par g U (g.parent u) := ⟨u, (hU' u).1 hu, rfl⟩
      have := (hp.par_children hw ht hp' firstChild_mem).2.1
      show (p1.owner (firstChild g (g.parent u))).isSome = true
      rw [hw1e _ this]; exact this)
    (by
      intro u hu u' hu' e
      have hp' : Par g U (g.parent u) := ⟨u, (hU' u).1 hu, rfl⟩
      have h3 := (hp.par_children hw ht hp' firstChild_mem).2.1
      have h4 := hp.par_not_exist hw ht (x := g.parent u') ⟨u', (hU' u').1 hu', rfl⟩
      rw [← e] at h4
      exact absurd (h3.symm.trans h4) (by simp))
  have hw2p : ∀ x, Par g U x → w2 x = w (firstChild g x) := by
    intro x hx
    rw [h2, if_pos ((hpar x).2 hx)]
    exact hw1e _ (hp.par_children hw ht hx firstChild_mem).2.1
  have hw2e : ∀ x, exist w x = true → w2 x = w x := by
    intro x hx
    rw [h2, if_neg, hw1e x hx]
    intro h
    rw [hp.par_not_exist hw ht ((hpar x).1 h)] at hx; cases hx
  have hw2f : ∀ x, Fam g U x → w2 x = w x ∧ w2 (g.parent x) = w (firstChild g (g.parent x)) := by
    intro x hx
    obtain ⟨a1, a2, a3, -⟩ := hp.fam_exist hw ht hx
    exact ⟨hw2e x a1, hw2p _ a3⟩
  have hd1 : ∀ x, exist w x = true → ¬ R x → p1.data x = (s i).data x := by
    intro x hx hr
    rw [h1.data, if_neg, if_neg]
    · rintro ⟨h, -⟩; exact hr ((hR' x).1 h)
    · rintro ⟨h, -⟩
      rw [hp.new_not_exist hw ht ((hkid x).1 h)] at hx; cases hx
  obtain ⟨m, e3, h3⟩ := unrefine_fold (g := g) i (families g (s i).req.toUnrefine)
    ({ p1 with owner := w2 }, fun _ => [], fun _ => []) (nodup_dedup _)
    (by
      intro u hu hpu
      have a := hp.fam_exist hw ht ((hfam u).1 hu)
      have b := hp.par_not_exist hw ht a.2.2.1
      rw [(hp.fam_exist hw ht ((hfam _).1 hpu)).1] at b; cases b)
    (by
      intro u hu
      have hf := (hfam u).1 hu
      obtain ⟨a1, a2, a3, -⟩ := hp.fam_exist hw ht hf
      obtain ⟨o1, ho1⟩ := hp.first_exist hw ht a3
      obtain ⟨o2, ho2⟩ := exist_iff.1 a1
      refine ⟨⟨o1, by show w2 _ = _; rw [hw2p _ a3, ho1]⟩, o2, by show w2 _ = _; rw [hw2e _ a1, ho2], ?_⟩
      rintro rfl
      show (p1.data u).isSome = true
      rw [hd1 u a1 a2]
      exact (hs.placed o2 u).2 ho2)
  refine ⟨m, [] ++ ((dedup (s i).req.toRefine).filter fun c =>
    decide ((s i).owner c = some i)).flatMap g.children, ?_, ?_⟩
  · unfold prepare
    rw [e1, Out.bind_ok]
    simp only
    rw [e2, Out.bind_ok, e3, Out.bind_ok]
  have hnf : ∀ x, ¬ Fam g U x → x ∉ families g (s i).req.toUnrefine := fun x h h' => h ((hfam x).1 h')
  have hpf : ∀ x, Fam g U x → ¬ New g R x := by
    intro x hx hn
    have := hp.new_not_exist hw ht hn
    rw [(hp.fam_exist hw ht hx).1] at this; cases this
  have hnr : ∀ x, New g R x → ¬ R x := by
    intro x hn hr
    have := hp.new_not_exist hw ht hn
    rw [(hp.refE x hr).1] at this; cases this
  constructor
  · intro x hr
    rw [h3.owner]
    by_cases hf : Fam g U x
    · rw [if_pos ((hfam x).2 hf), newOwner_gone hw ht hp (Or.inr hf)]
    · rw [if_neg (hnf x hf)]
      show w2 x = _
      by_cases hpx : Par g U x
      · rw [hw2p x hpx, newOwner_par hw ht hp hpx]
      · rw [h2, if_neg (fun h => hpx ((hpar x).1 h)), hw1]
        have hrf : ¬ (R x ∨ Fam g U x) := by
          rintro (h | h)
          · exact hr h
          · exact hf h
        unfold newOwner
        simp only [hrf, hpx, if_false]
        by_cases hn : New g R x
        · rw [if_pos ((hkid x).2 hn), if_pos hn]
        · rw [if_neg (fun h => hn ((hkid x).1 h)), if_neg hn]
  · intro x hn
    have hf : ¬ Fam g U x := fun h => hpf x h hn
    rw [h3.data, if_neg (fun h => hnf x hf h.1)]
    show p1.data x = _
    rw [h1.data]
    show (if Kid g _ x ∧ (s i).owner _ = _ then _ else if _ ∧ (s i).owner x = _ then _ else _) = _
    rw [howner]
    by_cases ho : w (g.parent x) = some i
    · rw [if_pos ⟨(hkid x).2 hn, ho⟩, if_pos ho]
    · rw [if_neg (fun h => ho h.2), if_neg (fun h => hnr x hn ((hR' x).1 h.1)), if_neg ho]
  · intro x hr
    have hf : ¬ Fam g U x := fun h => (hp.fam_exist hw ht h).2.1 hr
    rw [h3.data, if_neg (fun h => hnf x hf h.1)]
    show p1.data x = _
    rw [h1.data]
    show (if Kid g _ x ∧ (s i).owner _ = _ then _ else if _ ∧ (s i).owner x = _ then _ else _) = _
    rw [howner, if_neg (fun h => hnr x ((hkid x).1 h.1) hr)]
    by_cases ho : w x = some i
    · rw [if_pos ⟨(hR' x).2 hr, ho⟩, if_pos ho]
    · rw [if_neg (fun h => ho h.2), if_neg ho]
  · intro x hf ho
    obtain ⟨a1, a2, -, -⟩ := hp.fam_exist hw ht hf
    rw [h3.data, if_neg]
    · exact hd1 x a1 a2
    · rintro ⟨-, -, h⟩
      apply ho
      rw [← (hw2f x hf).2]; exact h
  · intro x hn hr hf
    rw [h3.data, if_neg (fun h => hnf x hf h.1)]
    show p1.data x = _
    rw [h1.data, if_neg (fun h => hn ((hkid x).1 h.1)), if_neg (fun h => hr ((hR' x).1 h.1))]
  · intro x
    rw [h3.refinedData]
    show (R x → w x = some i → p1.refinedData x = _) ∧ (_ → p1.refinedData x = _)
    rw [h1.refinedData]
    show (R x → w x = some i → (if _ ∧ (s i).owner x = _ then _ else _) = _) ∧
      (_ → (if _ ∧ (s i).owner x = _ then _ else _) = _)
    rw [howner]
    constructor
    · intro hr ho
      rw [if_pos ⟨(hR' x).2 hr, ho⟩]
    · intro h
      rw [if_neg (fun h' => h ⟨(hR' x).1 h'.1, h'.2⟩)]
  · intro x
    rw [h3.unrefinedData]
    show (_ → _ → _ → (if _ ∧ w2 x = _ ∧ w2 (g.parent x) = _ then p1.data x else p1.unrefinedData x) = _) ∧
      (_ → (if _ ∧ w2 x = _ ∧ w2 (g.parent x) = _ then p1.data x else p1.unrefinedData x) = _)
    constructor
    · intro hf ho ho'
      obtain ⟨b1, b2⟩ := hw2f x hf
      obtain ⟨a1, a2, -, -⟩ := hp.fam_exist hw ht hf
      rw [if_pos ⟨(hfam x).2 hf, b1.trans ho, b2.trans ho'⟩, hd1 x a1 a2]
    · intro h
      rw [if_neg, h1.unrefinedData]
      rintro ⟨a1, a2, a3⟩
      have hf := (hfam x).1 a1
      obtain ⟨b1, b2⟩ := hw2f x hf
      exact h ⟨hf, by rw [← b1]; exact a2, by rw [← b2]; exact a3⟩
  · intro x
    rw [h3.pins]
    refine ⟨?_, ?_, ?_⟩
    · rintro (hr | hf)
      · have hf : ¬ Fam g U x := fun h => (hp.fam_exist hw ht h).2.1 hr
        rw [if_neg (hnf x hf)]
        show p1.pins x = none
        rw [h1.pins, if_pos ((hR' x).2 hr)]
      · rw [if_pos ((hfam x).2 hf)]
    · intro hn
      rw [if_neg (hnf x (fun h => hpf x h hn))]
      show p1.pins x = _
      rw [h1.pins, if_neg (fun h => hnr x hn ((hR' x).1 h)), if_pos ((hkid x).2 hn)]
    · intro hr hf hn
      rw [if_neg (hnf x hf)]
      show p1.pins x = _
      rw [h1.pins, if_neg (fun h => hr ((hR' x).1 h)), if_neg (fun h => hn ((hkid x).1 h))]
  · intro x
    rw [h3.newPins]
    refine ⟨?_, ?_, ?_⟩
    · rintro (hr | hf)
      · have hf : ¬ Fam g U x := fun h => (hp.fam_exist hw ht h).2.1 hr
        rw [if_neg (hnf x hf)]
        show p1.newPins x = none
        rw [h1.newPins, if_pos ((hR' x).2 hr)]
      · rw [if_pos ((hfam x).2 hf)]
    · intro hn
      rw [if_neg (hnf x (fun h => hpf x h hn))]
      show p1.newPins x = _
      rw [h1.newPins, if_neg (fun h => hnr x hn ((hR' x).1 h)), if_pos ((hkid x).2 hn)]
    · intro hr hf hn
      rw [if_neg (hnf x hf)]
      show p1.newPins x = _
      rw [h1.newPins, if_neg (fun h => hr ((hR' x).1 h)), if_neg (fun h => hn ((hkid x).1 h))]
  · intro x
    rw [h3.weights]
    have hw1 : p1.weights x = if x ∈ dedup (s i).req.toRefine ∧ w x = some i then none
        else if Kid g (dedup (s i).req.toRefine) x ∧ w (g.parent x) = some i then
        ((s i).weights (g.parent x)).or ((s i).weights x) else (s i).weights x := by
      have := h1.weights x
      simp only [howner] at this
      exact this
    refine ⟨?_, ?_, ?_⟩
    · rintro (⟨hr, ho⟩ | hf)
      · have hf : ¬ Fam g U x := fun h => (hp.fam_exist hw ht h).2.1 hr
        rw [if_neg (hnf x hf)]
        show p1.weights x = none
        rw [hw1, if_pos ⟨(hR' x).2 hr, ho⟩]
      · rw [if_pos ((hfam x).2 hf)]
    · intro hn
      rw [if_neg (hnf x (fun h => hpf x h hn))]
      show p1.weights x = _
      rw [hw1, if_neg (fun h => hnr x hn ((hR' x).1 h.1))]
      by_cases ho : w (g.parent x) = some i
      · rw [if_pos ⟨(hkid x).2 hn, ho⟩, if_pos ho]
      · rw [if_neg (fun h => ho h.2), if_neg ho]
    · intro hr hf hn
      rw [if_neg (hnf x hf)]
      show p1.weights x = _
      rw [hw1, if_neg (fun h => hr ⟨(hR' x).1 h.1, h.2⟩), if_neg (fun h => hn ((hkid x).1 h.1))]
  · intro q
    rw [h3.send]
    refine ⟨?_, ?_⟩
    · show (List.append [] _).Nodup
      exact List.Pairwise.filter _ (nodup_dedup _)
    · intro x
      rw [List.mem_append, List.mem_filter, decide_eq_true_eq]
      show (x ∈ [] ∨ _ ∧ _ ∧ w2 x = _ ∧ w2 (g.parent x) = _) ↔ _
      constructor
      · rintro (h | ⟨a1, a2, a3, a4⟩)
        · cases h
        · have hf := (hfam x).1 a1
          obtain ⟨b1, b2⟩ := hw2f x hf
          exact ⟨a2, hf, b1 ▸ a3, b2 ▸ a4⟩
      · rintro ⟨a2, hf, a3, a4⟩
        obtain ⟨b1, b2⟩ := hw2f x hf
        exact Or.inr ⟨(hfam x).2 hf, a2, b1.trans a3, b2.trans a4⟩
  · intro q
    rw [h3.recv]
    refine ⟨?_, ?_⟩
    · show (List.append [] _).Nodup
      exact List.Pairwise.filter _ (nodup_dedup _)
    · intro x
      rw [List.mem_append, List.mem_filter, decide_eq_true_eq]
      show (x ∈ [] ∨ _ ∧ _ ∧ w2 x = _ ∧ w2 (g.parent x) = _) ↔ _
      constructor
      · rintro (h | ⟨a1, a2, a3, a4⟩)
        · cases h
        · have hf := (hfam x).1 a1
          obtain ⟨b1, b2⟩ := hw2f x hf
          exact ⟨a2, hf, b1 ▸ a3, b2 ▸ a4⟩
      · rintro ⟨a2, hf, a3, a4⟩
        obtain ⟨b1, b2⟩ := hw2f x hf
        exact Or.inr ⟨(hfam x).2 hf, a2, b1.trans a3, b2.trans a4⟩
  · rw [h3.remote]; exact h1.remote
  · rw [h3.req]; exact h1.req
  · rw [h3.hoods]; exact h1.hoods
  · constructor
    · simp only [List.nil_append]
      apply flatMap_children_nodup hw (List.Pairwise.filter _ (nodup_dedup _))
      intro c hc
      obtain ⟨a1, a2⟩ := hp.refE c ((hR' c).1 (List.mem_filter.1 hc).1)
      exact ⟨ht.valid c a1, a2⟩
    · intro x
      simp only [List.nil_append, List.mem_flatMap, List.mem_filter, decide_eq_true_eq, hR', howner]
      constructor
      · rintro ⟨c, ⟨h1, h2⟩, h3⟩; exact ⟨c, h1, h2, h3⟩
      · rintro ⟨c, h1, h2, h3⟩; exact ⟨c, ⟨h1, h2⟩, h3⟩

end Dccrg
