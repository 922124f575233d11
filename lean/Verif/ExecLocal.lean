import Verif.Exec
/-!
# What one process does in execute_refines
-/
namespace Dccrg
open Cfg
variable {n : Nat} {D W α β : Type} {g : Cfg}

theorem Out.collect_ok {f : Fin n → Out α} {x : Fin n → α} (h : ∀ i, f i = .ok (x i)) :
    Out.collect f = .ok x := by
  unfold Out.collect
  have h' : ∀ i, (f i).isOk = true := fun i => by rw [h i]; rfl
  rw [dif_pos h']
  congr 1
  funext i
  have : ∀ (o : Out α) (a : α) (e : o = .ok a) (hk : o.isOk = true), o.get hk = a := by
    intro o a e hk; subst e; rfl
  exact this _ _ (h i) _

theorem Out.bind_ok {a : α} {f : α → Out β} : (Out.ok a).bind f = f a := rfl

/-- Child of one of given cells. -/
def Kid (g : Cfg) (l : List Nat) (x : Nat) : Prop := ∃ c ∈ l, x ∈ g.children c

instance (l : List Nat) (x : Nat) : Decidable (Kid g l x) :=
  inferInstanceAs (Decidable (∃ c ∈ l, x ∈ g.children c))

theorem kid_cons {c : Nat} {l : List Nat} {x : Nat} :
    Kid g (c :: l) x ↔ x ∈ g.children c ∨ Kid g l x := by
  unfold Kid; simp

theorem kid_parent (hw : g.WF) {l : List Nat} (hl : ∀ c ∈ l, g.Valid c ∧ g.lvl c < g.maxLvl) {x : Nat}
    (h : Kid g l x) : g.parent x ∈ l ∧ x ∈ g.children (g.parent x) ∧ g.Valid x := by
  obtain ⟨c, hc, hx⟩ := h
  obtain ⟨h1, h2⟩ := hl c hc
  have := (children_spec hw h1 h2).1 hx
  rw [this.2.2]
  exact ⟨hc, hx, this.1⟩

theorem self_not_child (hw : g.WF) {c : Nat} (hv : g.Valid c) (hl : g.lvl c < g.maxLvl) :
    c ∉ g.children c := by
  intro h
  have := ((children_spec hw hv hl).1 h).2.1
  omega

/-- State after refining cells in a list. -/
structure Refined (g : Cfg) (dflt : D) (i : Fin n) (l : List Nat) (p : Proc n D W) (p' : Proc n D W) :
    Prop where
  owner : ∀ x, p'.owner x = if Kid g l x then p.owner (g.parent x) else p.owner x
  data : ∀ x, p'.data x =
    if Kid g l x ∧ p.owner (g.parent x) = some i then some ((p.data x).getD dflt)
    else if x ∈ l ∧ p.owner x = some i then none else p.data x
  refinedData : ∀ x, p'.refinedData x =
    if x ∈ l ∧ p.owner x = some i then p.data x else p.refinedData x
  pins : ∀ x, p'.pins x = if x ∈ l then none
    else if Kid g l x then (p.pins (g.parent x)).or (p.pins x) else p.pins x
  newPins : ∀ x, p'.newPins x = if x ∈ l then none
    else if Kid g l x then (p.newPins (g.parent x)).or (p.newPins x) else p.newPins x
  weights : ∀ x, p'.weights x = if x ∈ l ∧ p.owner x = some i then none
    else if Kid g l x ∧ p.owner (g.parent x) = some i then
      (p.weights (g.parent x)).or (p.weights x) else p.weights x
  remote : p'.remote = p.remote
  req : p'.req = p.req
  unrefinedData : p'.unrefinedData = p.unrefinedData
  hoods : p'.hoods = p.hoods

theorem inherit_eq {c : Nat} (f : Nat → Option α) (x : Nat) :
    inherit f c (g.children c) x = if x = c then none
      else if x ∈ g.children c then (f c).or (f x) else f x := by
  unfold inherit
  cases h : f c with
  | none =>
    simp only [Option.isSome_none, Bool.false_eq_true, if_false, Option.none_or]
    by_cases e : x = c
    · rw [if_pos e, e, h]
    · rw [if_neg e]; split <;> rfl
  | some v =>
    simp

theorem refine_fold (hw : g.WF) (dflt : D) (i : Fin n) (l : List Nat) (p : Proc n D W) (nw : List Nat)
    (hn : l.Nodup)
    (hl : ∀ c ∈ l, g.Valid c ∧ g.lvl c < g.maxLvl ∧
      ∃ o, p.owner c = some o ∧ (o = i → (p.data c).isSome))
    (hk : ∀ c ∈ l, ¬ Kid g l c) :
    ∃ p', Out.fold (refineOne g dflt i) l (p, nw) =
        .ok (p', nw ++ (l.filter fun c => decide (p.owner c = some i)).flatMap g.children) ∧
      Refined g dflt i l p p' := by
  induction l generalizing p nw with
  | nil =>
    refine ⟨p, by simp [Out.fold], ?_⟩
    constructor <;> simp [Kid]
  | cons c l ih =>
    obtain ⟨hv, hlt, o, ho, hd⟩ := hl c (by simp)
    rw [List.nodup_cons] at hn
    have hstep : ∃ p1, refineOne g dflt i c (p, nw) = .ok (p1, if o = i then nw ++ g.children c else nw) ∧
        Refined g dflt i [c] p p1 := by
      unfold refineOne
      simp only [ho]
      rw [if_neg (by
          rintro ⟨h1, h2⟩
          have := hd h1
          cases hx : p.data c with
          | none => rw [hx] at this; cases this
          | some _ => rw [hx] at h2; cases h2),
        if_neg (by rintro (h | h); exact h hv; omega)]
      refine ⟨_, rfl, ?_⟩
      have hself := self_not_child hw hv hlt
      have hkid : ∀ x, Kid g [c] x ↔ x ∈ g.children c := by intro x; simp [Kid]
      have hpar : ∀ x, x ∈ g.children c → g.parent x = c := fun x hx =>
        ((children_spec hw hv hlt).1 hx).2.2
      have hoi : (o = i) ↔ p.owner c = some i := by
        rw [ho]; simp
      constructor
      · intro x
        simp only [put, hkid]
        by_cases hx : x ∈ g.children c
        · rw [if_pos hx, if_pos hx, hpar x hx, ho]
        · rw [if_neg hx, if_neg hx]
      · intro x
        simp only [hkid, List.mem_singleton]
        by_cases hi : o = i
        · rw [if_pos hi]
          by_cases hx : x ∈ g.children c
          · rw [if_pos hx, if_pos ⟨hx, by rw [hpar x hx, ho, hi]⟩]
          · by_cases hxc : x = c
            · subst hxc; simp [hx, ho, hi]
            · simp [hx, hxc]
        · rw [if_neg hi, if_neg, if_neg]
          · rintro ⟨rfl, h⟩; exact hi (hoi.2 h)
          · rintro ⟨h1, h2⟩; rw [hpar x h1] at h2; exact hi (hoi.2 h2)
      · intro x
        simp only [List.mem_singleton]
        by_cases hi : o = i
        · rw [if_pos hi]
          unfold put
          simp only [List.mem_singleton]
          by_cases hxc : x = c
          · rw [if_pos hxc, if_pos ⟨hxc, by rw [hxc, ho, hi]⟩, hxc]
          · rw [if_neg hxc, if_neg (fun h => hxc h.1)]
        · rw [if_neg hi, if_neg]
          rintro ⟨rfl, h⟩; exact hi (hoi.2 h)
      · intro x
        simp only [hkid, List.mem_singleton, inherit_eq]
        split
        · rfl
        · split
          · next h => rw [hpar x h]
          · rfl
      · intro x
        simp only [hkid, List.mem_singleton, inherit_eq]
        split
        · rfl
        · split
          · next h => rw [hpar x h]
          · rfl
      · intro x
        simp only [hkid, List.mem_singleton]
        by_cases hi : o = i
        · rw [if_pos hi, inherit_eq]
          by_cases hxc : x = c
          · rw [if_pos hxc, if_pos ⟨hxc, by rw [hxc, ho, hi]⟩]
          · simp only [hxc, false_and, if_false]
            by_cases hx : x ∈ g.children c
            · simp [hx, hpar x hx, ho, hi]
            · simp [hx]
        · rw [if_neg hi, if_neg, if_neg]
          · rintro ⟨h1, h2⟩; rw [hpar x h1] at h2; exact hi (hoi.2 h2)
          · rintro ⟨rfl, h⟩; exact hi (hoi.2 h)
      · rfl
      · rfl
      · rfl
      · rfl
    obtain ⟨p1, e1, h1⟩ := hstep
    have hself := self_not_child hw hv hlt
    have hl' : ∀ c' ∈ l, g.Valid c' ∧ g.lvl c' < g.maxLvl := fun c' h =>
      ⟨(hl c' (by simp [h])).1, (hl c' (by simp [h])).2.1⟩
    have hk1 : ∀ x, Kid g [c] x ↔ x ∈ g.children c := by intro x; simp [Kid]
    have hlc : ∀ c' ∈ l, c' ∉ g.children c := fun c' h hx =>
      hk c' (by simp [h]) (kid_cons.2 (Or.inl hx))
    have hcl : ¬ Kid g l c := fun h => hk c (by simp) (kid_cons.2 (Or.inr h))
    have hpar : ∀ x, x ∈ g.children c → g.parent x = c := fun x hx =>
      ((children_spec hw hv hlt).1 hx).2.2
    have hdis : ∀ x, x ∈ g.children c → ¬ Kid g l x := by
      intro x hx hkx
      have := (kid_parent hw hl' hkx).1
      rw [hpar x hx] at this
      exact hn.1 this
    have hnp : ∀ x, Kid g l x → g.parent x ≠ c ∧ g.parent x ∉ g.children c := by
      intro x hx
      have := (kid_parent hw hl' hx).1
      exact ⟨fun e => hn.1 (e ▸ this), hlc _ this⟩
    -- values at other cells of the list
    have howner : ∀ x, x ∉ g.children c → p1.owner x = p.owner x := by
      intro x hx; rw [h1.owner, if_neg (by rw [hk1]; exact hx)]
    have hdata : ∀ x, x ∉ g.children c → x ≠ c → p1.data x = p.data x := by
      intro x hx hxc
      rw [h1.data, if_neg (by rw [hk1]; exact fun h => hx h.1), if_neg (by simp [hxc])]
    obtain ⟨p', e2, h2⟩ := ih p1 (if o = i then nw ++ g.children c else nw) hn.2 (by
      intro c' hc'
      obtain ⟨a1, a2, o', a3, a4⟩ := hl c' (by simp [hc'])
      have hne : c' ≠ c := fun e => hn.1 (e ▸ hc')
      exact ⟨a1, a2, o', by rw [howner _ (hlc c' hc'), a3], fun e => by
        rw [hdata _ (hlc c' hc') hne]; exact a4 e⟩) (by
      intro c' hc' hkc
      exact hk c' (by simp [hc']) (kid_cons.2 (Or.inr hkc)))
    refine ⟨p', ?_, ?_⟩
    · rw [Out.fold, e1]
      simp only
      rw [e2]
      have hfil : (l.filter fun c => decide (p1.owner c = some i)) =
          l.filter fun c => decide (p.owner c = some i) := by
        apply List.filter_congr
        intro x hx
        rw [howner x (hlc x hx)]
      rw [hfil, List.filter_cons]
      by_cases hi : o = i
      · rw [if_pos hi, if_pos (by rw [ho, hi]; simp), List.flatMap_cons, List.append_assoc]
      · rw [if_neg hi, if_neg (by rw [ho]; simpa using hi)]
    · have hcases : ∀ x, (x = c) ∨ (x ∈ g.children c) ∨ (x ≠ c ∧ x ∉ g.children c) := by
        intro x
        by_cases h : x = c
        · exact Or.inl h
        · by_cases h' : x ∈ g.children c
          · exact Or.inr (Or.inl h')
          · exact Or.inr (Or.inr ⟨h, h'⟩)
      constructor
      · intro x
        rw [h2.owner]
        by_cases hx : Kid g l x
        · rw [if_pos hx, if_pos (kid_cons.2 (Or.inr hx)), howner _ (hnp x hx).2]
        · rw [if_neg hx, h1.owner]
          simp only [kid_cons, hk1, hx, or_false]
      · intro x
        rw [h2.data]
        by_cases hx : Kid g l x
        · obtain ⟨a1, a2⟩ := hnp x hx
          have hxc : x ∉ g.children c := fun h => hdis x h hx
          have hxl : x ∉ l := fun h => hk x (by simp [h]) (kid_cons.2 (Or.inr hx))
          have hne : x ≠ c := fun e => hcl (e ▸ hx)
          rw [howner _ a2, howner _ hxc, hdata x hxc hne]
          simp only [hx, kid_cons, or_true, true_and, List.mem_cons, hne, hxl, false_or, false_and,
            if_false]
        · simp only [hx, false_and, if_false, kid_cons, or_false]
          by_cases hxl : x ∈ l
          · have hxc := hlc x hxl
            have hne : x ≠ c := fun e => hn.1 (e ▸ hxl)
            rw [howner _ hxc, hdata x hxc hne]
            simp [hxl, hxc]
          · rw [if_neg (fun h => hxl h.1), h1.data]
            simp only [hk1, List.mem_cons, List.not_mem_nil, hxl, or_false]
      · intro x
        rw [h2.refinedData]
        by_cases hxl : x ∈ l
        · have hxc := hlc x hxl
          have hne : x ≠ c := fun e => hn.1 (e ▸ hxl)
          rw [howner _ hxc, hdata x hxc hne, h1.refinedData]
          simp [hxl, hne]
        · rw [if_neg (fun h => hxl h.1), h1.refinedData]
          simp only [List.mem_cons, List.not_mem_nil, hxl, or_false]
      · intro x
        rw [h2.pins]
        by_cases hxl : x ∈ l
        · simp [hxl]
        · rw [if_neg hxl]
          by_cases hx : Kid g l x
          · obtain ⟨a1, a2⟩ := hnp x hx
            have hxc : x ∉ g.children c := fun h => hdis x h hx
            have hne : x ≠ c := fun e => hcl (e ▸ hx)
            rw [if_pos hx, h1.pins, h1.pins]
            simp [hk1, a1, a2, hxc, hne, hxl, kid_cons, hx]
          · rw [if_neg hx, h1.pins]
            simp only [hk1, List.mem_cons, List.not_mem_nil, hxl, or_false, kid_cons, hx]
      · intro x
        rw [h2.newPins]
        by_cases hxl : x ∈ l
        · simp [hxl]
        · rw [if_neg hxl]
          by_cases hx : Kid g l x
          · obtain ⟨a1, a2⟩ := hnp x hx
            have hxc : x ∉ g.children c := fun h => hdis x h hx
            have hne : x ≠ c := fun e => hcl (e ▸ hx)
            rw [if_pos hx, h1.newPins, h1.newPins]
            simp [hk1, a1, a2, hxc, hne, hxl, kid_cons, hx]
          · rw [if_neg hx, h1.newPins]
            simp only [hk1, List.mem_cons, List.not_mem_nil, hxl, or_false, kid_cons, hx]
      · intro x
        rw [h2.weights]
        by_cases hxl : x ∈ l
        · have hxc := hlc x hxl
          have hne : x ≠ c := fun e => hn.1 (e ▸ hxl)
          have hnk : ¬ Kid g (c :: l) x := hk x (by simp [hxl])
          have hnk' : ¬ Kid g l x := fun h => hnk (kid_cons.2 (Or.inr h))
          have hw1 : p1.weights x = p.weights x := by rw [h1.weights]; simp [hne, hk1, hxc]
          rw [howner _ hxc, hw1]
          simp [hxl, hnk, hnk']
        · rw [if_neg (fun h => hxl h.1)]
          by_cases hx : Kid g l x
          · obtain ⟨a1, a2⟩ := hnp x hx
            have hxc : x ∉ g.children c := fun h => hdis x h hx
            have hne : x ≠ c := fun e => hcl (e ▸ hx)
            rw [howner _ a2, h1.weights, h1.weights]
            simp [hk1, a1, a2, hxc, hne, hxl, kid_cons, hx]
          · rw [if_neg (fun h => hx h.1), h1.weights]
            simp only [hk1, List.mem_cons, List.not_mem_nil, hxl, or_false, kid_cons, hx]
      · rw [h2.remote, h1.remote]
      · rw [h2.req, h1.req]
      · rw [h2.unrefinedData, h1.unrefinedData]
      · rw [h2.hoods, h1.hoods]

/-! ## Unrefined cells -/

theorem parentOwner_fold (l : List Nat) (w : Owner n)
    (hs : ∀ u ∈ l, (w (g.child (g.parent u) (fun _ => 0))).isSome)
    (hd : ∀ u ∈ l, ∀ u' ∈ l, g.child (g.parent u) (fun _ => 0) ≠ g.parent u') :
    ∃ w', Out.fold (parentOwner g) l w = .ok w' ∧
      ∀ x, w' x = if ∃ u ∈ l, g.parent u = x then w (g.child x (fun _ => 0)) else w x := by
  induction l generalizing w with
  | nil => exact ⟨w, rfl, by simp⟩
  | cons a l ih =>
    have h0 := hs a (by simp)
    cases ho : w (g.child (g.parent a) (fun _ => 0)) with
    | none => rw [ho] at h0; cases h0
    | some o =>
      have hput : ∀ u ∈ a :: l, put w [g.parent a] (some o) (g.child (g.parent u) (fun _ => 0)) =
          w (g.child (g.parent u) (fun _ => 0)) := by
        intro u hu
        unfold put
        rw [if_neg]
        simp only [List.mem_singleton]
        exact hd u hu a (by simp)
      obtain ⟨w', h1, h2⟩ := ih (put w [g.parent a] (some o))
        (fun u hu => by rw [hput u (by simp [hu])]; exact hs u (by simp [hu]))
        (fun u hu u' hu' => hd u (by simp [hu]) u' (by simp [hu']))
      refine ⟨w', ?_, ?_⟩
      · rw [Out.fold, parentOwner, ho]; exact h1
      · intro x
        rw [h2]
        by_cases hx : ∃ u ∈ l, g.parent u = x
        · obtain ⟨u, hu, rfl⟩ := hx
          rw [if_pos ⟨u, hu, rfl⟩, if_pos ⟨u, by simp [hu], rfl⟩, hput u (by simp [hu])]
        · rw [if_neg hx]
          unfold put
          by_cases hxa : x = g.parent a
          · subst hxa
            rw [if_pos (by simp), if_pos ⟨a, by simp, rfl⟩, ho]
          · rw [if_neg (by simpa using hxa), if_neg]
            rintro ⟨u, hu, e⟩
            rcases List.mem_cons.1 hu with rfl | hu
            · exact hxa e.symm
            · exact hx ⟨u, hu, e⟩

/-- State after removing unrefined cells. -/
structure Unrefined (g : Cfg) (i : Fin n) (l : List Nat) (s s' : Moving n D W) : Prop where
  owner : ∀ x, s'.1.owner x = if x ∈ l then none else s.1.owner x
  pins : ∀ x, s'.1.pins x = if x ∈ l then none else s.1.pins x
  newPins : ∀ x, s'.1.newPins x = if x ∈ l then none else s.1.newPins x
  weights : ∀ x, s'.1.weights x = if x ∈ l then none else s.1.weights x
  data : ∀ x, s'.1.data x = if x ∈ l ∧ s.1.owner x = some i ∧ s.1.owner (g.parent x) = some i then none
    else s.1.data x
  unrefinedData : ∀ x, s'.1.unrefinedData x =
    if x ∈ l ∧ s.1.owner x = some i ∧ s.1.owner (g.parent x) = some i then s.1.data x
    else s.1.unrefinedData x
  send : ∀ q, s'.2.1 q = s.2.1 q ++ l.filter fun x =>
    decide (q ≠ i ∧ s.1.owner x = some i ∧ s.1.owner (g.parent x) = some q)
  recv : ∀ q, s'.2.2 q = s.2.2 q ++ l.filter fun x =>
    decide (q ≠ i ∧ s.1.owner x = some q ∧ s.1.owner (g.parent x) = some i)
  refinedData : s'.1.refinedData = s.1.refinedData
  remote : s'.1.remote = s.1.remote
  req : s'.1.req = s.1.req
  hoods : s'.1.hoods = s.1.hoods

theorem unrefineOne_spec (i : Fin n) (u : Nat) (s : Moving n D W) {op ou : Fin n}
    (hop : s.1.owner (g.parent u) = some op) (hou : s.1.owner u = some ou)
    (hd : ou = i → (s.1.data u).isSome) :
    ∃ s', unrefineOne g i u s = .ok s' ∧ Unrefined g i [u] s s' := by
  unfold unrefineOne
  rw [hop, hou]
  simp only
  by_cases h1 : i = ou ∧ i = op
  · obtain ⟨rfl, rfl⟩ := h1
    rw [if_pos ⟨rfl, rfl⟩, if_neg (by
      have := hd rfl
      cases hx : s.1.data u with
      | none => rw [hx] at this; cases this
      | some _ => simp)]
    refine ⟨_, rfl, ?_⟩
    constructor
    case data =>
      intro x
      simp only [put, List.mem_singleton]
      by_cases hx : x = u
      · subst hx; simp [hou, hop]
      · simp [hx]
    case unrefinedData =>
      intro x
      simp only [put, List.mem_singleton]
      by_cases hx : x = u
      · subst hx; simp [hou, hop]
      · simp [hx]
    case send =>
      intro q
      simp only [List.filter_cons, List.filter_nil, hou, hop]
      rw [if_neg (by simp; intro h e; exact h e.symm)]
      simp
    case recv =>
      intro q
      simp only [List.filter_cons, List.filter_nil, hou, hop]
      rw [if_neg (by simp; intro h e; exact h e.symm)]
      simp
    all_goals first | rfl | (intro x; rfl)
  · rw [if_neg h1]
    by_cases h2 : i = ou
    · subst h2
      have h3 : op ≠ i := fun e => h1 ⟨rfl, e.symm⟩
      rw [if_pos rfl]
      refine ⟨_, rfl, ?_⟩
      constructor
      case data =>
        intro x
        rw [if_neg]
        rintro ⟨e1, e2, e3⟩
        rw [List.mem_singleton] at e1; subst e1
        rw [hop] at e3; injection e3 with e3; exact h3 e3
      case unrefinedData =>
        intro x
        rw [if_neg]
        rintro ⟨e1, e2, e3⟩
        rw [List.mem_singleton] at e1; subst e1
        rw [hop] at e3; injection e3 with e3; exact h3 e3
      case send =>
        intro q
        simp only [List.filter_cons, List.filter_nil, hou, hop, push]
        by_cases hq : q = op
        · subst hq; simp [h3]
        · rw [if_neg hq, if_neg (by simp; intro _ e; exact hq e.symm)]
          simp
      case recv =>
        intro q
        simp only [List.filter_cons, List.filter_nil, hou, hop]
        rw [if_neg (by simp; intro h e; exact absurd e.symm h)]
        simp
      all_goals first | rfl | (intro x; rfl)
    · rw [if_neg h2]
      by_cases h3 : i = op
      · subst h3
        rw [if_pos rfl]
        refine ⟨_, rfl, ?_⟩
        constructor
        case data =>
          intro x
          rw [if_neg]
          rintro ⟨e1, e2, e3⟩
          rw [List.mem_singleton] at e1; subst e1
          rw [hou] at e2; injection e2 with e2; exact h2 e2.symm
        case unrefinedData =>
          intro x
          rw [if_neg]
          rintro ⟨e1, e2, e3⟩
          rw [List.mem_singleton] at e1; subst e1
          rw [hou] at e2; injection e2 with e2; exact h2 e2.symm
        case send =>
          intro q
          simp only [List.filter_cons, List.filter_nil, hou, hop]
          rw [if_neg (by simp; intro _ e; exact absurd e.symm h2)]
          simp
        case recv =>
          intro q
          simp only [List.filter_cons, List.filter_nil, hou, hop, push]
          by_cases hq : q = ou
          · subst hq; rw [if_pos rfl, if_pos (by simp; exact fun e => h2 e.symm)]
          · rw [if_neg hq, if_neg (by simp; intro _ e; exact hq e.symm)]
            simp
        all_goals first | rfl | (intro x; rfl)
      · rw [if_neg h3]
        refine ⟨_, rfl, ?_⟩
        constructor
        case data =>
          intro x
          rw [if_neg]
          rintro ⟨e1, e2, e3⟩
          rw [List.mem_singleton] at e1; subst e1
          rw [hou] at e2; injection e2 with e2; exact h2 e2.symm
        case unrefinedData =>
          intro x
          rw [if_neg]
          rintro ⟨e1, e2, e3⟩
          rw [List.mem_singleton] at e1; subst e1
          rw [hou] at e2; injection e2 with e2; exact h2 e2.symm
        case send =>
          intro q
          simp only [List.filter_cons, List.filter_nil, hou, hop]
          rw [if_neg (by simp; intro _ e; exact absurd e.symm h2)]
          simp
        case recv =>
          intro q
          simp only [List.filter_cons, List.filter_nil, hou, hop]
          rw [if_neg (by simp; intro _ _ e; exact absurd e.symm h3)]
          simp
        all_goals first | rfl | (intro x; rfl)

theorem unrefine_fold (i : Fin n) (l : List Nat) (s : Moving n D W) (hn : l.Nodup)
    (hp : ∀ u ∈ l, g.parent u ∉ l)
    (hl : ∀ u ∈ l, (∃ op, s.1.owner (g.parent u) = some op) ∧
      ∃ ou, s.1.owner u = some ou ∧ (ou = i → (s.1.data u).isSome)) :
    ∃ s', Out.fold (unrefineOne g i) l s = .ok s' ∧ Unrefined g i l s s' := by
  induction l generalizing s with
  | nil =>
    refine ⟨s, rfl, ?_⟩
    constructor <;> simp
  | cons a l ih =>
    obtain ⟨⟨op, hop⟩, ou, hou, hd⟩ := hl a (by simp)
    obtain ⟨s1, e1, h1⟩ := unrefineOne_spec (g := g) i a s hop hou hd
    rw [List.nodup_cons] at hn
    have hne : ∀ x ∈ l, x ≠ a := fun x hx e => hn.1 (e ▸ hx)
    have hpe : ∀ x ∈ l, g.parent x ≠ a := fun x hx e => hp x (by simp [hx]) (by simp [e])
    have howner : ∀ x, x ≠ a → s1.1.owner x = s.1.owner x := by
      intro x hx; rw [h1.owner, if_neg (by simpa using hx)]
    have hdata : ∀ x, x ≠ a → s1.1.data x = s.1.data x := by
      intro x hx; rw [h1.data, if_neg (by simp [hx])]
    obtain ⟨s', e2, h2⟩ := ih s1 hn.2 (fun u hu h => hp u (by simp [hu]) (by simp [h])) (by
      intro u hu
      obtain ⟨⟨op', a1⟩, ou', a2, a3⟩ := hl u (by simp [hu])
      refine ⟨⟨op', by rw [howner _ (hpe u hu), a1]⟩, ou', by rw [howner _ (hne u hu), a2], fun e => ?_⟩
      rw [hdata u (hne u hu)]; exact a3 e)
    refine ⟨s', by rw [Out.fold, e1]; exact e2, ?_⟩
    constructor
    · intro x
      rw [h2.owner, h1.owner]
      by_cases hx : x ∈ l
      · simp [hx]
      · simp [hx]
    · intro x
      rw [h2.pins, h1.pins]
      by_cases hx : x ∈ l
      · simp [hx]
      · simp [hx]
    · intro x
      rw [h2.newPins, h1.newPins]
      by_cases hx : x ∈ l
      · simp [hx]
      · simp [hx]
    · intro x
      rw [h2.weights, h1.weights]
      by_cases hx : x ∈ l
      · simp [hx]
      · simp [hx]
    · intro x
      rw [h2.data]
      by_cases hx : x ∈ l
      · rw [howner _ (hne x hx), howner _ (hpe x hx), hdata x (hne x hx)]
        simp [hx]
      · rw [if_neg (fun h => hx h.1), h1.data]
        simp [hx]
    · intro x
      rw [h2.unrefinedData]
      by_cases hx : x ∈ l
      · rw [howner _ (hne x hx), howner _ (hpe x hx), hdata x (hne x hx), h1.unrefinedData]
        simp [hx, hne x hx]
      · rw [if_neg (fun h => hx h.1), h1.unrefinedData]
        simp [hx]
    · intro q
      have hf : (l.filter fun x =>
          decide (q ≠ i ∧ s1.1.owner x = some i ∧ s1.1.owner (g.parent x) = some q)) = l.filter fun x =>
          decide (q ≠ i ∧ s.1.owner x = some i ∧ s.1.owner (g.parent x) = some q) := by
        apply List.filter_congr
        intro x hx
        rw [howner _ (hne x hx), howner _ (hpe x hx)]
      rw [h2.send, h1.send, hf, List.append_assoc, ← List.filter_append]
      rfl
    · intro q
      have hf : (l.filter fun x =>
          decide (q ≠ i ∧ s1.1.owner x = some q ∧ s1.1.owner (g.parent x) = some i)) = l.filter fun x =>
          decide (q ≠ i ∧ s.1.owner x = some q ∧ s.1.owner (g.parent x) = some i) := by
        apply List.filter_congr
        intro x hx
        rw [howner _ (hne x hx), howner _ (hpe x hx)]
      rw [h2.recv, h1.recv, hf, List.append_assoc, ← List.filter_append]
      rfl
    · rw [h2.refinedData, h1.refinedData]
    · rw [h2.remote, h1.remote]
    · rw [h2.req, h1.req]
    · rw [h2.hoods, h1.hoods]

end Dccrg
