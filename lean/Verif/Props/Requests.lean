import Verif.Props.RefineData
/-!
# C20, C50, C53, C55: requests
-/
namespace Dccrg
open Cfg
variable {n : Nat} {D W : Type} {g : Cfg} {w : Owner n} {s s' : Sys n D W} {dflt : D} {maxTag : Nat} {k : Calls}
  {sorted : Bool} {res : Fin n → Proc n D W × List Nat}

/-! ## C20 -/

/-- Operations other than load balancing. -/
def Op.NotBalance : Op n D W → Prop
  | .balance _ => False
  | _ => True

theorem not_saysRefine {p : Proc n D W} {c : Nat} (hl : g.lvl c < g.maxLvl) (hc : c ∈ p.req.notRefine) :
    ¬ SaysRefine g p c := by
  rintro ⟨r, h⟩
  unfold refineCompletely at h
  split at h
  · injection h with h; injection h with h _; cases h
  · split at h
    · omega
    · injection h with h; injection h with h _; cases h

/-- C20 is false of the code: after `dont_refine(c)` returned true on some process and `stop_refining`
returned, `refine_completely(c)` returns false on every process, no matter what is done in between, for as
long as load is not balanced, and `c` is not refined. -/
theorem C20_false (hw : g.WF) (h : History g dflt maxTag k s) {c : Nat} (hc : k.dontRefine c)
    (hl : g.lvl c < g.maxLvl) (hr : stopRefining g dflt maxTag sorted s = .ok res)
    (hs : Runs g dflt maxTag Op.NotBalance (fun i => (res i).1) s') (i : Fin n) :
    ¬ SaysRefine g (s' i) c ∧
    ∀ (sorted' : Bool) res', stopRefining g dflt maxTag sorted' s' = .ok res' → exist (s' i).owner c = true →
      ¬ Finer g (exist (res' i).1.owner) c := by
  have hn : 0 < n := by have := i.2; omega
  have key : ∃ k', History g dflt maxTag k' s' ∧ k'.dontRefine c ∧ ∀ j, c ∈ (s' j).req.notRefine := by
    induction hs with
    | refl =>
      obtain ⟨w, hi, hst, h3, -⟩ := h.stopped hw hr i
      refine ⟨_, .stop sorted h (show (stopRefining g dflt maxTag sorted s).bind _ = _ by rw [hr]; rfl),
        ⟨i, .base hc⟩, fun j => ?_⟩
      exact (h3.notRefine j c).2 (Kept.base (hst.dontRefine c hc hl))
    | step op _ hk ho h1 ih =>
      obtain ⟨k', h2, h3, h4⟩ := ih
      by_cases hq : op.Quiet
      · exact ⟨_, .call op h2 hq h1, Or.inl h3, fun j => (step_quiet op hq h1 j).2.notRefine c (h4 j)⟩
      · cases op with
        | stop sorted' =>
          obtain ⟨w, hi, hst⟩ := h2.stored hw hn
          refine ⟨_, .stop sorted' h2 h1, ⟨i, .base h3⟩, fun j => ?_⟩
          obtain ⟨res', e1, e2⟩ := Out.bind_inv h1
          injection e2 with e2
          subst e2
          exact ((stopRefining_sound hw hi.sys.core hi.req e1).1.notRefine j c).2 (Kept.base ⟨i, h4 i⟩)
        | balance z => cases hk
        | _ => exact absurd trivial hq
  obtain ⟨k', h2, h3, h4⟩ := key
  exact ⟨not_saysRefine hl (h4 i), fun sorted' res' hr' he => C19_dont_refine hw h2 h3 hr' i he⟩

/-- C20, what holds: requests do not outlive load balancing, after which any cell of the process that is not
of maximum level can be refined.
Missing: the same after `stop_refining`, which is false. -/
theorem C20_partial (hw : g.WF) (h : Reachable g dflt maxTag s) {z : Fin n → Moves n}
    (ho : (Op.balance z : Op n D W).Ok s) (hs : step g dflt maxTag s (.balance z) = .ok s') (i : Fin n) {c : Nat}
    (hc : (s' i).owner c = some i) (hl : g.lvl c < g.maxLvl) : SaysRefine g (s' i) c := by
  have hn : 0 < n := by have := i.2; omega
  obtain ⟨k, hk⟩ := h.history
  obtain ⟨w, hi, hst⟩ := (History.balance z hk ho hs).stored hw hn
  have hN : (s' i).req.notRefine = [] := by
    apply List.eq_nil_iff_forall_not_mem.2
    exact fun x hx => hst.dontRefine' i x hx
  rw [hi.sys.owner] at hc
  exact ⟨_, by
    rw [hi.sys.owner]
    exact refineCompletely_ok hw hi.sys.tiled hi.sys.balanced (hi.sys.placed i) hc hl (by
      rintro (h | ⟨b, -, -, -, h⟩) <;> rw [hN] at h <;> cases h)⟩

/-- The demo: `dont_refine(2)` on process 1. -/
theorem tiny_dont : ∃ (k : Calls) (s : Sys 2 Nat Nat) (res : Fin 2 → Proc 2 Nat Nat × List Nat),
    History tinyG 0 146 k s ∧ k.dontRefine 2 ∧ stopRefining tinyG 0 146 true s = .ok res := by
  obtain ⟨s, h1, h2, h3, -, -, -, -, h6⟩ := tiny_init
  obtain ⟨s1, e1, e2⟩ := tiny_step h2 (.dontRefine 1 2) trivial trivial
  obtain ⟨s2, e3, -⟩ := tiny_step e2 (.stop true) trivial trivial
  obtain ⟨res, e4, -⟩ := Out.bind_inv e3
  refine ⟨_, s1, res, .call (.dontRefine 1 2) (.init h1) trivial e1, Or.inr ⟨1, rfl, ?_⟩, e4⟩
  obtain ⟨b, r, f1, f2, -⟩ := dontRefine_spec (r := (s 1).req) (c := 2) h3.sys.tiled
  rw [f2.2 (exist_of h6)] at f1
  exact ⟨r, by rw [h3.sys.owner]; exact f1⟩

/-- The demo: cell 2 could not be refined, now and after any number of further rounds. -/
example : ∃ (s : Sys 2 Nat Nat) (res : Fin 2 → Proc 2 Nat Nat × List Nat), Reachable tinyG 0 146 s ∧
    stopRefining tinyG 0 146 true s = .ok res ∧
    ∀ s', Runs tinyG 0 146 Op.NotBalance (fun i => (res i).1) s' → ¬ SaysRefine tinyG (s' 1) 2 := by
  obtain ⟨k, s, res, h1, h2, h3⟩ := tiny_dont
  exact ⟨s, res, h1.reachable, h3, fun s' hs' => (C20_false tiny_wf h1 h2 (by decide) h3 hs' 1).1⟩

/-! ## C50 -/

/-- C50: `refine_completely` and `unrefine_completely` of a cell that does not exist or is on another process
return false without effect. -/
theorem C50_not_local (hw : g.WF) (h : Reachable g dflt maxTag s) (i : Fin n) {c : Nat}
    (hc : (s i).owner c ≠ some i) :
    refineCompletely g (exist (s i).owner) (fun c => ((s i).data c).isSome) (s i).req c =
      .ok (false, (s i).req) ∧
    unrefineCompletely g (exist (s i).owner) (fun c => ((s i).data c).isSome) (s i).req c =
      .ok (false, (s i).req) := by
  obtain ⟨w, hi⟩ := h.inv hw (by have := i.2; omega)
  rw [hi.sys.owner] at hc ⊢
  exact ⟨refineCompletely_false (hi.sys.placed i) hc, unrefineCompletely_false (hi.sys.placed i) hc⟩

/-- C50: requests about cells that do not exist return false without effect. -/
theorem C50_not_existing (hw : g.WF) (h : Reachable g dflt maxTag s) (i : Fin n) {c : Nat}
    (hc : exist (s i).owner c = false) :
    refineCompletely g (exist (s i).owner) (fun c => ((s i).data c).isSome) (s i).req c =
      .ok (false, (s i).req) ∧
    unrefineCompletely g (exist (s i).owner) (fun c => ((s i).data c).isSome) (s i).req c =
      .ok (false, (s i).req) ∧
    dontRefine g (exist (s i).owner) (s i).req c = .ok (false, (s i).req) ∧
    dontUnrefine g (exist (s i).owner) (s i).req c = .ok (false, (s i).req) := by
  obtain ⟨h1, h2⟩ := C50_not_local hw h i (c := c) (by intro e; rw [exist_of e] at hc; cases hc)
  refine ⟨h1, h2, ?_, ?_⟩
  · unfold dontRefine; rw [if_pos (Or.inr hc)]
  · unfold dontUnrefine; rw [if_pos (Or.inr hc)]

/-- C50: `unrefine_completely` returns false without effect if a sibling has children, unless
`refine_completely` or `dont_unrefine` has returned true for a sibling. -/
theorem C50_sibling_refined (hw : g.WF) (h : History g dflt maxTag k s) (i : Fin n) {c x : Nat}
    (hc : (s i).owner c = some i) (hl : 0 < g.lvl c) (hx : x ∈ g.children (g.parent c))
    (hne : exist (s i).owner x = false)
    (hk : ∀ y ∈ g.children (g.parent c), ¬ k.refine y ∧ ¬ k.dontUnrefine y) :
    unrefineCompletely g (exist (s i).owner) (fun c => ((s i).data c).isSome) (s i).req c =
      .ok (false, (s i).req) := by
  obtain ⟨w, hi, hst⟩ := h.stored hw (by have := i.2; omega)
  rw [hi.sys.owner] at hc hne ⊢
  obtain ⟨b, r, h1, h2, h3, -⟩ := unrefineCompletely_spec (r := (s i).req) hw hi.sys.tiled hi.sys.balanced
    (hi.sys.placed i) hc
  have hb := h3 hl ⟨x, hx, hne⟩ (fun y hy => ⟨fun e => (hk y hy).1 (hst.refine' i y e), fun e => by
    rcases hst.dontUnrefine' i y e with e | e
    · exact (hk y hy).2 e
    · exact (hk y hy).1 e⟩)
  subst hb
  rw [h1, (h2 rfl).1]

/-- The demo: cell 1 does not exist after it has been refined, cell 2 is on another process. -/
example : ∃ s : Sys 2 Nat Nat, Reachable tinyG 0 146 s ∧ exist (s 0).owner 1 = false ∧
    (s 0).owner 2 ≠ some 0 := by
  obtain ⟨s, res, -, -, -, h1, h2⟩ := tiny_refined
  refine ⟨_, h1, ?_, ?_⟩
  · unfold exist; rw [(h2 0).2.1]; rfl
  · rw [(h2 0).2.2.1]; decide

/-- The demo: children of a child of cell 1 exist. -/
example : ∃ (k : Calls) (s : Sys 2 Nat Nat), History tinyG 0 146 k s ∧ (s 0).owner 4 = some 0 ∧
    0 < tinyG.lvl 4 ∧ 3 ∈ tinyG.children (tinyG.parent 4) ∧ exist (s 0).owner 3 = false ∧
    ∀ y ∈ tinyG.children (tinyG.parent 4), ¬ k.refine y ∧ ¬ k.dontUnrefine y := by
  obtain ⟨k, s, res, h1, h2, h3, h4, h5, h6, h7⟩ := tiny_family_refine
  have he3 := exist_of (h4 0 3 (by decide))
  have he4 := exist_of (h4 0 4 (by decide))
  have hf3 := ((C24_least tiny_wf h1 h5 0).1 3 h2 (by decide) (Veto.none h3)).2
  have hl : ∀ c, Forced tinyG (exist (s 0).owner) k c → tinyG.lvl c < 2 ∧ (tinyG.lvl c = 1 → c = 3) := by
    intro c hc
    induction hc with
    | base e _ _ => rw [h6 _ e]; exact ⟨by decide, fun _ => rfl⟩
    | step _ _ _ _ e ih => exact ⟨by omega, by omega⟩
  refine ⟨_, _, .stop true h1 (show (stopRefining tinyG 0 146 true s).bind _ = _ by rw [h5]; rfl), ?_,
    by decide, by decide, (C24_children tiny_wf h1 h5 0 he3 hf3).1, fun y _ => ⟨id, id⟩⟩
  refine ((C27_owners tiny_wf h1.reachable h5 0 he4).2.2 ?_ ?_).trans (h4 0 4 (by decide))
  · rw [C24_refined_cells tiny_wf h1 h5 0 he4]
    intro hf
    exact absurd ((hl 4 hf).2 (by decide)) (by decide)
  · intro hco
    obtain ⟨u, hu, -⟩ := C56_only_requested tiny_wf h1 h5 0 he4 hco
    exact h7 u hu

/-! ## C53 -/

/-- Requests are the same sets. -/
structure SameReq (r r' : Req) : Prop where
  toRefine : ∀ x, x ∈ r.toRefine ↔ x ∈ r'.toRefine
  toUnrefine : ∀ x, x ∈ r.toUnrefine ↔ x ∈ r'.toUnrefine
  notRefine : ∀ x, x ∈ r.notRefine ↔ x ∈ r'.notRefine
  notUnrefine : ∀ x, x ∈ r.notUnrefine ↔ x ∈ r'.notUnrefine

theorem SameReq.refl (r : Req) : SameReq r r := ⟨fun _ => .rfl, fun _ => .rfl, fun _ => .rfl, fun _ => .rfl⟩

/-- C53: calling `refine_completely` again for the same cell returns the same value and changes nothing. -/
theorem C53_twice (hw : g.WF) (h : Reachable g dflt maxTag s) (i : Fin n) {c : Nat} {b b' : Bool} {r r' : Req}
    (h1 : refineCompletely g (exist (s i).owner) (fun c => ((s i).data c).isSome) (s i).req c = .ok (b, r))
    (h2 : refineCompletely g (exist (s i).owner) (fun c => ((s i).data c).isSome) r c = .ok (b', r')) :
    b' = b ∧ SameReq r' r := by
  obtain ⟨w, hi⟩ := h.inv hw (by have := i.2; omega)
  have ht := hi.sys.tiled
  have hb := hi.sys.balanced
  rw [hi.sys.owner] at h1 h2
  by_cases hc : w c = some i
  · have hle := lvl_le (ht.valid c (exist_of hc))
    by_cases hl : g.lvl c = g.maxLvl
    · obtain ⟨r1, e1, e2⟩ := refineCompletely_max (r := (s i).req) hw ht (hi.sys.placed i) hc hl
      rw [h1] at e1
      injection e1 with e1
      injection e1 with e1 e1'
      subst e1'
      obtain ⟨r2, e3, e4⟩ := refineCompletely_max (r := r) hw ht (hi.sys.placed i) hc hl
      rw [h2] at e3
      injection e3 with e3
      injection e3 with e3 e3'
      subst e3'
      refine ⟨e3.trans e1.symm, ?_⟩
      suffices r' = r by rw [this]; exact .refl r
      have hce := exist_of hc
      have hv := ht.valid c hce
      have h0 : ¬ (c = 0 ∨ exist w c = false) := by
        rintro (e | e)
        · exact valid_pos hv e
        · rw [hce] at e; cases e
      unfold dontUnrefine at e2 e4
      rw [if_neg h0, if_neg (by simpa using hv)] at e2 e4
      split at e4
      · injection e4 with e4; injection e4 with _ e4; exact e4.symm
      · rename_i hl0
        rw [if_neg hl0] at e2
        have hself : c ∈ g.siblings c := by
          rw [siblings_eq hl0]; exact mem_children_parent hw hv (by omega)
        split at e2
        · rename_i hs
          injection e2 with e2; injection e2 with _ e2
          rw [← e2] at e4
          rw [if_pos hs] at e4
          injection e4 with e4; injection e4 with _ e4
          rw [← e4, e2]
        · injection e2 with e2; injection e2 with _ e2
          rw [if_pos ⟨c, hself, by rw [← e2]; exact List.mem_cons_self⟩] at e4
          injection e4 with e4; injection e4 with _ e4; exact e4.symm
    · by_cases hr : Refused g w (s i).req c
      · rw [refineCompletely_refused hw ht hb (hi.sys.placed i) hc (by omega) hr] at h1
        injection h1 with h1
        injection h1 with e1 e2
        subst e2
        rw [refineCompletely_refused hw ht hb (hi.sys.placed i) hc (by omega) hr] at h2
        injection h2 with h2
        injection h2 with e3 e4
        subst e4
        exact ⟨e3.symm.trans e1, .refl _⟩
      · rw [refineCompletely_ok hw ht hb (hi.sys.placed i) hc (by omega) hr] at h1
        injection h1 with h1
        injection h1 with e1 e2
        subst e2
        have hr' : ¬ Refused g w ({ (s i).req with
            toRefine := c :: (s i).req.toRefine
            toUnrefine := without (s i).req.toUnrefine (cancelled g (exist w) c) } : Req) c := hr
        rw [refineCompletely_ok hw ht hb (hi.sys.placed i) hc (by omega) hr'] at h2
        injection h2 with h2
        injection h2 with e3 e4
        subst e4
        refine ⟨e3.symm.trans e1, fun x => ?_, fun x => ?_, fun _ => .rfl, fun _ => .rfl⟩
        · simp
        · rw [mem_without]
          exact ⟨fun h => h.1, fun h => ⟨h, (mem_without.1 h).2⟩⟩
  · rw [refineCompletely_false (hi.sys.placed i) hc] at h1
    injection h1 with h1
    injection h1 with e1 e2
    subst e2
    rw [refineCompletely_false (hi.sys.placed i) hc] at h2
    injection h2 with h2
    injection h2 with e3 e4
    subst e4
    exact ⟨e3.symm.trans e1, .refl _⟩

/-- The demo: cell 3 requested twice. -/
example : ∃ (s : Sys 2 Nat Nat) (r r' : Req), Reachable tinyG 0 146 s ∧
    refineCompletely tinyG (exist (s 0).owner) (fun c => ((s 0).data c).isSome) (s 0).req 3 = .ok (true, r) ∧
    refineCompletely tinyG (exist (s 0).owner) (fun c => ((s 0).data c).isSome) r 3 = .ok (true, r') := by
  obtain ⟨k, s, h1, h2, h3, -⟩ := tiny_family
  obtain ⟨w, hi, hst⟩ := h1.stored tiny_wf (by decide)
  have hN : (s 0).req.notRefine = [] := List.eq_nil_iff_forall_not_mem.2 fun y hy =>
    (h2 y).2.2.1 (hst.dontRefine' 0 y hy)
  have hc := h3 0 3 (by decide)
  rw [hi.sys.owner] at hc
  have hok := fun (r : Req) (hr : r.notRefine = []) =>
    refineCompletely_ok (r := r) tiny_wf hi.sys.tiled hi.sys.balanced (hi.sys.placed 0) hc (by decide)
      (by rintro (h | ⟨b, -, -, -, h⟩) <;> rw [hr] at h <;> cases h)
  rw [← hi.sys.owner 0] at hok
  exact ⟨s, _, _, h1.reachable, hok _ hN, hok _ hN⟩

/-- `refine_completely` on given processes for given cells, one after another. -/
def refineAll (g : Cfg) (dflt : D) (maxTag : Nat) (s : Sys n D W) : List (Fin n × Nat) → Out (Sys n D W)
  | [] => .ok s
  | x :: l => (step g dflt maxTag s (.refine x.1 x.2)).bind fun s' => refineAll g dflt maxTag s' l

theorem refineAll_history (hw : g.WF) {l : List (Fin n × Nat)} (h : History g dflt maxTag k s)
    (hn : ∀ c, ¬ k.dontRefine c) (hs : refineAll g dflt maxTag s l = .ok s') (j : Fin n) :
    (s' j).owner = (s j).owner ∧ ∃ k', History g dflt maxTag k' s' ∧ (∀ c, ¬ k'.dontRefine c) ∧
      ∀ c, g.lvl c < g.maxLvl →
        (k'.refine c ↔ k.refine c ∨ ∃ i, (i, c) ∈ l ∧ (s j).owner c = some i) := by
  induction l generalizing k s with
  | nil =>
    injection hs with hs
    subst hs
    exact ⟨rfl, k, h, hn, fun c _ => ⟨Or.inl, fun h => h.elim id (by rintro ⟨i, h, -⟩; cases h)⟩⟩
  | cons x l ih =>
    obtain ⟨s1, e1, e2⟩ := Out.bind_inv hs
    have hn' : ∀ c, ¬ (k.add g s (.refine x.1 x.2)).dontRefine c := by
      rintro c (e | ⟨i, e, -⟩)
      · exact hn c e
      · cases e
    obtain ⟨f1, k', f2, f3, f4⟩ := ih (.call (.refine x.1 x.2) h trivial e1) hn' e2
    have hq := (step_quiet (.refine x.1 x.2) trivial e1 j).1
    refine ⟨f1.trans hq, k', f2, f3, fun c hl => ?_⟩
    rw [f4 c hl, hq]
    obtain ⟨w, hi, hst⟩ := h.stored hw (by have := j.2; omega)
    have hN : ∀ i, (s i).req.notRefine = [] := fun i =>
      List.eq_nil_iff_forall_not_mem.2 fun y hy => hn y (hst.dontRefine' i y hy)
    have hsays : ∀ i, SaysRefine g (s i) c ↔ (s j).owner c = some i := by
      intro i
      rw [hi.sys.owner j]
      unfold SaysRefine
      rw [hi.sys.owner i]
      constructor
      · rintro ⟨r, hr⟩
        apply Classical.byContradiction
        intro hc
        rw [refineCompletely_false (hi.sys.placed i) hc] at hr
        cases hr
      · intro hc
        exact ⟨_, refineCompletely_ok hw hi.sys.tiled hi.sys.balanced (hi.sys.placed i) hc hl (by
          rintro (h | ⟨b, -, -, -, h⟩) <;> rw [hN] at h <;> cases h)⟩
    constructor
    · rintro ((e | ⟨i, e, e'⟩) | ⟨i, e, e'⟩)
      · exact Or.inl e
      · injection e with e3 e4
        subst e4
        refine Or.inr ⟨i, ?_, (hsays i).1 e'⟩
        rw [← e3]; exact List.mem_cons_self
      · exact Or.inr ⟨i, List.mem_cons_of_mem _ e, e'⟩
    · rintro (e | ⟨i, e, e'⟩)
      · exact Or.inl (Or.inl e)
      · rcases List.mem_cons.1 e with e | e
        · subst e
          exact Or.inl (Or.inr ⟨i, rfl, (hsays i).2 e'⟩)
        · exact Or.inr ⟨i, e, e'⟩

/-- C53: if there are no don't-requests, refined cells do not depend on the order or number of
repetitions of requests. -/
theorem C53_order (hw : g.WF) (h : History g dflt maxTag k s) (hn : ∀ c, ¬ k.dontRefine c)
    {l l' : List (Fin n × Nat)} (hl : ∀ x, x ∈ l ↔ x ∈ l') {t t' : Sys n D W}
    (ht : refineAll g dflt maxTag s l = .ok t) (ht' : refineAll g dflt maxTag s l' = .ok t')
    {sorted sorted' : Bool} {res res' : Fin n → Proc n D W × List Nat}
    (hr : stopRefining g dflt maxTag sorted t = .ok res) (hr' : stopRefining g dflt maxTag sorted' t' = .ok res')
    (j : Fin n) {c : Nat} (hc : exist (s j).owner c = true) :
    Finer g (exist (res j).1.owner) c ↔ Finer g (exist (res' j).1.owner) c := by
  obtain ⟨e1, k1, h1, n1, r1⟩ := refineAll_history hw h hn ht j
  obtain ⟨e2, k2, h2, n2, r2⟩ := refineAll_history hw h hn ht' j
  have hc1 : exist (t j).owner c = true := by rw [e1]; exact hc
  have hc2 : exist (t' j).owner c = true := by rw [e2]; exact hc
  rw [C24_refined_cells hw h1 hr j hc1, C24_refined_cells hw h2 hr' j hc2, e1, e2]
  have hk : ∀ c, g.lvl c < g.maxLvl → (k1.refine c ↔ k2.refine c) := by
    intro c hl'
    rw [r1 c hl', r2 c hl']
    simp only [hl]
  clear hc hc1 hc2
  constructor
  · intro hf
    induction hf with
    | base a1 a2 a3 => exact .base ((hk _ a2).1 a1) a2 (Veto.none n2)
    | step _ a1 a2 a3 a4 ih => exact .step ih a1 a2 a3 a4
  · intro hf
    induction hf with
    | base a1 a2 a3 => exact .base ((hk _ a2).2 a1) a2 (Veto.none n1)
    | step _ a1 a2 a3 a4 ih => exact .step ih a1 a2 a3 a4

/-- The demo: cells 3 and 4 requested in either order. -/
example : ∃ (k : Calls) (s t t' : Sys 2 Nat Nat) (res res' : Fin 2 → Proc 2 Nat Nat × List Nat),
    History tinyG 0 146 k s ∧ (∀ c, ¬ k.dontRefine c) ∧ exist (s 0).owner 3 = true ∧
    refineAll tinyG 0 146 s [(0, 3), (0, 4)] = .ok t ∧ refineAll tinyG 0 146 s [(0, 4), (0, 3)] = .ok t' ∧
    stopRefining tinyG 0 146 true t = .ok res ∧ stopRefining tinyG 0 146 true t' = .ok res' := by
  obtain ⟨k, s, h1, h2, h3, -⟩ := tiny_family
  have hrun : ∀ (l : List (Fin 2 × Nat)) (s : Sys 2 Nat Nat), Reachable tinyG 0 146 s →
      ∃ t res, refineAll tinyG 0 146 s l = .ok t ∧ stopRefining tinyG 0 146 true t = .ok res := by
    intro l
    induction l with
    | nil =>
      intro s hs
      obtain ⟨s', e1, -⟩ := tiny_step hs (.stop true) trivial trivial
      obtain ⟨res, e2, -⟩ := Out.bind_inv e1
      exact ⟨s, res, rfl, e2⟩
    | cons x l ih =>
      intro s hs
      obtain ⟨s', e1, e2⟩ := tiny_step hs (.refine x.1 x.2) trivial trivial
      obtain ⟨t, res, e3, e4⟩ := ih s' e2
      refine ⟨t, res, ?_, e4⟩
      show (step tinyG 0 146 s (.refine x.1 x.2)).bind _ = _
      rw [e1]; exact e3
  obtain ⟨t, res, a1, a2⟩ := hrun [(0, 3), (0, 4)] s h1.reachable
  obtain ⟨t', res', b1, b2⟩ := hrun [(0, 4), (0, 3)] s h1.reachable
  exact ⟨k, s, t, t', res, res', h1, fun c => (h2 c).2.2.1, exist_of (h3 0 3 (by decide)), a1, b1, a2, b2⟩

/-! ## C55 -/

/-- C55: in every reachable state every operation returns if the MPI implementation supports at least as many
tags as there are possible cells, the partitioner keeps its promises and the updated neighborhood exists. -/
theorem C55_operations_return (hw : g.WF) (hn : 0 < n) (h : Reachable g dflt maxTag s) (hm : g.last ≤ maxTag)
    (op : Op n D W) (ho : op.Ok s) (hk : op.Known g s) : ∃ s', step g dflt maxTag s op = .ok s' := by
  obtain ⟨w, hi⟩ := h.inv hw hn
  exact step_ok hw hn dflt hi hm op ho hk

example : ∃ s : Sys 2 Nat Nat, tinyG.WF ∧ Reachable tinyG 0 146 s ∧ tinyG.last ≤ 146 ∧
    (Op.stop true : Op 2 Nat Nat).Ok s ∧ (Op.stop true : Op 2 Nat Nat).Known tinyG s := by
  obtain ⟨k, s, h1, -⟩ := tiny_family
  exact ⟨s, tiny_wf, h1.reachable, by decide, trivial, trivial⟩

end Dccrg
