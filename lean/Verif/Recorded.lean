import Verif.Alike
import Verif.History
/-!
# What stop_refining does with recorded requests

Same for all histories, also if requests were made while load was being balanced, see Verif/Between.lean.
-/
namespace Dccrg
open Cfg
variable {n : Nat} {D W : Type} {g : Cfg} {w : Owner n} {s s' : Sys n D W} {dflt : D} {maxTag : Nat} {k : Calls}
  {sorted : Bool} {res : Fin n → Proc n D W × List Nat}

/-- Accepted calls are stored. -/
theorem Stored.call (hw : g.WF) (hi : Asks g w s) {k : Calls} (hst : Stored g w k s) {op : Op n D W} (hq : op.Quiet)
    (h : step g dflt maxTag s op = .ok s') : Stored g w (k.add g s op) s' := by
  cases op with
  | refine i c => exact hst.refine_call hw hi h
  | unrefine i c => exact hst.unrefine_call hw hi h
  | dontRefine i c => exact hst.dontRefine_call hi h
  | dontUnrefine i c => exact hst.dontUnrefine_call hw hi h
  | _ => exact hst.other_call _ hq h (by intros; nofun) (by intros; nofun) (by intros; nofun) (by intros; nofun)

/-- Calls `k` are recorded in a grid. Processes may have pin requests and weights of cells of other processes. -/
def Recorded (g : Cfg) (k : Calls) (s : Sys n D W) : Prop :=
  ∃ w t, Inv g w t ∧ Stored g w k t ∧ ∀ i, Alike (t i) (s i)

theorem History.recorded (hw : g.WF) (h : History g dflt maxTag k s) (j : Fin n) : Recorded g k s := by
  obtain ⟨w, hi, hst⟩ := h.stored hw (by have := j.2; omega)
  exact ⟨w, s, hi, hst, fun i => .refl _⟩

theorem add_alike {t : Sys n D W} (h : ∀ i, Alike (t i) (s i)) (op : Op n D W) : k.add g s op = k.add g t op := by
  have eo : ∀ i, (s i).owner = (t i).owner := fun i => by rw [h i]
  have ed : ∀ i, (s i).data = (t i).data := fun i => by rw [h i]
  have er : ∀ i, (s i).req = (t i).req := fun i => by rw [h i]
  unfold Calls.add SaysRefine SaysUnrefine SaysDontRefine SaysDontUnrefine
  simp only [eo, ed, er]

/-- Further calls are recorded too. -/
theorem Recorded.call (hw : g.WF) (h : Recorded g k s) {op : Op n D W} (hq : op.Quiet)
    (hs : step g dflt maxTag s op = .ok s') : Recorded g (k.add g s op) s' := by
  obtain ⟨w, t, hi, hst, ha⟩ := h
  have hb : ∀ z, op ≠ .balance z := by rintro z rfl; exact hq
  obtain ⟨t', h1, h2⟩ := (step_alike hb fun i => (ha i).symm).inv hs
  obtain ⟨w', hi'⟩ := hi.step hw (hq.ok _) h1
  by_cases hn : 0 < n
  case neg =>
    refine ⟨w', t', hi', ?_, fun i => (h2 i).symm⟩
    have : w' = w := by
      have e := hi'.sys.tiled
      exact funext fun c => (Option.eq_none_iff_forall_not_mem.2 fun i => absurd i.2 (by omega)).trans
        (Option.eq_none_iff_forall_not_mem.2 fun i => absurd i.2 (by omega)).symm
    subst this
    rw [add_alike ha]
    exact hst.call hw hi.asks hq h1
  have : w' = w := by
    rw [← hi'.sys.owner ⟨0, hn⟩, (step_quiet op hq h1 _).1, hi.sys.owner]
  subst this
  rw [add_alike ha]
  exact ⟨w', t', hi', hst.call hw hi.asks hq h1, fun i => (h2 i).symm⟩

/-- What is known after `stop_refining`. -/
theorem Recorded.stopped (hw : g.WF) (h : Recorded g k s) (hr : stopRefining g dflt maxTag sorted s = .ok res) (_ : Fin n) :
    ∃ w, Asks g w s ∧ Stored g w k s ∧ Plan g (exist w) (Refines g w s) (Unrefines g w s) ∧
      (∀ i, exist (res i).1.owner = exist (newOwner g w (Refines g w s) (Unrefines g w s))) ∧
      (∀ x, exist (newOwner g w (Refines g w s) (Unrefines g w s)) x = true ↔
        After g (exist w) (Refines g w s) (Unrefines g w s) x) ∧ ∀ i, ReqOk g w (s i).req := by
  obtain ⟨w, t, hi, hst, ha⟩ := h
  obtain ⟨res', h1, h2⟩ := (stopRefining_alike fun i => (ha i).symm).inv hr
  have h3 := (stopRefining_sound hw hi.sys.core hi.req h1).1
  have er : ∀ i, (s i).req = (t i).req := fun i => by rw [ha i]
  have e1 : Refines g w s = Refines g w t := by unfold Refines Vetoed; simp only [er]
  have e2 : Unrefines g w s = Unrefines g w t := by
    unfold Unrefines
    rw [e1]
    simp only [er]
  have eo : ∀ i, (s i).owner = (t i).owner := fun i => by rw [ha i]
  have ed : ∀ i, (s i).data = (t i).data := fun i => by rw [ha i]
  have ro : ∀ i, (res' i).1.owner = (res i).1.owner := fun i => by rw [(h2 i).1]
  have hk := hi.asks
  refine ⟨w, ?_⟩
  rw [e1, e2]
  exact ⟨⟨fun i => (eo i).trans (hk.owner i), hk.tiled, hk.balanced, fun i c hc => by rw [ed]; exact hk.own i c hc,
    fun i c hc => hk.held i c (by rw [← ed]; exact hc)⟩,
    hst.congr er (fun _ => Iff.rfl) (fun _ => Iff.rfl) (fun _ => Iff.rfl) (fun _ => Iff.rfl), h3.plan,
    fun i => by rw [← ro, (h3.exec i).owner], newOwner_exist hw hi.sys.tiled h3.plan, fun i => by rw [er]; exact hi.req i⟩

/-- Cells refined by `stop_refining` are those that have to be. -/
theorem Recorded.refined_cells (hw : g.WF) (h : Recorded g k s)
    (hr : stopRefining g dflt maxTag sorted s = .ok res) (j : Fin n) {c : Nat}
    (hc : exist (s j).owner c = true) :
    Finer g (exist (res j).1.owner) c ↔ Forced g (exist (s j).owner) k c := by
  obtain ⟨w, hi, hst, h3, h4, h5, hq⟩ := h.stopped hw hr j
  rw [hi.owner] at hc ⊢
  rw [h4, h3.finer_iff hw hi.tiled h5 hc, hst.refines_iff hw hi.tiled hq]

/-- They are the least set closed under refining larger cells that have a refined cell in their
neighborhood. -/
theorem Recorded.refined_least (hw : g.WF) (h : Recorded g k s)
    (hr : stopRefining g dflt maxTag sorted s = .ok res) (j : Fin n) :
    let E := exist (s j).owner
    let Refined := fun c => E c = true ∧ Finer g (exist (res j).1.owner) c
    (∀ c, k.refine c → g.lvl c < g.maxLvl → ¬ Veto g E k.dontRefine c → Refined c) ∧
    (∀ b c, ∀ o ∈ hoodOf g, Refined c → E b = true → Meets g b o c → g.lvl b < g.lvl c → Refined b) ∧
    ∀ X : Nat → Prop, (∀ c, k.refine c → g.lvl c < g.maxLvl → ¬ Veto g E k.dontRefine c → X c) →
      (∀ b c, ∀ o ∈ hoodOf g, X c → E b = true → Meets g b o c → g.lvl b < g.lvl c → X b) →
      ∀ c, Refined c → X c := by
  intro E Refined
  have hi : ∀ c, E c = true → (Finer g (exist (res j).1.owner) c ↔ Forced g E k c) := fun c hc =>
    h.refined_cells hw hr j hc
  have hE : ∀ c, k.refine c → E c = true := by
    obtain ⟨w, hi, hst, -⟩ := h.stopped hw hr j
    intro c hc
    show exist (s j).owner c = true
    rw [hi.owner]
    exact hst.refineOwn c hc
  refine ⟨fun c h1 h2 h3 => ⟨hE c h1, (hi c (hE c h1)).2 (.base h1 h2 h3)⟩, ?_, ?_⟩
  · rintro b c o ho ⟨h1, h2⟩ h3 h4 h5
    exact ⟨h3, (hi b h3).2 (.step ((hi c h1).1 h2) h3 ho h4 h5)⟩
  · rintro X h1 h2 c ⟨h3, h4⟩
    have := (hi c h3).1 h4
    clear h3 h4
    induction this with
    | base e1 e2 e3 => exact h1 _ e1 e2 e3
    | step _ e1 e2 e3 e4 ih => exact h2 _ _ _ e2 ih e1 e3 e4

/-- A refined cell is replaced by its eight children. -/
theorem Recorded.refined_children (hw : g.WF) (h : Recorded g k s)
    (hr : stopRefining g dflt maxTag sorted s = .ok res) (j : Fin n) {c : Nat}
    (hc : exist (s j).owner c = true) (hf : Finer g (exist (res j).1.owner) c) :
    exist (res j).1.owner c = false ∧ ∀ x ∈ g.children c, exist (res j).1.owner x = true := by
  obtain ⟨w, hi, hst, h3, h4, h5, hq⟩ := h.stopped hw hr j
  rw [hi.owner] at hc
  rw [h4] at hf ⊢
  have hR := (h3.finer_iff hw hi.tiled h5 hc).1 hf
  refine ⟨?_, fun x hx => (h5 x).2 (Or.inr (Or.inl ⟨c, hR, hx⟩))⟩
  unfold exist
  rw [newOwner_gone hw hi.tiled h3 (Or.inl hR)]; rfl

/-- A cell for which `dont_refine` returned true on any process is not refined. -/
theorem Recorded.dont_refine (hw : g.WF) (h : Recorded g k s) {c : Nat} (hc : k.dontRefine c)
    (hr : stopRefining g dflt maxTag sorted s = .ok res) (j : Fin n) (he : exist (s j).owner c = true) :
    ¬ Finer g (exist (res j).1.owner) c := by
  intro hf
  rw [h.refined_cells hw hr j he] at hf
  have : ∀ c, Forced g (exist (s j).owner) k c → ¬ Veto g (exist (s j).owner) k.dontRefine c := by
    obtain ⟨w, hi, hst, -⟩ := h.stopped hw hr j
    intro c hc
    induction hc with
    | base _ _ h => exact h
    | step hf h1 h2 h3 h4 ih =>
      intro hv
      refine ih (.step hv h1 ?_ h2 h3 h4)
      cases hf with
      | base h => rw [hi.owner]; exact hst.refineOwn _ h
      | step _ h => exact h
  exact this c hf (.base hc)

/-- Smaller cells in the neighborhood of such a cell are not refined either. -/
theorem Recorded.vetoed (hw : g.WF) (h : Recorded g k s) {c : Nat} 
    (hr : stopRefining g dflt maxTag sorted s = .ok res) (j : Fin n) (he : exist (s j).owner c = true)
    (hc : Veto g (exist (s j).owner) k.dontRefine c) : ¬ Finer g (exist (res j).1.owner) c := by
  intro hf
  rw [h.refined_cells hw hr j he] at hf
  obtain ⟨w, hi, hst, -⟩ := h.stopped hw hr j
  clear he
  induction hf with
  | base _ _ h => exact h hc
  | step hf h1 h2 h3 h4 ih =>
    refine ih (.step hc h1 ?_ h2 h3 h4)
    cases hf with
    | base h => rw [hi.owner]; exact hst.refineOwn _ h
    | step _ h => exact h

/-- Refined and unrefined cells do not belong to the same family. -/
theorem Recorded.precedence (hw : g.WF) (h : Recorded g k s)
    (hr : stopRefining g dflt maxTag sorted s = .ok res) (j : Fin n) {c c' : Nat}
    (hc : exist (s j).owner c = true) (hc' : exist (s j).owner c' = true) (hp : g.parent c = g.parent c')
    (hl : 0 < g.lvl c) (hf : Finer g (exist (res j).1.owner) c) : ¬ Coarser g (exist (res j).1.owner) c' := by
  obtain ⟨w, hi, hst, h3, h4, h5, hq⟩ := h.stopped hw hr j
  rw [hi.owner] at hc hc'
  rw [h4] at hf ⊢
  rw [h3.finer_iff hw hi.tiled h5 hc] at hf
  rw [h3.coarser_iff hw hi.tiled h5 hc']
  intro hfam
  obtain ⟨e1, e2, e3, e4⟩ := h3.fam_exist hw hi.tiled hfam
  rw [← hp] at e3
  exact (h3.par_children hw hi.tiled e3 (mem_children_parent hw (hi.tiled.valid c hc) hl)).2.2 hf

/-- A cell for which `dont_unrefine` returned true on any process is not unrefined. -/
theorem Recorded.dont_unrefine (hw : g.WF) (h : Recorded g k s) {c : Nat} (hc : k.dontUnrefine c)
    (hr : stopRefining g dflt maxTag sorted s = .ok res) (j : Fin n) :
    ¬ Coarser g (exist (res j).1.owner) c := by
  obtain ⟨w, hi, hst, h3, h4, h5, hq⟩ := h.stopped hw hr j
  have hce := hst.dontUnrefineOwn c hc
  rw [h4]
  rintro hco
  have hl : 0 < g.lvl c := by obtain ⟨x, p, -, -, -, hx⟩ := hco; omega
  rw [h3.coarser_iff hw hi.tiled h5 hce] at hco
  obtain ⟨i, x, hx, hi'⟩ := hst.dontUnrefine c hc hl
  obtain ⟨u, hu, hcu⟩ := hco
  obtain ⟨e1, e2, -⟩ := h3.parent hw hi.tiled hu
  rw [((children_spec hw e1 e2).1 hcu).2.2] at hx
  exact (hu.2.1 x hx).2 i hi'

/-- Cells are unrefined only if `unrefine_completely` returned true for one of the family. -/
theorem Recorded.only_requested (hw : g.WF) (h : Recorded g k s)
    (hr : stopRefining g dflt maxTag sorted s = .ok res) (j : Fin n) {c : Nat}
    (hc : exist (s j).owner c = true) (hco : Coarser g (exist (res j).1.owner) c) :
    ∃ u, k.unrefine u ∧ g.parent u = g.parent c ∧ exist (s j).owner u = true ∧
      exist (res j).1.owner (g.parent c) = true ∧
      ∀ x ∈ g.children (g.parent c), exist (s j).owner x = true ∧ exist (res j).1.owner x = false := by
  obtain ⟨w, hi, hst, h3, h4, h5, hq⟩ := h.stopped hw hr j
  rw [hi.owner] at hc ⊢
  rw [h4] at hco ⊢
  rw [h3.coarser_iff hw hi.tiled h5 hc] at hco
  obtain ⟨u, hu, hcu⟩ := hco
  obtain ⟨e1, e2, -⟩ := h3.parent hw hi.tiled hu
  have hp := ((children_spec hw e1 e2).1 hcu).2.2
  obtain ⟨i, hj⟩ := hu.1
  refine ⟨u, hst.unrefine' i u hj, hp.symm, (h3.unE u hu).1, ?_, ?_⟩
  · rw [h5]; exact Or.inr (Or.inr ⟨u, hu, hp⟩)
  · intro x hx
    rw [hp] at hx
    refine ⟨((h3.unE u hu).2.2 x hx).1, ?_⟩
    unfold exist
    rw [newOwner_gone hw hi.tiled h3 (Or.inr ⟨u, hu, hx⟩)]; rfl

/-- A requested unrefinement happens if there are no requests to refine or not to unrefine and no cell
in the neighborhood of the parent is smaller than the cell. -/
theorem Recorded.requested_unrefinement (hw : g.WF) (h : Recorded g k s) {c : Nat} (hc : k.unrefine c)
    (hl : 0 < g.lvl c) (h1 : ∀ x, ¬ k.refine x) (h2 : ∀ x, ¬ k.dontUnrefine x)
    (hr : stopRefining g dflt maxTag sorted s = .ok res) (j : Fin n)
    (hn : ∀ b, exist (s j).owner b = true → ∀ o ∈ hoodOf g, Meets g (g.parent c) o b → g.lvl b ≤ g.lvl c) :
    exist (res j).1.owner (g.parent c) = true ∧
      ∀ x ∈ g.children (g.parent c), exist (s j).owner x = true ∧ exist (res j).1.owner x = false := by
  obtain ⟨w, hi, hst, h3, h4, h5, hq⟩ := h.stopped hw hr j
  rw [hi.owner] at hn ⊢
  rw [h4]
  have hce := hst.unrefineOwn c hc hl
  have hv := hi.tiled.valid c hce
  obtain ⟨i, u, hu, hj⟩ : ∃ j, ∃ x ∈ g.children (g.parent c), x ∈ (s j).req.toUnrefine := by
    rcases hst.unrefine c hc hl with h | ⟨x, -, h | h⟩ | ⟨b, -, -, -, h⟩
    · exact h
    · exact absurd h (h1 x)
    · exact absurd h (h2 x)
    · exact absurd h (h1 b)
  have hpv := parent_valid hw hv
  have hpl := lvl_parent_lt hw hv hl
  obtain ⟨uv, ul, up⟩ := (children_spec hw hpv hpl).1 hu
  have hkids := ((hq i).unrefine u hj).2.2
  have hR : ∀ x, ¬ Refines g w s x := by
    intro x hx
    rw [hst.refines_iff hw hi.tiled hq] at hx
    induction hx with
    | base e => exact h1 _ e
    | step _ _ _ _ _ ih => exact ih
  have hlc : g.lvl c = g.lvl (g.parent c) + 1 := by
    rw [lvl_parent hw hv]; omega
  have hU : Unrefines g w s u := by
    refine ⟨⟨i, hj⟩, fun x hx => ⟨hR x, fun j' hj' => ?_⟩, fun b hb hnb => ⟨?_, fun _ => hR b⟩⟩
    · rcases hst.dontUnrefine' j' x hj' with e | e
      · exact h2 _ e
      · exact h1 _ e
    · rw [up] at hnb
      rw [ul, ← hlc]
      rcases (near_iff hw).1 hnb with e | ⟨o, ho, hm⟩
      · obtain ⟨p, e1, e2⟩ := (meets_zero_iff hw hpv).1 e
        obtain ⟨x, hx, hxm⟩ := exists_child_mem hw hpv hpl e1
        rw [up] at hkids
        have := hi.tiled.unique p x b (hkids x hx) hb hxm e2
        subst this
        have := ((children_spec hw hpv hpl).1 hx).2.1
        omega
      · exact hn b hb o ho hm
  refine ⟨(h5 _).2 (Or.inr (Or.inr ⟨u, hU, up.symm⟩)), fun x hx => ⟨?_, ?_⟩⟩
  · rw [up] at hkids; exact hkids x hx
  · unfold exist
    rw [newOwner_gone hw hi.tiled h3 (Or.inr ⟨u, hU, by rw [up]; exact hx⟩)]; rfl

/-- Which cells are unrefined if there are no requests not to refine. -/
theorem Recorded.unrefined_cells (hw : g.WF) (h : Recorded g k s) (hk : ∀ x, ¬ k.dontRefine x)
    (hr : stopRefining g dflt maxTag sorted s = .ok res) (j : Fin n) {c : Nat}
    (hc : exist (s j).owner c = true) :
    Coarser g (exist (res j).1.owner) c ↔
      0 < g.lvl c ∧ (∃ u ∈ g.children (g.parent c), k.unrefine u) ∧
      (∀ x ∈ g.children (g.parent c), exist (s j).owner x = true ∧ ¬ k.refine x ∧ ¬ k.dontUnrefine x ∧
        ¬ Forced g (exist (s j).owner) k x) ∧
      ∀ b, exist (s j).owner b = true → ∀ o ∈ hoodOf g, Meets g (g.parent c) o b →
        g.lvl b ≤ g.lvl c ∧ (g.lvl b = g.lvl c → ¬ Forced g (exist (s j).owner) k b) := by
  obtain ⟨w, hi, hst, h3, h4, h5, hq⟩ := h.stopped hw hr j
  rw [hi.owner] at hc ⊢
  rw [h4, h3.coarser_iff hw hi.tiled h5 hc]
  have hR : ∀ x, Refines g w s x ↔ Forced g (exist w) k x := fun x => hst.refines_iff hw hi.tiled hq
  have hv := hi.tiled.valid c hc
  constructor
  · rintro ⟨u, hu, hcu⟩
    obtain ⟨e1, e2, -⟩ := h3.parent hw hi.tiled hu
    obtain ⟨-, hl, hp⟩ := (children_spec hw e1 e2).1 hcu
    obtain ⟨hue, hul, hkids⟩ := h3.unE u hu
    have huv := hi.tiled.valid u hue
    have hlu : g.lvl u = g.lvl c := by rw [hl, lvl_parent hw huv]; omega
    obtain ⟨⟨i, hj⟩, hu2, hu3⟩ := hu
    rw [hp]
    refine ⟨by omega, ⟨u, mem_children_parent hw huv hul, hst.unrefine' i u hj⟩, ?_, ?_⟩
    · intro x hx
      have hxE := (hkids x hx).1
      obtain ⟨xv, xl, xp⟩ := (children_spec hw e1 e2).1 hx
      have hF : ¬ Forced g (exist w) k x := fun hf => (hu2 x hx).1 ((hR x).2 hf)
      refine ⟨hxE, fun hxr => ?_, fun hxr => ?_, hF⟩
      · by_cases hm : g.lvl x < g.maxLvl
        · exact hF (.base hxr hm (Veto.none hk))
        · obtain ⟨i', y, hy, hy'⟩ := hst.refineTop x hxr (by have := lvl_le xv; omega) (by omega)
          rw [xp] at hy
          exact (hu2 y hy).2 i' hy'
      · obtain ⟨i', y, hy, hy'⟩ := hst.dontUnrefine x hxr (by omega)
        rw [xp] at hy
        exact (hu2 y hy).2 i' hy'
    · intro b hb o ho hm
      obtain ⟨f1, f2⟩ := hu3 b hb ((near_iff hw).2 (Or.inr ⟨o, ho, hm⟩))
      exact ⟨by omega, fun e hf => f2 (by omega) ((hR b).2 hf)⟩
  · rintro ⟨hl, ⟨v, hv1, hv2⟩, hf, hn⟩
    have hpv := parent_valid hw hv
    have hpl := lvl_parent_lt hw hv hl
    have hlc : g.lvl c = g.lvl (g.parent c) + 1 := by
      rw [lvl_parent hw hv]; omega
    obtain ⟨vv, vl, vp⟩ := (children_spec hw hpv hpl).1 hv1
    have near : ∀ b, exist w b = true → Near g (g.parent c) b →
        b ∈ g.children (g.parent c) ∨ ∃ o ∈ hoodOf g, Meets g (g.parent c) o b := by
      intro b hb hnb
      rcases (near_iff hw).1 hnb with e | e
      · obtain ⟨p, e1, e2⟩ := (meets_zero_iff hw hpv).1 e
        obtain ⟨x, hx, hxm⟩ := exists_child_mem hw hpv hpl e1
        have := hi.tiled.unique p x b (hf x hx).1 hb hxm e2
        subst this
        exact Or.inl hx
      · exact Or.inr e
    obtain ⟨i, u, hu, hj⟩ : ∃ j, ∃ x ∈ g.children (g.parent c), x ∈ (s j).req.toUnrefine := by
      have := hst.unrefine v hv2 (by omega)
      rw [vp] at this
      rcases this with h | ⟨x, hx, h | h⟩ | ⟨b, f1, f2, f3, f4⟩
      · exact h
      · exact absurd h (hf x hx).2.1
      · exact absurd h (hf x hx).2.2.1
      · rcases near b (hst.refineOwn b f4) f1 with e | ⟨o, ho, hm⟩
        · exact absurd f4 (hf b e).2.1
        · obtain ⟨g1, g2⟩ := hn b (hst.refineOwn b f4) o ho hm
          exact absurd (.base f4 (by omega) (Veto.none hk)) (g2 (by omega))
    obtain ⟨uv, ul, up⟩ := (children_spec hw hpv hpl).1 hu
    refine ⟨u, ⟨⟨i, hj⟩, fun x hx => ?_, fun b hb hnb => ?_⟩, ?_⟩
    · rw [up] at hx
      refine ⟨fun h => (hf x hx).2.2.2 ((hR x).1 h), fun j' hj' => ?_⟩
      rcases hst.dontUnrefine' j' x hj' with e | e
      · exact (hf x hx).2.2.1 e
      · exact (hf x hx).2.1 e
    · rw [up] at hnb
      rw [hR]
      rcases near b hb hnb with e | ⟨o, ho, hm⟩
      · exact ⟨by have := ((children_spec hw hpv hpl).1 e).2.1; omega, fun _ => (hf b e).2.2.2⟩
      · obtain ⟨g1, g2⟩ := hn b hb o ho hm
        exact ⟨by omega, fun e => g2 (by omega)⟩
    · rw [up]
      exact mem_children_parent hw hv hl

end Dccrg
