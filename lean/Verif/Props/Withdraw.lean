import Verif.Props.Refine
import Verif.Halo
/-!
# Withdrawn requests (C57)

Requests to unrefine that are withdrawn by a later request to refine on the same process.
-/
namespace Dccrg
open Cfg
variable {n : Nat} {D W : Type} {g : Cfg} {w : Owner n} {s s' t : Sys n D W} {dflt : D} {maxTag : Nat}
  {k : Calls} {sorted : Bool} {res : Fin n → Proc n D W × List Nat}

section
variable {E has : Nat → Bool} {r r' : Req} {c : Nat} {b : Bool}

theorem mem_without_left {l ks : List Nat} {x : Nat} (h : x ∈ without l ks) : x ∈ l := (List.mem_filter.1 h).1

theorem un_dontUnrefine (h : dontUnrefine g E r c = .ok (b, r')) {x : Nat} (hx : x ∈ r'.toUnrefine) :
    x ∈ r.toUnrefine := by
  unfold dontUnrefine at h
  split at h
  · injection h with h; injection h with _ h; subst h; exact hx
  · split at h
    · cases h
    · split at h
      · injection h with h; injection h with _ h; subst h; exact hx
      · split at h
        · injection h with h; injection h with _ h; subst h; exact hx
        · injection h with h; injection h with _ h; subst h; exact mem_without_left hx

theorem un_dontRefine (h : dontRefine g E r c = .ok (b, r')) {x : Nat} (hx : x ∈ r'.toUnrefine) :
    x ∈ r.toUnrefine := by
  unfold dontRefine at h
  split at h
  · injection h with h; injection h with _ h; subst h; exact hx
  · split at h
    · injection h with h; injection h with _ h; subst h; exact hx
    · injection h with h; injection h with _ h; subst h; exact hx

theorem un_refine (h : refineCompletely g E has r c = .ok (b, r')) {x : Nat} (hx : x ∈ r'.toUnrefine) :
    x ∈ r.toUnrefine := by
  unfold refineCompletely at h
  split at h
  · injection h with h; injection h with _ h; subst h; exact hx
  · split at h
    · obtain ⟨⟨b', r''⟩, h1, h2⟩ := Out.bind_inv h
      injection h2 with h2; injection h2 with _ h2; subst h2
      exact un_dontUnrefine h1 hx
    · split at h
      · injection h with h; injection h with _ h; subst h; exact hx
      · split at h
        · cases h
        · split at h
          · injection h with h; injection h with _ h; subst h; exact hx
          · injection h with h; injection h with _ h; subst h; exact mem_without_left hx

theorem un_unrefine (h : unrefineCompletely g E has r c = .ok (b, r')) {x : Nat} (hx : x ∈ r'.toUnrefine) :
    x ∈ r.toUnrefine ∨ x = c := by
  unfold unrefineCompletely at h
  split at h
  · injection h with h; injection h with _ h; subst h; exact Or.inl hx
  · split at h
    · cases h
    · split at h
      · injection h with h; injection h with _ h; subst h; exact Or.inl hx
      · split at h
        · injection h with h; injection h with _ h; subst h; exact Or.inl hx
        · simp only at h
          split at h
          · cases h
          · cases h
          · cases h
          · split at h
            · injection h with h; injection h with _ h; subst h; exact Or.inl hx
            · split at h
              · injection h with h; injection h with _ h; subst h; exact Or.inl hx
              · injection h with h; injection h with _ h; subst h
                rcases List.mem_cons.1 hx with h | h
                · exact Or.inr h
                · exact Or.inl h
end

theorem un_ask {i : Fin n} {o : Out (Bool × Req)} (h : s.ask i o = .ok s') {j : Fin n} {x : Nat} {P : Prop}
    (ho : ∀ b r, o = .ok (b, r) → x ∈ r.toUnrefine → x ∈ (s i).req.toUnrefine ∨ i = j ∧ P)
    (hx : x ∈ (s' j).req.toUnrefine) : x ∈ (s j).req.toUnrefine ∨ i = j ∧ P := by
  unfold Sys.ask at h
  obtain ⟨⟨b, r⟩, h1, h2⟩ := Out.bind_inv h
  injection h2 with h2; subst h2
  by_cases e : j = i
  · subst e
    rw [Sys.set_same] at hx
    exact ho b r h1 hx
  · rw [Sys.set_other _ e] at hx
    exact Or.inl hx

/-- Only `unrefine_completely` adds a request to unrefine. -/
theorem step_unrefines (op : Op n D W) (hq : op.Quiet) (h : step g dflt maxTag s op = .ok s') {j : Fin n}
    {x : Nat} (hx : x ∈ (s' j).req.toUnrefine) : x ∈ (s j).req.toUnrefine ∨ op = .unrefine j x := by
  by_cases h1 : ∀ i c, op ≠ .refine i c
  · by_cases h2 : ∀ i c, op ≠ .unrefine i c
    · by_cases h3 : ∀ i c, op ≠ .dontRefine i c
      · by_cases h4 : ∀ i c, op ≠ .dontUnrefine i c
        · rw [step_req op hq h h1 h2 h3 h4] at hx
          exact Or.inl hx
        · cases op with
          | dontUnrefine i c =>
            rcases un_ask (P := False) h (j := j) (fun b r h hx => Or.inl (un_dontUnrefine h hx)) hx with h | h
            · exact Or.inl h
            · exact h.2.elim
          | _ => exact absurd (fun i c => (by simp)) h4
      · cases op with
        | dontRefine i c =>
          rcases un_ask (P := False) h (j := j) (fun b r h hx => Or.inl (un_dontRefine h hx)) hx with h | h
          · exact Or.inl h
          · exact h.2.elim
        | _ => exact absurd (fun i c => (by simp)) h3
    · cases op with
      | unrefine i c =>
        by_cases e : i = j
        · rcases un_ask (P := x = c) h (j := j) (fun b r h hx => (un_unrefine h hx).imp id (fun h => ⟨e, h⟩)) hx
            with h | h
          · exact Or.inl h
          · right; rw [h.1, h.2]
        · unfold Dccrg.step at h
          left
          obtain ⟨⟨b, r⟩, -, h2⟩ := Out.bind_inv h
          injection h2 with h2; subst h2
          rw [Sys.set_other _ (fun h => e h.symm)] at hx
          exact hx
      | _ => exact absurd (fun i c => (by simp)) h2
  · cases op with
    | refine i c =>
      rcases un_ask (P := False) h (j := j) (fun b r h hx => Or.inl (un_refine h hx)) hx with h | h
      · exact Or.inl h
      · exact h.2.elim
    | _ => exact absurd (fun i c => (by simp)) h1

theorem runs_unrefines {P : Op n D W → Prop} (hP : ∀ op, P op → op.Quiet) (h : Runs g dflt maxTag P s s')
    {j : Fin n} {x : Nat} (hx : x ∈ (s' j).req.toUnrefine) :
    x ∈ (s j).req.toUnrefine ∨ P (.unrefine j x) := by
  induction h with
  | refl => exact Or.inl hx
  | step op _ hp _ h1 ih =>
    rcases step_unrefines op (hP op hp) h1 hx with h | h
    · exact ih h
    · right; rw [← h]; exact hp

/-- C57: a request to refine withdraws earlier requests of the same process to unrefine the siblings of the
cell, of its neighbors that are not smaller, and of cells not smaller than it whose neighbor it is, even if
the request to refine is later overridden. -/
theorem C57_refine_withdraws (hw : g.WF) (h : History g dflt maxTag k s) (hk : ∀ u, ¬ k.unrefine u)
    {i : Fin n} {f c b : Nat} {s1 s2 : Sys n D W}
    (h1 : Runs g dflt maxTag (fun op => op.Quiet ∧ ∀ j x, op = .unrefine j x → g.parent x = f → j = i) s s1)
    (hc : SaysRefine g (s1 i) c) (h2 : step g dflt maxTag s1 (.refine i c) = .ok s2) (hl : g.lvl c < g.maxLvl)
    (hb : exist (s1 i).owner b = true) (hb0 : 0 < g.lvl b) (hf : f = g.parent b)
    (hbc : b = c ∨ g.lvl b ≤ g.lvl c ∧ (Linked g (hoodOf g) c b ∨ Linked g (hoodOf g) b c))
    (h3 : Runs g dflt maxTag (fun op => op.Quiet ∧ ∀ j x, op = .unrefine j x → g.parent x ≠ f) s2 t)
    (hr : stopRefining g dflt maxTag sorted t = .ok res) (j : Fin n) {x : Nat} (hx : g.parent x = f)
    (hxe : exist (t j).owner x = true) : ¬ Coarser g (exist (res j).1.owner) x := by
  have hn : 0 < n := by have := i.2; omega
  -- requests before the call
  have e1 : ∀ m u, g.parent u = f → u ∈ (s1 m).req.toUnrefine → m = i := by
    intro m u hu hm
    obtain ⟨w, -, hst⟩ := h.stored hw hn
    rcases runs_unrefines (fun op h => h.1) h1 hm with h | h
    · exact absurd (hst.unrefine' m u h) (hk u)
    · exact h.2 m u rfl hu
  have hre1 := h1.reachable h.reachable
  obtain ⟨w1, hi1⟩ := hre1.inv hw hn
  have ht1 := hi1.sys.tiled
  have hb1 := hi1.sys.balanced
  have hre2 : Reachable g dflt maxTag s2 := .step (.refine i c) hre1 trivial h2
  have e2 : ∀ m u, g.parent u = f → exist w1 u = true → 0 < g.lvl u → u ∉ (s2 m).req.toUnrefine := by
    intro m u hu hue hul hm
    rcases step_unrefines (.refine i c) trivial h2 hm with h4 | h4
    · have := e1 m u hu h4
      subst this
      obtain ⟨r, hr⟩ := hc
      have h2' : s1.ask m (refineCompletely g (exist (s1 m).owner) (fun c => ((s1 m).data c).isSome) (s1 m).req c)
          = .ok s2 := h2
      unfold Sys.ask at h2'
      rw [hr] at h2'
      injection h2' with h2'
      subst h2'
      rw [Sys.set_same] at hm
      rw [hi1.sys.owner] at hr hb
      unfold refineCompletely at hr
      have hmem : u ∈ g.siblings b := by
        rw [siblings_eq (by omega)]
        have hv := ht1.valid b hb
        have huv := ht1.valid u hue
        refine (children_spec hw (parent_valid hw hv) (lvl_parent_lt hw hv hb0)).2 ⟨huv, ?_, by rw [hu, hf]⟩
        have a1 := lvl_parent hw huv
        have a2 := lvl_parent hw hv
        rw [hu, hf] at a1
        omega
      have hu0 := valid_pos (ht1.valid u hue)
      split at hr
      · cases hr
      · rename_i hcc
        have hce : exist w1 c = true := by
          cases e : exist w1 c with
          | true => rfl
          | false => exact absurd (Or.inr (Or.inl e)) hcc
        split at hr
        · omega
        · split at hr
          · cases hr
          · split at hr
            · cases hr
            · split at hr
              · cases hr
              · injection hr with hr; injection hr with _ hr; subst hr
                have hm' : u ∈ without (s1 m).req.toUnrefine (cancelled g (exist w1) c) := hm
                refine (mem_without.1 hm').2 ?_
                unfold cancelled
                refine List.mem_filter.2 ⟨?_, by simp; omega⟩
                rcases hbc with e | ⟨a1, a2⟩
                · subst e; exact List.mem_append_left _ hmem
                · refine List.mem_append_right _ (List.mem_flatMap.2 ⟨b, List.mem_append.2 ?_, ?_⟩)
                  · rcases a2 with a2 | a2
                    · left; exact (mem_nbrsOf hw ht1 hb1 hce).2 ⟨hb, a2⟩
                    · right; exact (mem_nbrsTo hw ht1 hb1 hce).2 ⟨hb, a2⟩
                  · rw [if_pos a1]; exact hmem
    · cases h4
  have e3 : ∀ m u, g.parent u = f → exist w1 u = true → 0 < g.lvl u → u ∉ (t m).req.toUnrefine := by
    intro m u hu a1 a2 hm
    rcases runs_unrefines (fun op h => h.1) h3 hm with h | h
    · exact e2 m u hu a1 a2 h
    · exact h.2 m u rfl hu
  have hret := h3.reachable hre2
  obtain ⟨wt, hi⟩ := hret.inv hw hn
  have hww : wt = w1 := by
    have a1 := (step_quiet (.refine i c) trivial h2 i).1
    have a2 : (t i).owner = (s2 i).owner := by
      have hq : Runs g dflt maxTag Op.Quiet s2 t := by
        clear hr hxe e3 hi hret
        induction h3 with
        | refl => exact .refl _
        | step op _ hp ho h1 ih => exact .step op ih hp.1 ho h1
      exact (hq.quiet i).1
    rw [← hi.sys.owner i, a2, a1, hi1.sys.owner]
  have h4 := (stopRefining_sound hw hi.sys.core hi.req hr).1
  have h5 := newOwner_exist hw hi.sys.tiled h4.plan
  rw [(h4.exec j).owner]
  rw [hi.sys.owner] at hxe
  rw [h4.plan.coarser_iff hw hi.sys.tiled h5 hxe]
  rintro ⟨u, hu, hxu⟩
  obtain ⟨a1, a2, -⟩ := h4.plan.parent hw hi.sys.tiled hu
  have hp := ((children_spec hw a1 a2).1 hxu).2.2
  obtain ⟨m, hm⟩ := hu.1
  obtain ⟨b1, b2, -⟩ := h4.plan.unE u hu
  exact e3 m u (hp.symm.trans hx) (hww ▸ b1) (by omega) hm

/-- Process 0 requests to unrefine the children of cell 1, then to refine one of them, then not to. -/
example : ∃ (k : Calls) (s s1 s2 t : Sys 2 Nat Nat) (res : Fin 2 → Proc 2 Nat Nat × List Nat),
    tinyG.WF ∧ History tinyG 0 146 k s ∧ (∀ u, ¬ k.unrefine u) ∧
    Runs tinyG 0 146 (fun op => op.Quiet ∧ ∀ j x, op = .unrefine j x → tinyG.parent x = 1 → j = 0) s s1 ∧
    SaysRefine tinyG (s1 0) 4 ∧ step tinyG 0 146 s1 (.refine 0 4) = .ok s2 ∧ tinyG.lvl 4 < tinyG.maxLvl ∧
    exist (s1 0).owner 4 = true ∧ 0 < tinyG.lvl 4 ∧ 1 = tinyG.parent 4 ∧
    Runs tinyG 0 146 (fun op => op.Quiet ∧ ∀ j x, op = .unrefine j x → tinyG.parent x ≠ 1) s2 t ∧
    stopRefining tinyG 0 146 true t = .ok res ∧ tinyG.parent 3 = 1 ∧ ¬ Coarser tinyG (exist (res 0).1.owner) 3 := by
  obtain ⟨k, s, h1, h2, h3, h4⟩ := tiny_family
  obtain ⟨s1, e1, e1'⟩ := tiny_step h1.reachable (.unrefine 0 3) trivial trivial
  obtain ⟨s2, e2, e2'⟩ := tiny_step e1' (.refine 0 4) trivial trivial
  obtain ⟨t, e3, e3'⟩ := tiny_step e2' (.dontRefine 0 4) trivial trivial
  obtain ⟨u, e4, -⟩ := tiny_step e3' (.stop true) trivial trivial
  obtain ⟨res, e5, -⟩ := Out.bind_inv e4
  have r1 : Runs tinyG 0 146 (fun op => op.Quiet ∧ ∀ j x, op = .unrefine j x → tinyG.parent x = 1 → j = 0) s s1 :=
    .step (.unrefine 0 3) (.refl s) ⟨trivial, fun j x h _ => by cases h; rfl⟩ trivial e1
  have r2 : Runs tinyG 0 146 (fun op => op.Quiet ∧ ∀ j x, op = .unrefine j x → tinyG.parent x ≠ 1) s2 t :=
    .step (.dontRefine 0 4) (.refl s2) ⟨trivial, fun j x h => by cases h⟩ trivial e3
  have o1 : ∀ i, (s1 i).owner = (s i).owner := fun i => (step_quiet (.unrefine 0 3) trivial e1 i).1
  have o2 : ∀ i, (s2 i).owner = (s1 i).owner := fun i => (step_quiet (.refine 0 4) trivial e2 i).1
  have o3 : ∀ i, (t i).owner = (s2 i).owner := fun i => (step_quiet (.dontRefine 0 4) trivial e3 i).1
  have hc4 : exist (s1 0).owner 4 = true := by rw [o1]; exact exist_of (h3 0 4 (by decide))
  have hS : SaysRefine tinyG (s1 0) 4 := by
    have hh := History.call (.unrefine 0 3) h1 trivial e1
    obtain ⟨w, hi, hst⟩ := hh.stored tiny_wf (by omega)
    have hn : ∀ i, (s1 i).req.notRefine = [] := by
      intro i
      apply List.eq_nil_iff_forall_not_mem.2
      intro c hc
      rcases hst.dontRefine' i c hc with h | ⟨j, h, -⟩
      · exact (h2 c).2.2.1 h
      · cases h
    have hw4 : w 4 = some 0 := by rw [← hi.sys.owner 0, o1]; exact h3 0 4 (by decide)
    have := refineCompletely_ok (r := (s1 0).req) tiny_wf hi.sys.tiled hi.sys.balanced (hi.sys.placed 0) hw4
      (by decide) (by rw [Refused, hn]; rintro (h | ⟨b, -, -, -, h⟩) <;> cases h)
    exact ⟨_, by rw [hi.sys.owner]; exact this⟩
  have hx : exist (t 0).owner 3 = true := by rw [o3, o2, o1]; exact exist_of (h3 0 3 (by decide))
  exact ⟨k, s, s1, s2, t, res, tiny_wf, h1, fun u => (h2 u).2.1, r1, hS, e2, by decide, hc4, by decide, by decide,
    r2, e5, by decide, C57_refine_withdraws (b := 4) tiny_wf h1 (fun u => (h2 u).2.1) r1 hS e2 (by decide) hc4
      (by decide) (by decide) (Or.inl rfl) r2 e5 0 (by decide) hx⟩

end Dccrg
