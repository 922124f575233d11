import Verif.Props.LoadCells
import Verif.Props.Between
import Verif.Props.Requests
/-!
# C113: every grid can be turned into every other

Properties of sequences of calls. `run` is defined in Verif/LoadCells.lean and `Op` in Verif/Hist.lean.
-/
namespace Dccrg
open Cfg
variable {n : Nat} {D W : Type} {g : Cfg} {dflt : D} {maxTag : Nat} {s : Sys n D W} {k : Calls} {X : Nat → Bool}

/-- Operations that are used for adapting the grid. -/
def Op.Adapts : Op n D W → Prop
  | .refine _ _ => True
  | .unrefine _ _ => True
  | .clearRefined _ => True
  | .stop _ => True
  | _ => False

/-- Requests for unrefinement of whole families are accepted. -/
theorem run_unrefine (hw : g.WF) {w : Owner n} {s : Sys n D W} {k : Calls}
    (h : History g dflt maxTag k s) (h1 : ∀ c, ¬ k.refine c) (h2 : ∀ c, ¬ k.dontRefine c)
    (h3 : ∀ c, ¬ k.dontUnrefine c) (ho : ∀ j, (s j).owner = w) (L : List (Fin n × Nat))
    (hL : ∀ x ∈ L, w x.2 = some x.1 ∧ ∀ y ∈ g.children (g.parent x.2), exist w y = true) :
    ∃ s' k', run g dflt maxTag s (L.map fun x => Op.unrefine x.1 x.2) = .ok s' ∧ History g dflt maxTag k' s' ∧
      (∀ c, ¬ k'.refine c) ∧ (∀ c, ¬ k'.dontRefine c) ∧ (∀ c, ¬ k'.dontUnrefine c) ∧ (∀ c, k.unrefine c → k'.unrefine c) ∧
      (∀ x ∈ L, k'.unrefine x.2) ∧ ∀ j, (s' j).owner = w := by
  induction L generalizing s k with
  | nil => exact ⟨s, k, rfl, h, h1, h2, h3, fun _ h => h, nofun, ho⟩
  | cons x L ih =>
    obtain ⟨i, c⟩ := x
    obtain ⟨e1, e2⟩ := hL _ List.mem_cons_self
    simp only [] at e1 e2
    obtain ⟨w', hi, hst⟩ := h.stored hw (by have := i.2; omega)
    have : w' = w := by rw [← hi.sys.owner i, ho]
    subst this
    obtain ⟨b, r, f1, f2, -⟩ := unrefineCompletely_spec (r := (s i).req) hw hi.sys.tiled hi.sys.balanced
      (hi.sys.placed i) e1
    cases b with
    | false =>
      obtain ⟨-, -, y, hy, hy'⟩ := f2 rfl
      rw [e2 y hy] at hy'
      cases hy'
    | true =>
      have hsays : SaysUnrefine g (s i) c := ⟨r, by rw [ho i]; exact f1⟩
      have e3 : step g dflt maxTag s (.unrefine i c) = .ok (s.set i { s i with req := r }) := by
        show s.ask i (unrefineCompletely g (exist (s i).owner) _ (s i).req c) = _
        rw [ho i]
        unfold Sys.ask
        rw [f1]; rfl
      obtain ⟨s', k', a1, a2, a3, a4, a5, a6, a7, a8⟩ := ih (s := s.set i { s i with req := r })
        (k := k.add g s (.unrefine i c)) (.call _ h trivial e3)
        (by rintro x (h | ⟨j, h, -⟩)
            · exact h1 _ h
            · cases h)
        (by rintro x (h | ⟨j, h, -⟩)
            · exact h2 _ h
            · cases h)
        (by rintro x (h | ⟨j, h, -⟩)
            · exact h3 _ h
            · cases h)
        (fun j => by rw [(step_quiet (.unrefine i c) trivial e3 j).1, ho])
        (fun x hx => hL x (List.mem_cons_of_mem _ hx))
      refine ⟨s', k', ?_, a2, a3, a4, a5, fun c hc => a6 c (Or.inl hc), ?_, a8⟩
      · rw [List.map_cons, run]
        simp only []
        rw [e3]
        exact a1
      · intro x hx
        rcases List.mem_cons.1 hx with h | h
        · subst h
          exact a6 _ (Or.inr ⟨i, rfl, hsays⟩)
        · exact a7 x h

/-- Cells of the highest refinement level can be unrefined. -/
theorem lower (hw : g.WF) (hn : 0 < n) (hm : g.last ≤ maxTag) (h : History g dflt maxTag k s)
    (hk : k.Only fun _ => False) {l : Nat} (hl : ∀ j c, exist (s j).owner c = true → g.lvl c ≤ l + 1) :
    ∃ (ops : List (Op n D W)) (s' : Sys n D W) (k' : Calls), (∀ op ∈ ops, op.Adapts) ∧ run g dflt maxTag s ops = .ok s' ∧
      History g dflt maxTag k' s' ∧ (k'.Only fun _ => False) ∧ ∀ j c, exist (s' j).owner c = true → g.lvl c ≤ l := by
  obtain ⟨w, hi, -⟩ := h.stored hw hn
  have ho := hi.sys.owner
  have ht := hi.sys.tiled
  have hle : ∀ c, exist w c = true → g.lvl c ≤ l + 1 := fun c hc => hl ⟨0, hn⟩ c (by rw [ho]; exact hc)
  let L : List (Fin n × Nat) := (List.finRange n).flatMap fun i =>
    ((List.range (g.last + 1)).filter fun c => decide (w c = some i ∧ g.lvl c = l + 1)).map fun c => (i, c)
  have hL : ∀ i c, (i, c) ∈ L ↔ w c = some i ∧ g.lvl c = l + 1 := by
    intro i c
    simp only [L, List.mem_flatMap, List.mem_map, List.mem_finRange, true_and, List.mem_filter, List.mem_range,
      decide_eq_true_eq]
    constructor
    · rintro ⟨j, x, h1, h2⟩; injection h2 with h2 h3; subst h2 h3; exact h1.2
    · intro h
      have := (ht.valid c (exist_of h.1)).2
      exact ⟨i, c, ⟨by omega, h⟩, rfl⟩
  have hsib : ∀ c, exist w c = true → g.lvl c = l + 1 → ∀ y ∈ g.children (g.parent c), exist w y = true := by
    intro c hc hcl y hy
    have hv := ht.valid c hc
    have hpv := parent_valid hw hv
    have hlp := lvl_parent hw hv
    have hmx := lvl_le hv
    obtain ⟨d1, d2, d3⟩ := (children_spec hw hpv (by omega)).1 hy
    obtain ⟨z, z1, z2⟩ := ht.cover _ (idx_inGrid hw d1)
    have hzl := hle z z1
    by_cases e : g.lvl z = l + 1
    · rw [eq_of_mem_lvl hw d1 (ht.valid z z1) (by omega) (mem_idx y) z2]; exact z1
    · exfalso
      have hzv := ht.valid z z1
      have a1 : g.Mem (g.idx y) (g.parent c) := mem_of_mem_children hw hpv (by omega) hy (mem_idx y)
      have a2 : g.Mem (g.idx c) z := nested hw hzv hpv (by omega) z2 a1 (mem_parent hw hv (mem_idx c))
      have := ht.unique _ _ _ hc z1 (mem_idx c) a2
      subst this
      omega
  obtain ⟨s1, k1, a1, a2, a3, a4, a5, -, a6, a7⟩ := run_unrefine hw h (fun c hc => (hk.1 c).1 hc) hk.2.2.1 hk.2.2.2 ho L (by
    rintro ⟨i, c⟩ hx
    obtain ⟨b1, b2⟩ := (hL i c).1 hx
    exact ⟨b1, hsib c (exist_of b1) b2⟩)
  obtain ⟨w1, hi1, -⟩ := a2.stored hw hn
  obtain ⟨s2, a8⟩ := step_ok hw hn dflt hi1 hm (.stop false) trivial trivial
  obtain ⟨res, a9, a10⟩ := Out.bind_inv (show (stopRefining g dflt maxTag false s1).bind _ = .ok s2 from a8)
  injection a10 with a10
  have hk2 := History.stop false a2 a8
  refine ⟨(L.map fun x => Op.unrefine x.1 x.2) ++ [.stop false], s2, _, ?_, ?_, hk2, ?_, ?_⟩
  · intro op hop
    rcases List.mem_append.1 hop with h | h
    · obtain ⟨x, -, rfl⟩ := List.mem_map.1 h; trivial
    · rw [List.mem_singleton.1 h]; trivial
  · rw [run_append, a1]
    show run g dflt maxTag s1 [_] = _
    rw [run, a8]; rfl
  · exact ⟨fun _ => Iff.rfl, fun _ h => h, fun c h => by obtain ⟨i, hv⟩ := h; exact Veto.none a4 hv, fun _ h => h⟩
  · intro j x hx
    apply Nat.le_of_not_lt
    intro hxl
    obtain ⟨w2, hi2, -⟩ := hk2.stored hw hn
    have hxv : g.Valid x := hi2.sys.tiled.valid x (by rw [← hi2.sys.owner j]; exact hx)
    obtain ⟨y, y1, y2⟩ := ht.cover _ (idx_inGrid hw hxv)
    have y1' : exist (s1 j).owner y = true := by rw [a7]; exact y1
    have hyl := hle y y1
    rw [← a10] at hx
    have hnf : ¬ Finer g (exist (res j).1.owner) y := by
      intro hf
      rw [C24_refined_cells hw a2 a9 j y1'] at hf
      have : ∀ c, Forced g (exist (s1 j).owner) k1 c → False := by
        intro c hc
        induction hc with
        | base e => exact a3 _ e
        | step _ _ _ _ _ ih => exact ih
      exact this _ hf
    by_cases e : g.lvl y < g.lvl x
    · exact hnf ⟨x, _, hx, mem_idx x, y2, e⟩
    · have : x = y := eq_of_mem_lvl hw hxv (ht.valid y y1) (by omega) (mem_idx x) y2
      subst this
      obtain ⟨i, hwi⟩ := Option.isSome_iff_exists.1 y1
      have hu : k1.unrefine x := a6 (i, x) ((hL i x).2 ⟨hwi, by omega⟩)
      obtain ⟨-, b2⟩ := C56_requested_unrefinement hw a2 hu (by omega) a3 a5 a9 j (fun b hb o _ _ => by
        rw [a7] at hb
        have := hle b hb
        show g.lvl b ≤ g.lvl x
        omega)
      rw [(b2 x (mem_children_parent hw hxv (by omega))).2] at hx
      cases hx

/-- All cells can be unrefined. -/
theorem lowest (hw : g.WF) (hn : 0 < n) (hm : g.last ≤ maxTag) (l : Nat) (h : History g dflt maxTag k s)
    (hk : k.Only fun _ => False) (hl : ∀ j c, exist (s j).owner c = true → g.lvl c ≤ l) :
    ∃ (ops : List (Op n D W)) (s' : Sys n D W) (k' : Calls), (∀ op ∈ ops, op.Adapts) ∧ run g dflt maxTag s ops = .ok s' ∧
      History g dflt maxTag k' s' ∧ (k'.Only fun _ => False) ∧ ∀ j c, exist (s' j).owner c = true → g.lvl c = 0 := by
  induction l generalizing s k with
  | zero => exact ⟨[], s, k, nofun, rfl, h, hk, fun j c hc => by have := hl j c hc; omega⟩
  | succ l ih =>
    obtain ⟨o1, s1, k1, a1, a2, a3, a4, a5⟩ := lower hw hn hm h hk hl
    obtain ⟨o2, s2, k2, b1, b2, b3, b4, b5⟩ := ih a3 a4 a5
    refine ⟨o1 ++ o2, s2, k2, ?_, ?_, b3, b4, b5⟩
    · intro op hop
      rcases List.mem_append.1 hop with h | h
      · exact a1 op h
      · exact b1 op h
    · rw [run_append, a2]; exact b2

theorem loadOps_adapts (ord : Fin n → List Nat → List Nat) (s : Sys n D W) (given : Fin n → List Nat) :
    ∀ op ∈ loadOps g ord s given, op.Adapts := by
  intro op hop
  unfold loadOps at hop
  obtain ⟨l, -, h⟩ := List.mem_flatMap.1 hop
  unfold loadLevel at h
  rcases List.mem_append.1 h with h | h
  · obtain ⟨i, -, h⟩ := List.mem_flatMap.1 h
    obtain ⟨c, -, rfl⟩ := List.mem_map.1 h
    trivial
  · rcases List.mem_cons.1 h with rfl | h
    · trivial
    · obtain ⟨c, -, rfl⟩ := List.mem_map.1 h
      trivial

/-- C113 if `dont_refine` has not returned true since the previous load balancing: refining and unrefining cells turns
any grid into every other that has no two neighbors whose refinement levels differ by more than one. -/
theorem C113_any_partial (hw : g.WF) (hn : 0 < n) (hm : g.last ≤ maxTag) (h : History g dflt maxTag k s)
    (hk : ∀ c, ¬ k.dontRefine c) (hX : Tiled g X) (hb : BalancedFor g X (hoodOf g)) :
    ∃ (ops : List (Op n D W)) (s' : Sys n D W), (∀ op ∈ ops, op.Adapts) ∧ run g dflt maxTag s ops = .ok s' ∧
      ∀ j c, exist (s' j).owner c = X c := by
  obtain ⟨w, hi, -⟩ := h.stored hw hn
  obtain ⟨s1, a1⟩ := step_ok hw hn dflt hi hm (.stop false) trivial trivial
  have hk1 := History.stop false h a1
  obtain ⟨w1, hi1, -⟩ := hk1.stored hw hn
  obtain ⟨o2, s2, k2, b1, b2, b3, b4, b5⟩ := lowest hw hn hm g.maxLvl hk1
    ⟨fun _ => Iff.rfl, fun _ h => h, fun c h => by obtain ⟨i, hv⟩ := h; exact Veto.none hk hv, fun _ h => h⟩
    (fun j c hc => lvl_le (hi1.sys.tiled.valid c (by rw [← hi1.sys.owner j]; exact hc)))
  obtain ⟨s3, c1, -, c2⟩ := C43_load_cells hw hn hm b3 b4 b5 hX hb (ord := fun _ l => l) (fun _ _ _ => Iff.rfl)
    (given := fun _ => (List.range (g.last + 1)).filter X) (by
      intro i c _
      rw [List.mem_filter, List.mem_range]
      constructor
      · exact fun h => h.2
      · intro h
        have := (hX.valid c h).2
        exact ⟨by omega, h⟩)
  refine ⟨.stop false :: (o2 ++ loadOps g (fun _ l => l) s2 fun _ => (List.range (g.last + 1)).filter X), s3, ?_, ?_,
    fun j c => (c2 j c).1⟩
  · intro op hop
    rcases List.mem_cons.1 hop with rfl | hop
    · trivial
    · rcases List.mem_append.1 hop with h | h
      · exact b1 op h
      · exact loadOps_adapts _ _ _ op h
  · rw [run, a1]
    show run g dflt maxTag s1 _ = _
    rw [run_append, b2]
    exact c1

/-- C113: after load balancing this can be done in every state of the grid, for all new processes of cells. -/
theorem C113_balanced (hw : g.WF) (hn : 0 < n) (hm : g.last ≤ maxTag) (h : Reachable g dflt maxTag s)
    {z : Fin n → Moves n} (hz : (Op.balance z : Op n D W).Ok s) (hX : Tiled g X) (hb : BalancedFor g X (hoodOf g)) :
    ∃ (ops : List (Op n D W)) (s' : Sys n D W), (∀ op ∈ ops, op.Adapts) ∧ run g dflt maxTag s (.balance z :: ops) = .ok s' ∧
      ∀ j c, exist (s' j).owner c = X c := by
  obtain ⟨k, hk⟩ := h.history
  obtain ⟨w, hi⟩ := h.inv hw hn
  obtain ⟨s1, a1⟩ := step_ok hw hn dflt hi hm (.balance z) hz trivial
  obtain ⟨ops, s', b1, b2, b3⟩ := C113_any_partial hw hn hm (.balance z hk hz a1) (fun _ h => h) hX hb
  exact ⟨ops, s', b1, by rw [run, a1]; exact b2, b3⟩

/-- A grid and cells of another: the demo without refined cells and with cell 1 refined. -/
theorem tiny_other : ∃ (s : Sys 2 Nat Nat) (X : Nat → Bool), History tinyG 0 146 Calls.none s ∧
    (∀ j, exist (s j).owner 1 = true) ∧ Tiled tinyG X ∧ BalancedFor tinyG X (hoodOf tinyG) ∧ X 1 = false ∧ X 3 = true := by
  obtain ⟨s, h1, h2, h3, h4, h5⟩ := tiny_init
  obtain ⟨k, t, t1, t2, t3, t4⟩ := tiny_family
  obtain ⟨w, hi, -⟩ := t1.stored tiny_wf (by omega)
  have ho := hi.sys.owner
  refine ⟨s, exist w, .init h1, ?_, hi.sys.tiled, (balanced_iff tiny_wf hi.sys.tiled).1 hi.sys.balanced, ?_, ?_⟩
  · intro j
    rw [h3.sys.owner, createLevel0_exist (by omega)]
    decide
  · apply Bool.eq_false_iff.2
    intro h
    rw [← ho 0] at h
    have := t4 0 1 h
    revert this
    decide
  · rw [← ho 0]
    exact exist_of (t3 0 3 (by decide))

example : ∃ (s : Sys 2 Nat Nat) (X : Nat → Bool), tinyG.WF ∧ tinyG.last ≤ 146 ∧ History tinyG 0 146 Calls.none s ∧
    (∀ c, ¬ Calls.none.dontRefine c) ∧ Tiled tinyG X ∧ BalancedFor tinyG X (hoodOf tinyG) ∧
    exist (s 0).owner 1 = true ∧ X 1 = false := by
  obtain ⟨s, X, h1, h2, h3, h4, h5, -⟩ := tiny_other
  exact ⟨s, X, tiny_wf, by decide, h1, fun _ h => h, h3, h4, h2 0, h5⟩

/-- The reason: if `dont_refine` has returned true for an existing cell, from the next `stop_refining` on nothing but load balancing makes a grid in which that cell has been refined, see C20. -/
theorem C113_never (hw : g.WF) (h : History g dflt maxTag k s) {c : Nat} (hc : k.dontRefine c) (hl : g.lvl c < g.maxLvl)
    {sorted : Bool} {res : Fin n → Proc n D W × List Nat} {s' : Sys n D W}
    (hr : stopRefining g dflt maxTag sorted s = .ok res) (i : Fin n) (he : exist (s i).owner c = true)
    (hs : Runs g dflt maxTag Op.NotBalance (fun i => (res i).1) s') :
    ¬ Finer g (exist (s' i).owner) c := by
  have hn : 0 < n := by have := i.2; omega
  have hR : Reachable g dflt maxTag (fun i => (res i).1) :=
    .step (.stop sorted) h.reachable trivial (show (stopRefining g dflt maxTag sorted s).bind _ = _ by rw [hr]; rfl)
  obtain ⟨w0, hi0, -⟩ := h.stored hw hn
  have hcv : g.Valid c := hi0.sys.tiled.valid c (by rw [← hi0.sys.owner i]; exact he)
  induction hs with
  | refl => exact (h.recorded hw i).dont_refine hw hc hr i he
  | @step t t' op ht hp ho h1 ih =>
    by_cases hq : op.Quiet
    · rw [(step_quiet op hq h1 i).1]; exact ih
    · cases op with
      | stop sorted' =>
        obtain ⟨res', e1, e2⟩ := Out.bind_inv (show (stopRefining g dflt maxTag sorted' t).bind _ = .ok t' from h1)
        injection e2 with e2
        subst e2
        by_cases hct : exist (t i).owner c = true
        · exact (C20_false hw h hc hl hr ht i).2 sorted' res' e1 hct
        · rintro ⟨z, p, z1, z2, z3, z4⟩
          have hRt := ht.reachable hR
          obtain ⟨k', hk'⟩ := hRt.history
          obtain ⟨w, hi, -⟩ := hk'.stored hw hn
          obtain ⟨w', hi', -⟩ := (History.stop sorted' hk' h1).stored hw hn
          have hzw : exist w' z = true := by rw [← hi'.sys.owner i]; exact z1
          have hzv := hi'.sys.tiled.valid z hzw
          obtain ⟨y, y1, y2⟩ := hi.sys.tiled.cover _ (idx_inGrid hw hcv)
          have y1' : exist (t i).owner y = true := by rw [hi.sys.owner]; exact y1
          have hyv := hi.sys.tiled.valid y y1
          have hyl : g.lvl y < g.lvl c := by
            apply Nat.lt_of_not_le
            intro hle
            by_cases e : g.lvl c = g.lvl y
            · rw [eq_of_mem_lvl hw hcv hyv e (mem_idx c) y2] at hct
              exact hct y1'
            · exact ih ⟨y, _, y1', y2, mem_idx c, by omega⟩
          have hpy : g.Mem p y := nested hw hyv hcv (by omega) y2 (mem_idx c) z3
          have hmx := lvl_le hcv
          obtain ⟨-, hch⟩ := (hk'.recorded hw i).refined_children hw e1 i y1' ⟨z, p, z1, z2, hpy, by omega⟩
          have hpz : InGrid g p := mem_inGrid hw hzv z2
          have hzp := lvl_le hzv
          have hxv := cellAt_valid (g := g) hpz (l := g.lvl y + 1) (by omega)
          have hxl := lvl_cellAt (g := g) hpz (l := g.lvl y + 1) (by omega)
          have hxm : g.Mem p (g.cellAt (g.lvl y + 1) p) := (mem_iff_cellAt hw hxv hpz).2 (by rw [hxl])
          have hx : g.cellAt (g.lvl y + 1) p ∈ g.children y := by
            have hlp := lvl_parent hw hxv
            refine (children_spec hw hyv (by omega)).2 ⟨hxv, hxl, ?_⟩
            exact eq_of_mem_lvl hw (parent_valid hw hxv) hyv (by omega) (mem_parent hw hxv hxm) hpy
          have hxe := hch _ hx
          have e := hi'.sys.tiled.unique p _ _ (show exist w' _ = true by rw [← hi'.sys.owner i]; exact hxe) hzw hxm z2
          rw [← e, hxl] at z4
          omega
      | balance z => exact absurd hp id
      | _ => exact absurd trivial hq

/-- C113 is false of the code: after `dont_refine(1)` and `stop_refining` no calls but load balancing turn the demo into
one in which cell 1 has been refined. -/
theorem C113_false : ∃ (s : Sys 2 Nat Nat) (X : Nat → Bool), tinyG.WF ∧ Reachable tinyG 0 146 s ∧ Tiled tinyG X ∧
    BalancedFor tinyG X (hoodOf tinyG) ∧
    ∀ s', Runs tinyG 0 146 Op.NotBalance s s' → ∃ j c, exist (s' j).owner c ≠ X c := by
  obtain ⟨s, X, h1, h2, h3, h4, h5, h6⟩ := tiny_other
  obtain ⟨s1, e1, e2⟩ := tiny_step h1.reachable (.dontRefine 0 1) trivial trivial
  obtain ⟨s2, e3, e3'⟩ := tiny_step e2 (.stop true) trivial trivial
  obtain ⟨res, e4, e5⟩ := Out.bind_inv (show (stopRefining tinyG 0 146 true s1).bind _ = .ok s2 from e3)
  injection e5 with e5
  obtain ⟨w, hi, -⟩ := h1.stored tiny_wf (by omega)
  have hc : (Calls.none.add tinyG s (.dontRefine 0 1)).dontRefine 1 := by
    refine Or.inr ⟨0, rfl, ?_⟩
    obtain ⟨b, r, f1, f2, -⟩ := dontRefine_spec (r := (s 0).req) (c := 1) hi.sys.tiled
    rw [f2.2 (by rw [← hi.sys.owner 0]; exact h2 0)] at f1
    exact ⟨r, by rw [hi.sys.owner]; exact f1⟩
  refine ⟨s2, X, tiny_wf, e3', h3, h4, fun s' hs => Classical.byContradiction fun hno => ?_⟩
  have hno' : ∀ c, exist (s' 0).owner c = X c := fun c => Classical.byContradiction fun h => hno ⟨0, c, h⟩
  subst e5
  refine C113_never tiny_wf (.call (.dontRefine 0 1) h1 trivial e1) hc (by decide) e4 0
    (by rw [(step_quiet (.dontRefine 0 1) trivial e1 0).1]; exact h2 0) hs ⟨3, tinyG.idx 3, ?_, mem_self 3, ?_, by decide⟩
  · rw [hno']; exact h6
  · exact mem_of_mem_children tiny_wf ⟨by decide, by decide⟩ (by decide) (by decide) (mem_self 3)

example : ∃ (k : Calls) (s : Sys 2 Nat Nat) (res : Fin 2 → Proc 2 Nat Nat × List Nat), tinyG.WF ∧
    History tinyG 0 146 k s ∧ k.dontRefine 2 ∧ tinyG.lvl 2 < tinyG.maxLvl ∧
    stopRefining tinyG 0 146 true s = .ok res ∧ Runs tinyG 0 146 Op.NotBalance (fun i => (res i).1) (fun i => (res i).1) := by
  obtain ⟨k, s, res, h1, h2, h3⟩ := tiny_dont
  exact ⟨k, s, res, tiny_wf, h1, h2, by decide, h3, .refl _⟩

/-- Load of a grid in which requests have been made can be balanced. -/
example : ∃ (s : Sys 2 Nat Nat) (X : Nat → Bool) (z : Fin 2 → Moves 2), tinyG.WF ∧ tinyG.last ≤ 146 ∧
    Reachable tinyG 0 146 s ∧ (Op.balance z : Op 2 Nat Nat).Ok s ∧ Tiled tinyG X ∧ BalancedFor tinyG X (hoodOf tinyG) ∧
    X 1 = false := by
  obtain ⟨s, X, h1, h2, h3, h4, h5, h6⟩ := tiny_other
  obtain ⟨s1, e1, e2⟩ := tiny_step h1.reachable (.dontRefine 0 1) trivial trivial
  exact ⟨s1, X, stay, tiny_wf, by decide, e2, fun i => stay_ok _, h3, h4, h5⟩

end Dccrg
