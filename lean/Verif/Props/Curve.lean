import Verif.Curve
import Verif.Demo
/-!
# C77: initial cells along a space-filling curve
-/
namespace Dccrg
open Cfg
variable {n : Nat} {D W : Type} {g : Cfg} {s : Sys n D W} {dflt : D} {maxTag : Nat} {sfc : Nat → V3 Nat}

/-- Specification: process `p` owns the cells at positions `first p`, ..., `first (p + 1) - 1` of the curve. -/
structure SharesAlong (g : Cfg) (n : Nat) (sfc : Nat → V3 Nat) (w : Owner n) (first : Nat → Nat) : Prop where
  start : first 0 = 0
  stop : first n = g.len 0 * g.len 1 * g.len 2
  mono : ∀ p, p < n → first p ≤ first (p + 1)
  even : ∀ p q, p < n → q < n → first (p + 1) - first p ≤ first (q + 1) - first q + 1
  owner : ∀ c k, 1 ≤ c → c ≤ g.len 0 * g.len 1 * g.len 2 → k < g.len 0 * g.len 1 * g.len 2 →
    (∀ d, g.idx c d = sfc k d * 2 ^ g.maxLvl) → ∀ p : Fin n, w c = some p ↔ first p ≤ k ∧ k < first (p.1 + 1)

theorem along_exist (hw : g.WF) (hc : CurveOk g.len sfc) (hn : 0 < n) {w : Owner n}
    (h1 : ∀ k, k < g.total → w (curveCell g sfc k) = (createLevel0 n g.total).2 (k + 1))
    (h2 : ∀ c, ¬ (1 ≤ c ∧ c ≤ g.total) → w c = none) (c : Nat) : exist w c = true ↔ 1 ≤ c ∧ c ≤ g.total := by
  constructor
  · intro h
    apply Decidable.byContradiction
    intro hc'
    obtain ⟨p, hp⟩ := exist_iff.1 h
    rw [h2 c hc'] at hp
    cases hp
  · rintro ⟨hc1, hc2⟩
    obtain ⟨k, hk, rfl⟩ := curveCell_surj hw hc hc1 hc2
    obtain ⟨p, hp⟩ := exist_iff.1 ((createLevel0_exist (n := n) (t := g.total) hn (c := k + 1)).2 ⟨by omega, by omega⟩)
    exact exist_of ((h1 k hk).trans hp)

/-- C77: with a space-filling curve every level 0 cell is created exactly once, and processes get consecutive parts
of the curve whose lengths differ by at most one, for every number of caching batches. -/
theorem C77_shares (hw : g.WF) (hc : CurveOk g.len sfc) {batches : Nat}
    (h : createGridAlong g n dflt maxTag sfc batches = .ok s) :
    ∃ first, ∀ i : Fin n, SharesAlong g n sfc (s i).owner first ∧
      (∀ c, exist (s i).owner c = true ↔ 1 ≤ c ∧ c ≤ g.len 0 * g.len 1 * g.len 2) ∧
      (∀ c, (s i).data c = if (s i).owner c = some i then some dflt else none) := by
  refine ⟨fun p => firstOf n g.total p - 1, fun i => ?_⟩
  have hn : 0 < n := by have := i.2; omega
  have hb : 0 < batches := by
    rcases Nat.eq_zero_or_pos batches with rfl | hb
    · unfold createGridAlong createAlong at h
      rw [if_pos rfl] at h; cases h
    · exact hb
  obtain ⟨w, e, h1, h2⟩ := createAlong_ok hw hc hn hb
  unfold createGridAlong at h
  rw [e, Out.bind_ok] at h
  have hi := Out.collect_inv h i
  have ho : (s i).owner = w ∧ (s i).data = fun c => if w c = some i then some dflt else none := by
    unfold rebuild at hi
    split at hi
    · cases hi
    · split at hi
      · cases hi
      · injection hi with hi
        rw [← hi]
        exact ⟨rfl, rfl⟩
  rw [ho.1, ho.2]
  have hmono : ∀ p, firstOf n g.total 0 ≤ firstOf n g.total p := fun p => firstOf_mono hn (Nat.zero_le p)
  have h0 : firstOf n g.total 0 = 1 := by unfold firstOf; simp
  rw [h0] at hmono
  refine ⟨⟨by simp [h0], ?_, ?_, ?_, ?_⟩, along_exist hw hc hn h1 h2, fun c => rfl⟩
  · show firstOf n g.total n - 1 = g.total
    rw [firstOf_last hn]; omega
  · intro p _
    show firstOf n g.total p - 1 ≤ firstOf n g.total (p + 1) - 1
    rw [firstOf_succ hn]; omega
  · intro p q _ _
    show firstOf n g.total (p + 1) - 1 - (firstOf n g.total p - 1) ≤
      firstOf n g.total (q + 1) - 1 - (firstOf n g.total q - 1) + 1
    rw [firstOf_succ hn, firstOf_succ hn]
    have : ∀ p, perProcess n g.total ≤ toCreate n g.total p + 1 ∧ toCreate n g.total p ≤ perProcess n g.total := by
      intro p; unfold toCreate; split <;> omega
    have a := this p
    have b := this q
    have c := hmono p
    have d := hmono q
    omega
  · intro c k hc1 hc2 hk hidx p
    have hcell : c = curveCell g sfc k := by
      obtain ⟨j, hj, rfl⟩ := curveCell_surj hw hc hc1 hc2
      congr 1
      apply hc.once j k hj hk
      funext d
      have := hidx d
      rw [curveCell_idx hw hc hj] at this
      exact Nat.eq_of_mul_eq_mul_right (Nat.two_pow_pos _) this
    subst hcell
    rw [h1 k hk, createLevel0_owner hn]
    show _ ↔ firstOf n g.total p - 1 ≤ k ∧ k < firstOf n g.total (p.1 + 1) - 1
    have c := hmono p
    have d := hmono (p.1 + 1)
    omega

/-- C77: the number of caching batches doesn't matter, and only zero is rejected. -/
theorem C77_batches (hw : g.WF) (hc : CurveOk g.len sfc) (hn : 0 < n) {a b : Nat} (ha : a ≠ 0) (hb : b ≠ 0) :
    (createGridAlong g n dflt maxTag sfc a : Out (Sys n D W)) = createGridAlong g n dflt maxTag sfc b := by
  obtain ⟨w, e, h1, h2⟩ := createAlong_ok (n := n) hw hc hn (Nat.pos_of_ne_zero ha)
  obtain ⟨w', e', h1', h2'⟩ := createAlong_ok (n := n) hw hc hn (Nat.pos_of_ne_zero hb)
  unfold createGridAlong
  rw [e, e']
  have : w = w' := by
    funext c
    by_cases hcr : 1 ≤ c ∧ c ≤ g.total
    · obtain ⟨k, hk, rfl⟩ := curveCell_surj hw hc hcr.1 hcr.2
      rw [h1 k hk, h1' k hk]
    · rw [h2 c hcr, h2' c hcr]
  rw [this]

theorem C77_zero_batches : (createGridAlong g n dflt maxTag sfc 0 : Out (Sys n D W)) = .throws := by
  unfold createGridAlong createAlong
  rw [if_pos rfl]; rfl

/-- C77: the grid is created if there are enough tags: no position of the curve is used that isn't cached. -/
theorem C77_returns (hw : g.WF) (hc : CurveOk g.len sfc) (hn : 0 < n) (hm : g.last ≤ maxTag) {batches : Nat}
    (hb : batches ≠ 0) : ∃ s : Sys n D W, createGridAlong g n dflt maxTag sfc batches = .ok s := by
  obtain ⟨w, e, h1, h2⟩ := createAlong_ok (n := n) hw hc hn (Nat.pos_of_ne_zero hb)
  have hex : exist w = exist (createLevel0 n g.total).2 := by
    funext c
    rw [Bool.eq_iff_iff, along_exist hw hc hn h1 h2, createLevel0_exist hn]
  have hr : ∀ i : Fin n, _ := fun i => rebuild_ok (W := W) (maxTag := maxTag) (i := i) (p := freshWith g w dflt i) hw dflt
    (by show Tiled g (exist w); rw [hex]; exact createLevel0_tiled hw hn)
    (by show Balanced g (exist w); rw [hex]; exact createLevel0_balanced hn)
    (by intro h hh; cases hh)
    (by
      intro c
      show ((if _ then _ else _ : Option D)).isSome = true ↔ w c = some i
      split <;> simp_all)
    (by
      refine fitsTags_mono hm (fitsTags_last fun c hc' => ?_)
      have : exist w c = true := hc'
      rw [hex] at this
      exact (createLevel0_tiled hw hn).valid c this)
  have hg : (createGridAlong g n dflt maxTag sfc batches : Out (Sys n D W)) =
      Out.collect fun i => rebuild g dflt maxTag i (freshWith g w dflt i) := by
    unfold createGridAlong
    rw [e, Out.bind_ok]
  exact ⟨_, hg.trans (Out.collect_ok hr)⟩

/-- C77: what is proved of grids created without a space-filling curve holds also of those created with one: the same
state is reached by `initialize` without the curve followed by load balancing. -/
theorem C77_reachable (hw : g.WF) (hc : CurveOk g.len sfc) (hn : 0 < n) {batches : Nat}
    (h : createGridAlong g n dflt maxTag sfc batches = .ok s) {s' : Sys n D W}
    (hr : Runs g dflt maxTag (fun _ => True) s s') : Reachable g dflt (max maxTag g.last) s' := by
  have hb : 0 < batches := by
    rcases Nat.eq_zero_or_pos batches with rfl | hb
    · rw [C77_zero_batches] at h; cases h
    · exact hb
  obtain ⟨w, e, h1, h2⟩ := createAlong_ok hw hc hn hb
  unfold createGridAlong at h
  rw [e, Out.bind_ok] at h
  have hs := freshWith_reachable hw hn (along_exist hw hc hn h1 h2) h
  clear h
  induction hr with
  | refl => exact hs
  | step op _ _ ho h1 ih => exact .step op ih ho (step_mono (Nat.le_max_left _ _) op h1)

/-- A curve from larger to smaller x in the grid of examples. -/
theorem tiny_curve : CurveOk tinyG.len (fun k => v3 (1 - k) 0 0) := by
  refine ⟨?_, ?_, ?_⟩
  · intro k hk
    have hk : k < 2 := hk
    rw [forall_fin3]
    have : k = 0 ∨ k = 1 := by omega
    rcases this with rfl | rfl <;> decide
  · intro j k hj hk h
    have hj : j < 2 := hj
    have hk : k < 2 := hk
    have : (1 - j : Nat) = 1 - k := congrFun h 0
    omega
  · intro p hp
    have h0 : p 0 < 2 := hp 0
    have h1 : p 1 < 1 := hp 1
    have h2 : p 2 < 1 := hp 2
    refine ⟨1 - p 0, by show 1 - p 0 < 2; omega, ?_⟩
    funext d
    revert d
    rw [forall_fin3]
    refine ⟨?_, ?_, ?_⟩
    · show 1 - (1 - p 0) = p 0
      omega
    · show 0 = p 1
      omega
    · show 0 = p 2
      omega

/-- The demo: process 0 gets cell 2 and process 1 cell 1. -/
example : ∃ s : Sys 2 Nat Nat, createGridAlong tinyG 2 0 146 (fun k => v3 (1 - k) 0 0) 3 = .ok s ∧
    (s 0).owner 2 = some 0 ∧ (s 0).owner 1 = some 1 := by
  obtain ⟨s, h⟩ := C77_returns (n := 2) (D := Nat) (W := Nat) (dflt := 0) (maxTag := 146) (batches := 3) tiny_wf tiny_curve (by omega)
    (by rw [tiny_last]; exact Nat.le_refl _) (by decide)
  refine ⟨s, h, ?_⟩
  obtain ⟨w, e, h1, h2⟩ := createAlong_ok (n := 2) (batches := 3) tiny_wf tiny_curve (by omega) (by omega)
  unfold createGridAlong at h
  rw [e, Out.bind_ok] at h
  have hi := Out.collect_inv h 0
  have ho : (s 0).owner = w := by
    unfold rebuild at hi
    split at hi
    · cases hi
    · split at hi
      · cases hi
      · injection hi with hi
        rw [← hi]; rfl
  rw [ho]
  exact ⟨(h1 0 (by decide)).trans (by decide), (h1 1 (by decide)).trans (by decide)⟩

end Dccrg
