import Verif.Props.Poisson
/-!
# C125: what the solver of the Poisson test solves
-/
namespace Dccrg
open Cfg
variable {n : Nat} {W : Type} {g : Cfg} {w : Owner n} {s : Sys n PoissonCell W} {dflt : PoissonCell} {maxTag : Nat}
  {F : Nat → PoissonCell} {nb : Nat → List NbrInfo} {T : Nat → Nat}

/-! ## Residual -/

/-- A . u in a cell. -/
def appliedA (nb : Nat → List NbrInfo) (F : Nat → PoissonCell) (u : PoissonCell → Rat) (c : Nat) : Rat :=
  (F c).scale * u (F c) + ((nb c).map fun y => nbrWeight (F c).f y.2.1 y.2.2 * u (F y.1)).sum

theorem foldl_add_sum {α : Type} (k : α → Rat) (l : List α) (r : Rat) : l.foldl (fun r y => r + k y) r = r + (l.map k).sum := by
  induction l generalizing r with
  | nil => simp only [List.foldl_nil, List.map_nil, List.sum_nil]; grind
  | cons y l ih => rw [List.foldl_cons, ih, List.map_cons, List.sum_cons, Rat.add_assoc]

theorem foldl_sub_sum {α : Type} (k : α → Rat) (l : List α) (r : Rat) : l.foldl (fun r y => r - k y) r = r - (l.map k).sum := by
  induction l generalizing r with
  | nil => simp only [List.foldl_nil, List.map_nil, List.sum_nil]; grind
  | cons y l ih => rw [List.foldl_cons, ih, List.map_cons, List.sum_cons]; grind

theorem timesA_applied (u : PoissonCell → Rat) (c : Nat) :
    timesA u (F c) ((nb c).map fun y => (F y.1, y.2)) = appliedA nb F u c := by
  unfold timesA appliedA
  rw [foldl_add_sum (fun y : PoissonCell × Int × Int => nbrWeight (F c).f y.2.1 y.2.2 * u y.1), List.map_map]
  rfl

theorem passed_zero {P : PoissonCell → List (PoissonCell × Int × Int) → PoissonCell} {c : Nat} (h : (F c).typ = 0) :
    passed nb P F c = P (F c) ((nb c).map fun y => (F y.1, y.2)) := if_pos h

/-- What an iteration changes when the loop goes on. -/
theorem gIter_true {E : Nat → Bool} {a : PParams} {x : GState} (h : (gIter g E nb a x).2 = true) : ∃ α : Rat, ∀ c,
    ((gIter g E nb a x).1.F c).rhs = (x.F c).rhs ∧ ((gIter g E nb a x).1.F c).scale = (x.F c).scale ∧
    ((gIter g E nb a x).1.F c).f = (x.F c).f ∧ ((gIter g E nb a x).1.F c).typ = (x.F c).typ ∧
    ((x.F c).typ ≠ 0 → (gIter g E nb a x).1.F c = x.F c) ∧
    ((x.F c).typ = 0 → ((gIter g E nb a x).1.F c).sol = (x.F c).sol + α * (x.F c).p0 ∧
      ((gIter g E nb a x).1.F c).r0 = (x.F c).r0 - α * appliedA nb x.F (·.p0) c) := by
  have hk := gIter_kept (g := g) (nb := nb) E a x
  unfold gIter at h hk ⊢
  simp only at h hk ⊢
  generalize hF2 : passed nb (fun c l => { c with ap := timesA (·.p0) c l }) x.F = F2 at *
  generalize hdp : gSum g E false (fun c => c.p1 * c.ap) F2 = dotP at *
  split at h
  · cases h
  rename_i h0
  rw [if_neg h0] at hk ⊢
  generalize hF3 : passed nb (fun c _ => { c with sol := c.sol + x.dotR / dotP * c.p0 }) F2 = F3 at *
  generalize a.root (gSum g E true (fun c => a.pow c.r0.abs) F3) = res at *
  generalize hF4 : (if lessThan res x.resMin = true then passed nb (fun c _ => { c with best := c.sol }) F3 else F3) = F4 at *
  generalize (if lessThan res x.resMin = true then res else x.resMin.getD res) = m at *
  split at h
  · cases h
  rename_i h1
  rw [if_neg h1] at hk ⊢
  generalize hF5 : passed nb (fun c _ => { c with r0 := c.r0 - x.dotR / dotP * c.ap }) F4 = F5 at *
  generalize hF6 : passed nb (fun c l => { c with r1 := c.r1 - x.dotR / dotP * timesAT (·.p1) c l }) F5 = F6 at *
  split at h
  · cases h
  rename_i h2
  rw [if_neg h2] at hk ⊢
  generalize gSum g E false (fun c => c.r0 * c.r1) F6 = d at *
  simp only at hk ⊢
  refine ⟨x.dotR / dotP, fun c => ?_⟩
  refine (Classical.em ((x.F c).typ = 0)).elim (fun ht => ?_) (fun ht => ?_)
  · have e2 : F2 c = { x.F c with ap := appliedA nb x.F (·.p0) c } := by
      rw [← hF2, passed_zero ht, timesA_applied]
    have e3 : F3 c = { x.F c with ap := appliedA nb x.F (·.p0) c, sol := (x.F c).sol + x.dotR / dotP * (x.F c).p0 } := by
      rw [← hF3, passed_zero (by rw [e2]; exact ht), e2]
    have e4 : ∃ bb, F4 c = { x.F c with ap := appliedA nb x.F (·.p0) c, sol := (x.F c).sol + x.dotR / dotP * (x.F c).p0, best := bb } := by
      rw [← hF4]
      split
      · exact ⟨_, by rw [passed_zero (by rw [e3]; exact ht), e3]⟩
      · exact ⟨_, by rw [e3]⟩
    obtain ⟨bb, e4⟩ := e4
    have e5 : F5 c = { x.F c with ap := appliedA nb x.F (·.p0) c, sol := (x.F c).sol + x.dotR / dotP * (x.F c).p0, best := bb, r0 := (x.F c).r0 - x.dotR / dotP * appliedA nb x.F (·.p0) c } := by
      rw [← hF5, passed_zero (by rw [e4]; exact ht), e4]
    have e6 : ∃ cc, F6 c = { x.F c with ap := appliedA nb x.F (·.p0) c, sol := (x.F c).sol + x.dotR / dotP * (x.F c).p0, best := bb, r0 := (x.F c).r0 - x.dotR / dotP * appliedA nb x.F (·.p0) c, r1 := cc } := by
      rw [← hF6, passed_zero (by rw [e5]; exact ht), e5]
      exact ⟨_, rfl⟩
    obtain ⟨cc, e6⟩ := e6
    rw [passed_zero (by rw [e6]; exact ht), e6]
    exact ⟨rfl, rfl, rfl, rfl, fun h => absurd ht h, fun _ => ⟨rfl, rfl⟩⟩
  · have := hk.rest c ht
    rw [this]
    exact ⟨rfl, rfl, rfl, rfl, fun _ => rfl, fun h => absurd h ht⟩

/-- The residual of the current solution is `r0`, and cells that are not solved do not change the search direction. -/
structure Residual (w : Owner n) (nb : Nat → List NbrInfo) (F : Nat → PoissonCell) : Prop where
  res : ∀ c, exist w c = true → (F c).typ = 0 → (F c).r0 = (F c).rhs - appliedA nb F (·.sol) c
  zero : ∀ c, exist w c = true → (F c).typ = 0 → ∀ y ∈ nb c, (F y.1).typ ≠ 0 → (F y.1).p0 = 0

theorem sum_linear {α : Type} (k u v : α → Rat) (a : Rat) (l : List α) :
    (l.map fun y => k y * (u y + a * v y)).sum = (l.map fun y => k y * u y).sum + a * (l.map fun y => k y * v y).sum := by
  induction l with
  | nil => simp only [List.map_nil, List.sum_nil]; grind
  | cons y l ih => simp only [List.map_cons, List.sum_cons, ih]; grind

theorem Residual.start (hz : ∀ c, exist w c = true → (F c).typ = 0 → ∀ y ∈ nb c, (F y.1).typ ≠ 0 → (F y.1).p0 = 0) :
    Residual w nb (passed nb startSolve F) := by
  have e : ∀ c, (passed nb startSolve F c).typ = (F c).typ ∧ (passed nb startSolve F c).sol = (F c).sol ∧
      (passed nb startSolve F c).rhs = (F c).rhs ∧ (passed nb startSolve F c).scale = (F c).scale ∧
      (passed nb startSolve F c).f = (F c).f ∧ ((F c).typ ≠ 0 → (passed nb startSolve F c).p0 = (F c).p0) := by
    intro c
    unfold passed
    split
    · rename_i h; exact ⟨rfl, rfl, rfl, rfl, rfl, fun h' => absurd h h'⟩
    · exact ⟨rfl, rfl, rfl, rfl, rfl, fun _ => rfl⟩
  refine ⟨fun c hc ht => ?_, fun c hc ht y hy hty => ?_⟩
  · rw [(e c).1] at ht
    unfold appliedA
    simp only [(e _).2.1, (e c).2.2.1, (e c).2.2.2.1, (e c).2.2.2.2.1]
    rw [passed_zero ht]
    show List.foldl _ _ _ = _
    rw [foldl_sub_sum (fun y : PoissonCell × Int × Int => nbrWeight (F c).f y.2.1 y.2.2 * y.1.sol), List.map_map]
    have : ((nb c).map ((fun y : PoissonCell × Int × Int => nbrWeight (F c).f y.2.1 y.2.2 * y.1.sol) ∘ fun y => (F y.1, y.2))) =
      (nb c).map fun y => nbrWeight (F c).f y.2.1 y.2.2 * (F y.1).sol := rfl
    rw [this]
    grind
  · rw [(e y.1).1] at hty
    rw [(e y.1).2.2.2.2.2 hty]
    exact hz c hc (by rw [← (e c).1]; exact ht) y hy hty

theorem Residual.iter {E : Nat → Bool} {a : PParams} {x : GState} (h : Residual w nb x.F) (ht : (gIter g E nb a x).2 = true) :
    Residual w nb (gIter g E nb a x).1.F := by
  obtain ⟨α, e⟩ := gIter_true ht
  refine ⟨fun c hc h0 => ?_, fun c hc h0 y hy hty => ?_⟩
  · obtain ⟨e1, e2, e3, e4, e5, e6⟩ := e c
    rw [e4] at h0
    rw [(e6 h0).2, e1, h.res c hc h0]
    unfold appliedA
    simp only
    rw [(e6 h0).1, e2, e3]
    have : (nb c).map (fun y => nbrWeight (x.F c).f y.2.1 y.2.2 * ((gIter g E nb a x).1.F y.1).sol) =
        (nb c).map fun y => nbrWeight (x.F c).f y.2.1 y.2.2 * ((x.F y.1).sol + α * (x.F y.1).p0) := by
      refine List.map_congr_left fun y hy => ?_
      congr 1
      obtain ⟨-, -, -, -, f5, f6⟩ := e y.1
      by_cases hy0 : (x.F y.1).typ = 0
      · exact (f6 hy0).1
      · rw [f5 hy0, h.zero c hc h0 y hy hy0]; grind
    rw [this, sum_linear]
    grind
  · obtain ⟨-, -, -, e4, -⟩ := e c
    obtain ⟨-, -, -, f4, f5, -⟩ := e y.1
    rw [f4] at hty
    rw [f5 hty]
    exact h.zero c hc (by rw [← e4]; exact h0) y hy hty

/-- States of the solver after any number of iterations. -/
inductive Iterates (g : Cfg) (maxTag : Nat) (a : PParams) : PState n W → PState n W → Prop where
  | refl (x : PState n W) : Iterates g maxTag a x x
  | step {x y z : PState n W} : Iterates g maxTag a x y → poissonIter g maxTag a y = .ok (z, true) → Iterates g maxTag a x z

/-- The solution in a cell on the process of the cell. -/
def solAt (s : Sys n PoissonCell W) (i : Fin n) (c : Nat) : Rat :=
  match (s i).owner c with
  | none => 0
  | some j => ((access (s j) c).map (·.sol)).getD 0

/-- States of the solver on all cells, with the invariant on residuals. -/
theorem residual_state (hw : g.WF) (hn : 0 < n) (h : Reachable g dflt maxTag s) (hi : Inv g w s)
    (own : ∀ i c, w c = some i → (s i).data c = some (F c)) (len : Nat → V3 Rat) (a : PParams) (cells skip : Fin n → List Nat)
    (hp : ∀ i c, (s i).owner c = some i → c ∉ cells i → (access (s i) c).map (·.p0) = some 0) {x y z}
    (h1 : cacheSystem g maxTag len cells skip s = .ok x) (h2 : startPoisson g maxTag x = .ok y) (h3 : Iterates g maxTag a y z) :
    ∃ G, Solves g dflt maxTag w (finalType g (exist w) (typeOf w cells skip)) (solveNbrs g (exist w) (typeOf w cells skip)) z G ∧
      Residual w (solveNbrs g (exist w) (typeOf w cells skip)) G.F ∧
      ∀ c, (G.F c).f = (cachedField g (exist w) len (typeOf w cells skip) (fun c => { F c with typ := typeOf w cells skip c }) c).f ∧
        (G.F c).scale = (cachedField g (exist w) len (typeOf w cells skip) (fun c => { F c with typ := typeOf w cells skip c }) c).scale := by
  obtain ⟨x', x1, x2, x3⟩ := cacheSystem_spec hw hn h hi own len cells skip
  rw [h1] at x1
  injection x1 with x1
  subst x1
  obtain ⟨y', y1, y2⟩ := startPoisson_solves hw hn x2 x3 fun c _ => cachedField_typ ..
  rw [h2] at y1
  injection y1 with y1
  subst y1
  generalize hT : typeOf w cells skip = T at *
  have r0 := Residual.start (w := w) (nb := solveNbrs g (exist w) T) (F := cachedField g (exist w) len T fun c => { F c with typ := T c }) (by
    intro c hc ht y hy hty
    rw [cachedField_typ] at ht hty
    obtain ⟨u, hu, rfl⟩ := List.mem_map.1 hy
    obtain ⟨hu, hus⟩ := List.mem_filter.1 hu
    obtain ⟨l1, -, l3⟩ := faceList_linked hw h hi hc hu
    have hc0 : T c = 0 := by
      unfold finalType at ht
      split at ht
      · cases ht
      · exact ht
    have h0 : T u.1 ≠ 0 := by
      intro h0
      refine hty ?_
      unfold finalType
      rw [if_neg, h0]
      intro he
      have : (c, -u.2, relLevel g u.1 c) ∈ solveNbrs g (exist w) T u.1 :=
        List.mem_map.2 ⟨(c, -u.2), List.mem_filter.2 ⟨l3, by show usedNbr (T u.1) (T c) = true; rw [h0, hc0]; rfl⟩, rfl⟩
      rw [he] at this; cases this
    obtain ⟨i, hi'⟩ := Option.isSome_iff_exists.1 l1
    have hnc : u.1 ∉ cells i := by
      intro hm
      refine h0 ?_
      rw [← hT]
      unfold typeOf
      rw [hi']
      exact if_pos hm
    have := hp i u.1 (by rw [hi.sys.owner]; exact hi') hnc
    rw [access_data (own i _ hi')] at this
    injection this with this
    show (cachedField g (exist w) len T (fun c => { F c with typ := T c }) u.1).p0 = 0
    rw [← this]
    unfold cachedField
    split
    · rfl
    · split <;> rfl)
  have key : ∃ G, Solves g dflt maxTag w (finalType g (exist w) T) (solveNbrs g (exist w) T) z G ∧ Residual w (solveNbrs g (exist w) T) G.F ∧
      ∀ c, (G.F c).f = (cachedField g (exist w) len T (fun c => { F c with typ := T c }) c).f ∧
        (G.F c).scale = (cachedField g (exist w) len T (fun c => { F c with typ := T c }) c).scale := by
    clear h2
    induction h3 with
    | refl =>
      refine ⟨_, y2, r0, fun c => ?_⟩
      show (passed _ startSolve _ c).f = _ ∧ (passed _ startSolve _ c).scale = _
      unfold passed
      split <;> exact ⟨rfl, rfl⟩
    | step _ hs ih =>
      obtain ⟨G, g1, g2, g3⟩ := ih
      obtain ⟨z', z1, z2⟩ := poissonIter_solves hw hn a g1
      rw [hs] at z1
      injection z1 with z1
      obtain ⟨e1, e2⟩ := Prod.mk.inj z1
      subst e1
      obtain ⟨α, hα⟩ := gIter_true e2.symm
      exact ⟨_, z2, g2.iter e2.symm, fun c => ⟨(hα c).2.2.1.trans (g3 c).1, (hα c).2.1.trans (g3 c).2⟩⟩
  exact key

/-- C125, residual: after any number of iterations `r0` in every cell to solve is what is missing from the right hand side,
if search direction was zero in cells that are not solved when the solver was started. Without this hypothesis it is false (`C125_stale_false`). -/
theorem C125_residual_partial (hw : g.WF) (hn : 0 < n) (h : Reachable g dflt maxTag s) (len : Nat → V3 Rat) (a : PParams)
    (cells skip : Fin n → List Nat)
    (hp : ∀ i c, (s i).owner c = some i → c ∉ cells i → (access (s i) c).map (·.p0) = some 0) {x y z}
    (h1 : cacheSystem g maxTag len cells skip s = .ok x) (h2 : startPoisson g maxTag x = .ok y) (h3 : Iterates g maxTag a y z) :
    ∀ i, ∀ e ∈ z.info i, ∃ d, access (z.sys i) e.1 = some d ∧ (d.typ = 0 →
      d.r0 = d.rhs - (d.scale * d.sol + (e.2.map fun y => nbrWeight d.f y.2.1 y.2.2 * solAt z.sys i y.1).sum)) := by
  obtain ⟨w, hi⟩ := h.inv hw hn
  have own : ∀ i c, w c = some i → (s i).data c = some ((fun c => (((w c).bind fun i => (s i).data c).getD dflt)) c) := by
    intro i c e
    have := (hi.access_own e).2
    show _ = some (((w c).bind fun i => (s i).data c).getD dflt)
    rw [e]
    show _ = some (((s i).data c).getD dflt)
    cases hx : (s i).data c with
    | none => exact absurd hx this
    | some x => rfl
  generalize (fun c => (((w c).bind fun i => (s i).data c).getD dflt)) = F at own
  obtain ⟨G, g1, g2, -⟩ := residual_state hw hn h hi own len a cells skip hp h1 h2 h3
  intro i e he
  obtain ⟨m1, m2⟩ := (g1.cached.cells i e.1).1 (List.mem_map_of_mem he)
  refine ⟨G.F e.1, access_data (g1.copied.own i _ m1), fun ht => ?_⟩
  rw [g2.res e.1 (exist_of m1) ht]
  unfold appliedA
  rw [g1.cached.mem i e he]
  congr 2
  congr 1
  refine List.map_congr_left fun y hy => ?_
  congr 1
  obtain ⟨j, hj⟩ := Option.isSome_iff_exists.1 (g1.cached.links e.1 (exist_of m1) m2 y hy).1
  unfold solAt
  rw [g1.copied.inv.sys.owner, hj]
  show _ = ((access (z.sys j) y.1).map _).getD 0
  rw [access_data (g1.copied.own j _ hj)]
  rfl

/-! ## Witnesses -/

/-- Types of cells when the first cell is solved. -/
theorem demo_type : typeOf (createLevel0 2 2).2 (fun _ => [1]) (fun _ => []) = fun c => if c = 1 then 0 else 1 := by
  funext c
  unfold typeOf
  by_cases hc : c = 1
  · subst hc; rfl
  · cases (createLevel0 2 2).2 c <;> simp [hc]

theorem demo_all : typeOf (createLevel0 2 2).2 (fun _ => [1, 2]) (fun _ => []) = fun c => if c = 1 ∨ c = 2 then 0 else 1 := by
  funext c
  unfold typeOf
  by_cases h1 : c = 1
  · subst h1; rfl
  · by_cases h2 : c = 2
    · subst h2; rfl
    · cases (createLevel0 2 2).2 c <;> simp [h1, h2]

/-- C125 is false for a guess that is the solution already: right hand side is 0 and the solution is 5 everywhere, so that nothing
is missing from right hand side of any cell, and yet the solution is 0 in the first cell after solving. -/
theorem C125_guess_false : ∃ (s t : Sys 2 PoissonCell Nat) (x : Sys 2 PoissonCell Nat × (Fin 2 → List (Nat × List NbrInfo)))
    (y : PState 2 Nat), Reachable tinyG (poissonCell 0 0) 146 s ∧
    (∀ i c, (s i).owner c = some i → access (s i) c = some (poissonCell 0 5)) ∧
    cacheSystem tinyG 146 (fun _ _ => 1) (fun _ => [1]) (fun _ => []) s = .ok x ∧ startPoisson tinyG 146 x = .ok y ∧
    (∀ i c, (y.sys i).owner c = some i → (access (y.sys i) c).map (·.r0) = some 0) ∧
    poissonSolve tinyG 146 (fun _ _ => 1) (poissonParams 0) (fun _ => [1]) (fun _ => []) s = .ok t ∧
    (access (t 0) 1).map (·.sol) = some 0 := by
  obtain ⟨s, h1, h2, h3⟩ := poissonDemo_start (n := 2) (by decide) fun _ => poissonCell 0 5
  obtain ⟨x, x1, x2, x3⟩ := cacheSystem_spec tiny_wf (by decide) h1 h2 h3 (fun _ _ => 1) (fun _ => [1]) (fun _ => [])
  obtain ⟨y, y1, y2⟩ := startPoisson_solves tiny_wf (by decide) x2 x3 fun c _ => cachedField_typ ..
  obtain ⟨t, b1, -, b3, b4⟩ := poissonSolve_holds tiny_wf (by decide) h1 h2 h3 (fun _ _ => 1) (poissonParams 0) (fun _ => [1]) (fun _ => [])
  refine ⟨s, t, x, y, h1, fun i c e => ?_, x1, y1, fun i c e => ?_, b1, ?_⟩
  · rw [h2.sys.owner] at e
    exact access_data (h3 i c e)
  · rw [y2.copied.inv.sys.owner] at e
    rw [access_data (y2.copied.own i c e), demo_type, demo_exist (by decide)]
    have he := exist_of e
    rw [demo_exist (by decide), decide_eq_true_eq] at he
    have : c = 1 ∨ c = 2 := by omega
    rcases this with rfl | rfl <;> decide +kernel
  · rw [access_data (b4 0 1 (by decide)), demo_exist (by decide), demo_type]
    decide +kernel

/-- C125 is false for data that is left by solving before: `u` and `u'` have equal right hand sides and solutions in all cells, where
`u` is what solving has left except that the right hand side was changed in the first cell. The solution in the first cell should be
smaller than the one in the second cell by the right hand side, which is 2. -/
theorem C125_stale_false : ∃ s t u v u' v' : Sys 2 PoissonCell Nat, Reachable tinyG (poissonCell 0 0) 146 s ∧
    poissonSolve tinyG 146 (fun _ _ => 1) (poissonParams 10) (fun _ => [1, 2]) (fun _ => []) s = .ok t ∧
    (∀ i c, access (u i) c = (access (t i) c).map fun a => if (t i).owner c = some i ∧ c = 1 then { a with rhs := 2 } else a) ∧
    Reachable tinyG (poissonCell 0 0) 146 u ∧ Reachable tinyG (poissonCell 0 0) 146 u' ∧
    (∀ i c, (u i).owner c = (u' i).owner c ∧ ((u i).owner c = some i →
      (access (u i) c).map (fun a => (a.rhs, a.sol)) = (access (u' i) c).map (fun a => (a.rhs, a.sol)))) ∧
    poissonSolve tinyG 146 (fun _ _ => 1) (poissonParams 0) (fun _ => [1]) (fun _ => []) u = .ok v ∧
    poissonSolve tinyG 146 (fun _ _ => 1) (poissonParams 0) (fun _ => [1]) (fun _ => []) u' = .ok v' ∧
    (access (v 1) 2).map (·.sol) = some (1 / 2) ∧ (access (v' 1) 2).map (·.sol) = some (1 / 2) ∧
    (access (v 0) 1).map (·.sol) = some (-1) ∧ (access (v' 0) 1).map (·.sol) = some (-3 / 2) := by
  obtain ⟨s, h1, h2, h3⟩ := poissonDemo_start (n := 2) (by decide) fun c => poissonCell (if c = 1 then 1 else -1) 0
  obtain ⟨t, b1, b2, b3, b4⟩ := poissonSolve_holds tiny_wf (by decide) h1 h2 h3 (fun _ _ => 1) (poissonParams 10) (fun _ => [1, 2]) (fun _ => [])
  rw [demo_exist (by decide), demo_all] at b4
  have hu : Reachable tinyG (poissonCell 0 0) 146 fun i =>
      { t i with data := fun c => ((t i).data c).map fun a => if c = 1 then { a with rhs := 2 } else a } :=
    reachable_data tiny_wf b2 (fun i => rfl) fun i c => by
      show (((t i).data c).map _).isSome = _
      rw [Option.isSome_map]
  have hui := inv_of tiny_wf (by decide) hu fun i => b3.sys.owner i
  obtain ⟨v, c1, -, -, c4⟩ := poissonSolve_holds tiny_wf (by decide) hu hui
    (F := fun c => if c = 1 then { gSolve tinyG (fun c => decide (1 ≤ c ∧ c ≤ 2)) (fun _ _ => 1) (poissonParams 10)
      (fun c => if c = 1 ∨ c = 2 then 0 else 1) (fun c => poissonCell (if c = 1 then 1 else -1) 0) c with rhs := 2 } else
      gSolve tinyG (fun c => decide (1 ≤ c ∧ c ≤ 2)) (fun _ _ => 1) (poissonParams 10)
      (fun c => if c = 1 ∨ c = 2 then 0 else 1) (fun c => poissonCell (if c = 1 then 1 else -1) 0) c)
    (fun i c e => by
      show ((t i).data c).map _ = _
      rw [b4 i c e]
      rfl) (fun _ _ => 1) (poissonParams 0) (fun _ => [1]) (fun _ => [])
  rw [demo_exist (by decide), demo_type] at c4
  obtain ⟨u', h1', h2', h3'⟩ := poissonDemo_start (n := 2) (by decide) fun c =>
    if c = 1 then poissonCell 2 (-1 / 2) else poissonCell (-1) (1 / 2)
  obtain ⟨v', d1, -, -, d4⟩ := poissonSolve_holds tiny_wf (by decide) h1' h2' h3' (fun _ _ => 1) (poissonParams 0) (fun _ => [1]) (fun _ => [])
  rw [demo_exist (by decide), demo_type] at d4
  have o1 : (createLevel0 2 2).2 1 = some 0 := by decide
  have o2 : (createLevel0 2 2).2 2 = some 1 := by decide
  refine ⟨s, t, _, v, u', v', h1, b1, fun i c => ?_, hu, h1', fun i c => ⟨?_, fun e => ?_⟩, c1, d1, ?_, ?_, ?_, ?_⟩
  · by_cases hc : (t i).owner c = some i
    · have e : (createLevel0 2 2).2 c = some i := by rw [← b3.sys.owner i]; exact hc
      rw [access_data (b4 i c e), access_data (show ((t i).data c).map _ = _ by rw [b4 i c e]; rfl)]
      simp only [Option.map_some, hc, true_and]
    · have e : (t i).data c = none := by
        apply Option.not_isSome_iff_eq_none.1
        rw [b3.sys.placed i, ← b3.sys.owner i]; exact hc
      unfold access
      simp only [e, Option.map_none, hc, false_and, if_false, Option.map_id']
  · rw [h2'.sys.owner]; exact congrFun (b3.sys.owner i) c
  · have e : (createLevel0 2 2).2 c = some i := by
      rw [← b3.sys.owner i]; exact e
    rw [access_data (h3' i c e), access_data (show ((t i).data c).map _ = _ by rw [b4 i c e]; rfl)]
    have he := exist_of e
    rw [demo_exist (by decide), decide_eq_true_eq] at he
    have : c = 1 ∨ c = 2 := by omega
    rcases this with rfl | rfl <;> decide +kernel
  · rw [access_data (c4 1 2 o2)]; decide +kernel
  · rw [access_data (d4 1 2 o2)]; decide +kernel
  · rw [access_data (c4 0 1 o1)]; decide +kernel
  · rw [access_data (d4 0 1 o1)]; decide +kernel

/-- Hypotheses of `C125_residual_partial` are met after one iteration in a grid of two cells. -/
example : ∃ (s : Sys 2 PoissonCell Nat) (x : Sys 2 PoissonCell Nat × (Fin 2 → List (Nat × List NbrInfo))) (y z : PState 2 Nat),
    Reachable tinyG (poissonCell 0 0) 146 s ∧
    (∀ i c, (s i).owner c = some i → c ∉ [1] → (access (s i) c).map (·.p0) = some 0) ∧
    cacheSystem tinyG 146 (fun _ _ => 1) (fun _ => [1]) (fun _ => []) s = .ok x ∧ startPoisson tinyG 146 x = .ok y ∧
    poissonIter tinyG 146 (poissonParams 0) y = .ok (z, true) ∧ Iterates tinyG 146 (poissonParams 0) y z ∧
    (access (y.sys 0) 1).map (·.r0) = some (3 / 2) ∧ (access (z.sys 0) 1).map (·.r0) = some 0 := by
  obtain ⟨s, h1, h2, h3⟩ := poissonDemo_start (n := 2) (by decide) fun c => if c = 1 then poissonCell 2 0 else poissonCell 0 (1 / 2)
  obtain ⟨x, x1, x2, x3⟩ := cacheSystem_spec tiny_wf (by decide) h1 h2 h3 (fun _ _ => 1) (fun _ => [1]) (fun _ => [])
  obtain ⟨y, y1, y2⟩ := startPoisson_solves tiny_wf (by decide) x2 x3 fun c _ => cachedField_typ ..
  obtain ⟨z, z1, z2⟩ := poissonIter_solves tiny_wf (by decide) (poissonParams 0) y2
  rw [demo_exist (by decide), demo_type] at y2 z1 z2
  have o1 : (createLevel0 2 2).2 1 = some 0 := by decide
  have ht : (gIter tinyG (fun c => decide (1 ≤ c ∧ c ≤ 2)) (solveNbrs tinyG (fun c => decide (1 ≤ c ∧ c ≤ 2)) fun c => if c = 1 then 0 else 1)
      (poissonParams 0) (gStart tinyG (fun c => decide (1 ≤ c ∧ c ≤ 2)) (solveNbrs tinyG (fun c => decide (1 ≤ c ∧ c ≤ 2)) fun c => if c = 1 then 0 else 1)
      (cachedField tinyG (fun c => decide (1 ≤ c ∧ c ≤ 2)) (fun _ _ => 1) (fun c => if c = 1 then 0 else 1) fun c =>
        { (if c = 1 then poissonCell 2 0 else poissonCell 0 (1 / 2)) with typ := if c = 1 then 0 else 1 }))).2 = true := by decide +kernel
  rw [ht] at z1
  refine ⟨s, x, y, z, h1, fun i c e hc => ?_, x1, y1, z1, .step (.refl y) z1, ?_, ?_⟩
  · rw [h2.sys.owner] at e
    rw [access_data (h3 i c e), if_neg (by simpa using hc)]
    rfl
  · rw [access_data (y2.copied.own 0 1 o1)]; decide +kernel
  · rw [access_data (z2.copied.own 0 1 o1)]; decide +kernel

end Dccrg
