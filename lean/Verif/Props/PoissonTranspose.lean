import Verif.Props.PoissonExact
import Verif.Props.Chosen
import Verif.Props.Everything
/-!
# C126: the transpose of the matrix in the Poisson test
-/
namespace Dccrg
open Cfg
variable {n : Nat} {W : Type} {g : Cfg} {w : Owner n} {s : Sys n PoissonCell W} {dflt : PoissonCell} {maxTag : Nat}
  {F : Nat → PoissonCell} {nb : Nat → List NbrInfo} {T : Nat → Nat}

/-- transpose(A) . u in a cell. -/
def appliedAT (nb : Nat → List NbrInfo) (F : Nat → PoissonCell) (u : PoissonCell → Rat) (c : Nat) : Rat :=
  (F c).scale * u (F c) + ((nb c).map fun y => nbrWeight (F y.1).f (-y.2.1) y.2.2 * u (F y.1)).sum

theorem timesAT_applied (u : PoissonCell → Rat) (c : Nat) :
    timesAT u (F c) ((nb c).map fun y => (F y.1, y.2)) = appliedAT nb F u c := by
  unfold timesAT appliedAT
  rw [foldl_add_sum (fun y : PoissonCell × Int × Int => nbrWeight y.1.f (-y.2.1) y.2.2 * u y.1), List.map_map]
  rfl

/-- Terms which change sign from one side of a face to the other sum up to zero. -/
theorem faces_cancel (hw : g.WF) (h : Reachable g dflt maxTag s) (hi : Inv g w s) {V : Nat → Nat → Int → Rat}
    (hV : ∀ c b k, V b c (-k) = -V c b k) :
    (((List.range (g.last + 1)).filter (exist w)).map fun c => ((faceList g (exist w) c).map fun f => V c f.1 f.2).sum).sum = 0 := by
  have hcells := cells_spec hw h hi
  obtain ⟨a1, a2⟩ := allFaces_spec hw hi hcells (F := fun _ c => faceList g (exist w) c)
    (fun i c hc => ⟨_, (faceList_spec hw hi (exist_of (((hcells i).2 c).1 hc))).1, List.Perm.refl _⟩)
  have h1 := sum_allFaces (fun i => getCells g i (s i) [] false defaultId false) (fun _ c => faceList g (exist w) c) V
  have hp : ((List.range (g.last + 1)).filter (exist w)).Perm
      ((List.finRange n).flatMap fun i => getCells g i (s i) [] false defaultId false) := by
    refine (List.perm_ext_iff_of_nodup (List.nodup_range.filter _) (allCells_spec hw h hi).1).2 fun c => ?_
    rw [(allCells_spec hw h hi).2, List.mem_filter, List.mem_range]
    refine ⟨fun h => h.2, fun hc => ⟨?_, hc⟩⟩
    have := (hi.sys.tiled.valid c hc).2
    omega
  rw [sum_perm (hp.map _), List.map_flatMap, sum_flatMap, ← h1]
  refine sum_antisymm a1 otherSide_otherSide (otherSide_mem hw hi a2) ?_
  rintro ⟨c, b, k⟩ -
  exact hV c b k

theorem rat_sum_mul {α : Type} (a : Rat) (f : α → Rat) (l : List α) : (l.map fun x => a * f x).sum = a * (l.map f).sum := by
  induction l with
  | nil => simp
  | cons x l ih => simp only [List.map_cons, List.sum_cons, ih]; grind

theorem gAdjoint (hw : g.WF) (h : Reachable g dflt maxTag s) (hi : Inv g w s)
    (hT : ∀ c, exist w c = true → (F c).typ = finalType g (exist w) T c)
    (hz : ∀ c, exist w c = true → (F c).typ = 0 → ∀ y ∈ solveNbrs g (exist w) T c, (F y.1).typ ≠ 0 → (F y.1).p0 = 0 ∧ (F y.1).p1 = 0)
    (hl : ∀ c, exist w c = true → (F c).typ = 0 → ∀ y ∈ solveNbrs g (exist w) T c, (F y.1).typ = 0 → y.2.2 = 0) :
    gSum g (exist w) false (fun c => c.p1 * c.ap) (passed (solveNbrs g (exist w) T) (fun c l => { c with ap := timesA (·.p0) c l }) F) =
    gSum g (exist w) false (fun c => c.p0 * c.ap) (passed (solveNbrs g (exist w) T) (fun c l => { c with ap := timesAT (·.p1) c l }) F) := by
  let V : Nat → Nat → Int → Rat := fun c b k => if (F c).typ = 0 ∧ (F b).typ = 0 then
    (F c).p1 * ((F c).f k * (F b).p0) - (F c).p0 * ((F b).f (-k) * (F b).p1) else 0
  have hV : ∀ c b k, V b c (-k) = -V c b k := by
    intro c b k
    simp only [V]
    by_cases h1 : (F c).typ = 0 <;> by_cases h2 : (F b).typ = 0 <;> simp only [h1, h2, and_self, and_false, false_and, if_true, if_false, Int.neg_neg]
    all_goals grind
  have h0 := faces_cancel hw h hi hV
  have hc : ∀ c ∈ (List.range (g.last + 1)).filter (exist w),
      (if ((passed (solveNbrs g (exist w) T) (fun c l => { c with ap := timesA (·.p0) c l }) F) c).typ = 0 ∨
          (false = true ∧ ((passed (solveNbrs g (exist w) T) (fun c l => { c with ap := timesA (·.p0) c l }) F) c).typ ≠ 2) then
        (fun c : PoissonCell => c.p1 * c.ap) ((passed (solveNbrs g (exist w) T) (fun c l => { c with ap := timesA (·.p0) c l }) F) c) else 0) =
      (if ((passed (solveNbrs g (exist w) T) (fun c l => { c with ap := timesAT (·.p1) c l }) F) c).typ = 0 ∨
          (false = true ∧ ((passed (solveNbrs g (exist w) T) (fun c l => { c with ap := timesAT (·.p1) c l }) F) c).typ ≠ 2) then
        (fun c : PoissonCell => c.p0 * c.ap) ((passed (solveNbrs g (exist w) T) (fun c l => { c with ap := timesAT (·.p1) c l }) F) c) else 0) +
      ((faceList g (exist w) c).map fun f => V c f.1 f.2).sum := by
    intro c hc
    have he := (List.mem_filter.1 hc).2
    by_cases ht : (F c).typ = 0
    · rw [passed_zero ht, passed_zero ht, timesA_applied, timesAT_applied, if_pos (.inl ht), if_pos (.inl ht)]
      show (F c).p1 * appliedA _ F (·.p0) c = (F c).p0 * appliedAT _ F (·.p1) c + _
      unfold appliedA appliedAT
      have hT0 : T c = 0 := by
        rw [hT c he] at ht
        unfold finalType at ht
        split at ht
        · cases ht
        · exact ht
      have e : ((faceList g (exist w) c).map fun f => V c f.1 f.2).sum =
          ((solveNbrs g (exist w) T c).map fun y => (F c).p1 * (nbrWeight (F c).f y.2.1 y.2.2 * (F y.1).p0) -
            (F c).p0 * (nbrWeight (F y.1).f (-y.2.1) y.2.2 * (F y.1).p1)).sum := by
        unfold solveNbrs
        rw [List.map_map, sum_filter]
        congr 1
        refine List.map_congr_left fun y hy => ?_
        show V c y.1 y.2 = if usedNbr (T c) (T y.1) = true then _ else _
        have hm : usedNbr (T c) (T y.1) = true → (y.1, y.2, relLevel g c y.1) ∈ solveNbrs g (exist w) T c := fun hu =>
          List.mem_map.2 ⟨y, List.mem_filter.2 ⟨hy, hu⟩, rfl⟩
        obtain ⟨l1, -, -⟩ := faceList_linked hw h hi he hy
        by_cases hu : usedNbr (T c) (T y.1) = true
        · rw [if_pos hu]
          show (if _ then _ else _) = _ * (nbrWeight _ y.2 (relLevel g c y.1) * _) - _ * (nbrWeight _ (-y.2) (relLevel g c y.1) * _)
          by_cases hy0 : (F y.1).typ = 0
          · have : relLevel g c y.1 = 0 := hl c he ht _ (hm hu) hy0
            rw [if_pos ⟨ht, hy0⟩, this]
            rfl
          · obtain ⟨z0, z1⟩ : (F y.1).p0 = 0 ∧ (F y.1).p1 = 0 := hz c he ht _ (hm hu) hy0
            rw [if_neg (fun e => hy0 e.2), z0, z1]
            grind
        · rw [if_neg hu]
          refine if_neg fun e => ?_
          have h2 : T y.1 = 2 := by
            unfold usedNbr at hu
            rw [hT0] at hu
            simpa using hu
          have := e.2
          rw [hT _ l1] at this
          unfold finalType at this
          split at this
          · cases this
          · rw [h2] at this; cases this
      rw [e]
      have e2 : ((solveNbrs g (exist w) T c).map fun y => (F c).p1 * (nbrWeight (F c).f y.2.1 y.2.2 * (F y.1).p0) -
            (F c).p0 * (nbrWeight (F y.1).f (-y.2.1) y.2.2 * (F y.1).p1)).sum =
          (F c).p1 * ((solveNbrs g (exist w) T c).map fun y => nbrWeight (F c).f y.2.1 y.2.2 * (F y.1).p0).sum +
          (-(F c).p0) * ((solveNbrs g (exist w) T c).map fun y => nbrWeight (F y.1).f (-y.2.1) y.2.2 * (F y.1).p1).sum := by
        rw [← rat_sum_mul, ← rat_sum_mul, ← rat_sum_add]
        congr 1
        refine List.map_congr_left fun y _ => ?_
        grind
      rw [e2]
      simp only
      grind
    · have e1 : ∀ P, passed (solveNbrs g (exist w) T) P F c = F c := fun P => if_neg ht
      rw [e1, e1]
      simp only [Bool.false_eq_true, false_and, or_false, ht, if_false]
      have : ((faceList g (exist w) c).map fun f => V c f.1 f.2) = (faceList g (exist w) c).map fun _ => 0 :=
        List.map_congr_left fun y _ => if_neg fun e => ht e.1
      rw [this]
      generalize faceList g (exist w) c = l
      induction l with
      | nil => simp only [List.map_nil, List.sum_nil]; grind
      | cons y l ih => rw [List.map_cons, List.sum_cons]; grind
  unfold gSum
  rw [List.map_congr_left hc, rat_sum_add, h0, Rat.add_zero]

/-- C126: the product with the transpose in the solver is that of the transpose of its matrix: after any number of iterations
p1 . (A . p0) is equal to p0 . (transpose(A) . p1), if face neighbors that are solved have the same size and search directions were zero
in cells that are not solved when the solver was started. `C126_false` without the former. -/
theorem C126_transpose_partial (hw : g.WF) (hn : 0 < n) (h : Reachable g dflt maxTag s) (len : Nat → V3 Rat) (a : PParams)
    (cells skip : Fin n → List Nat)
    (hp : ∀ i c, (s i).owner c = some i → c ∉ cells i → (access (s i) c).map (fun d => (d.p0, d.p1)) = some (0, 0))
    (hl : ∀ i j c b l k, (s i).owner c = some i → (s j).owner b = some j → c ∈ cells i → b ∈ cells j →
      faceNeighbors g (exist (s i).owner) c = .ok l → (b, k) ∈ l → g.lvl c = g.lvl b) {x y z}
    (h1 : cacheSystem g maxTag len cells skip s = .ok x) (h2 : startPoisson g maxTag x = .ok y) (h3 : Iterates g maxTag a y z) :
    ∃ s1 s2 s3 d, updatePoisson g maxTag .solving z.sys = .ok s1 ∧
      solveCells (fun c l => { c with ap := timesA (·.p0) c l }) z.info s1 = .ok s2 ∧
      solveCells (fun c l => { c with ap := timesAT (·.p1) c l }) z.info s1 = .ok s3 ∧
      globalSum false (fun c => c.p1 * c.ap) z.info s2 = .ok d ∧ globalSum false (fun c => c.p0 * c.ap) z.info s3 = .ok d := by
  obtain ⟨w, hi⟩ := h.inv hw hn
  have own : ∀ i c, w c = some i → (s i).data c = some ((fun c => (((w c).bind fun i => (s i).data c).getD dflt)) c) := by
    intro i c e
    have := (hi.access_own e).2
    show _ = some (((w c).bind fun i => (s i).data c).getD dflt)
    rw [e]
    show _ = some (((s i).data c).getD dflt)
    cases hx : (s i).data c with
    | none => exact absurd hx this
    | some x => rfl
  generalize (fun c => (((w c).bind fun i => (s i).data c).getD dflt)) = F at own
  obtain ⟨x', x1, x2, x3⟩ := cacheSystem_spec hw hn h hi own len cells skip
  rw [h1] at x1
  injection x1 with x1
  subst x1
  obtain ⟨y', y1, y2⟩ := startPoisson_solves hw hn x2 x3 fun c _ => cachedField_typ ..
  rw [h2] at y1
  injection y1 with y1
  subst y1
  have hTs : ∀ c, exist w c = true → typeOf w cells skip c = 0 → ∃ i, w c = some i ∧ c ∈ cells i := by
    intro c hc ht
    obtain ⟨i, hi'⟩ := Option.isSome_iff_exists.1 hc
    refine ⟨i, hi', ?_⟩
    unfold typeOf at ht
    rw [hi'] at ht
    simp only at ht
    by_cases hm : c ∈ cells i
    · exact hm
    · rw [if_neg hm] at ht
      split at ht <;> cases ht
  have hTn : ∀ i c, w c = some i → c ∈ cells i → typeOf w cells skip c = 0 := by
    intro i c e hm
    unfold typeOf
    rw [e]
    exact if_pos hm
  generalize typeOf w cells skip = T at *
  have key : ∃ G, Solves g dflt maxTag w (finalType g (exist w) T) (solveNbrs g (exist w) T) z G ∧
      SolveKept (cachedField g (exist w) len T fun c => { F c with typ := T c }) G.F := by
    clear h2
    induction h3 with
    | refl => exact ⟨_, y2, passed_kept fun _ _ => ⟨rfl, rfl⟩⟩
    | step _ hs ih =>
      obtain ⟨G, g1, g2⟩ := ih
      obtain ⟨z', z1, z2⟩ := poissonIter_solves hw hn a g1
      rw [hs] at z1
      injection z1 with z1
      obtain ⟨e1, e2⟩ := Prod.mk.inj z1
      subst e1
      exact ⟨_, z2, g2.trans (gIter_kept _ _ _)⟩
  obtain ⟨G, g1, g2⟩ := key
  obtain ⟨s1, a1, a2⟩ := near_update hw hn g1.copied .solving (v' := pView) (by
    intro x y e
    exact congrArg (fun f => (f, x.p0, x.p1)) e)
  have u1 : Uses pView fun c l => { c with ap := timesA (·.p0) c l } :=
    ⟨fun c l l' e => by rw [timesA_only (v := pView) _ ⟨fun y => y.2.1, fun _ => rfl⟩ c e], fun _ _ => rfl, fun _ _ => rfl⟩
  have u2 : Uses pView fun c l => { c with ap := timesAT (·.p1) c l } :=
    ⟨fun c l l' e => by
      rw [timesAT_only (v := pView) _ ⟨fun y => y.2.2, fun _ => rfl⟩ ⟨fun y => y.1, fun _ => rfl⟩ c e], fun _ _ => rfl, fun _ _ => rfl⟩
  obtain ⟨s2, b1, b2⟩ := near_pass hw hn g1.cached g1.typ u1 a2
  obtain ⟨s3, c1, c2⟩ := near_pass hw hn g1.cached g1.typ u2 a2
  refine ⟨s1, s2, s3, _, a1, b1, c1, near_sum g1.cached (fun c e => (passed_typ u1 c).trans (g1.typ c e)) b2 .., ?_⟩
  rw [near_sum g1.cached (fun c e => (passed_typ u2 c).trans (g1.typ c e)) c2]
  congr 1
  have ft : ∀ c, exist w c = true → (G.F c).typ = 0 → T c = 0 := by
    intro c hc ht
    rw [g1.typ c hc] at ht
    unfold finalType at ht
    split at ht
    · cases ht
    · exact ht
  refine (gAdjoint hw h hi g1.typ (fun c hc ht y hy hty => ?_) (fun c hc ht y hy hty => ?_)).symm
  · obtain ⟨u, hu, rfl⟩ := List.mem_map.1 hy
    obtain ⟨hu, hus⟩ := List.mem_filter.1 hu
    obtain ⟨l1, -, l3⟩ := faceList_linked hw h hi hc hu
    have hc0 := ft c hc ht
    have h0 : T u.1 ≠ 0 := by
      intro h0
      refine hty ?_
      rw [g1.typ _ l1]
      unfold finalType
      rw [if_neg, h0]
      intro he
      have : (c, -u.2, relLevel g u.1 c) ∈ solveNbrs g (exist w) T u.1 :=
        List.mem_map.2 ⟨(c, -u.2), List.mem_filter.2 ⟨l3, by show usedNbr (T u.1) (T c) = true; rw [h0, hc0]; rfl⟩, rfl⟩
      rw [he] at this; cases this
    obtain ⟨i, hi'⟩ := Option.isSome_iff_exists.1 l1
    have := hp i u.1 (by rw [hi.sys.owner]; exact hi') fun hm => h0 (hTn i _ hi' hm)
    rw [access_data (own i _ hi')] at this
    injection this with this
    obtain ⟨p0, p1⟩ := Prod.mk.inj this
    rw [g2.rest u.1 (by rw [← g2.typ]; exact hty)]
    unfold cachedField
    split
    · exact ⟨p0, p1⟩
    · split <;> exact ⟨p0, p1⟩
  · obtain ⟨u, hu, rfl⟩ := List.mem_map.1 hy
    obtain ⟨hu, hus⟩ := List.mem_filter.1 hu
    obtain ⟨l1, -, -⟩ := faceList_linked hw h hi hc hu
    obtain ⟨i, i1, i2⟩ := hTs c hc (ft c hc ht)
    obtain ⟨j, j1, j2⟩ := hTs u.1 l1 (ft _ l1 hty)
    have := hl i j c u.1 _ u.2 (by rw [hi.sys.owner]; exact i1) (by rw [hi.sys.owner]; exact j1) i2 j2
      (by rw [hi.sys.owner]; exact (faceList_spec hw hi hc).1) hu
    show relLevel g c u.1 = 0
    unfold relLevel
    rw [this, if_neg (Nat.lt_irrefl _), if_neg (Nat.lt_irrefl _)]

/-! ## Witnesses -/

/-- The first cell of the demo refined. -/
def halfE : Nat → Bool := fun c => decide (c ∈ 2 :: tinyG.children 1)

theorem halfE_tiled : Tiled tinyG halfE := tiled_of tiny_wf (by decide +kernel)

theorem halfE_balanced : BalancedFor tinyG halfE (hoodOf tinyG) := by
  have : ∀ c, halfE c = true → tinyG.lvl c ≤ 1 := by
    intro c hc
    have hc := of_decide_eq_true hc
    have : ∀ c ∈ 2 :: tinyG.children 1, tinyG.lvl c ≤ 1 := by decide +kernel
    exact this c hc
  intro a b ha hb _ _ _
  have h1 := this a ha
  have h2 := this b hb
  omega

/-- Hypotheses of `C39_face_sizes` are met by a grid in which one of two cells has been refined: the other cell has four smaller neighbors on one
side. -/
example : Tiled tinyG halfE ∧ BalancedFor tinyG halfE (hoodOf tinyG) ∧ halfE 2 = true ∧ ∃ l, faceNeighbors tinyG halfE 2 = .ok l ∧
    l.filter (fun y => decide (y.2 = dirOf 0 false)) = [(4, -1), (8, -1), (12, -1), (16, -1)] ∧
    l.filter (fun y => decide (y.2 = dirOf 0 true)) = [] ∧ l.filter (fun y => decide (y.2 = dirOf 2 true)) = [(2, 3)] :=
  ⟨halfE_tiled, halfE_balanced, by decide +kernel, _, rfl, by decide +kernel, by decide +kernel, by decide +kernel⟩

/-- A grid of one process with a refined cell and any data. -/
theorem halfDemo_start (F : Nat → PoissonCell) : ∃ (s : Sys 1 PoissonCell Nat) (w : Owner 1),
    Reachable tinyG (poissonCell 0 0) 146 s ∧ Inv tinyG w s ∧ exist w = halfE ∧ ∀ i c, w c = some i → (s i).data c = some (F c) := by
  obtain ⟨s, h1, hx, hy⟩ := createGrid_spec (n := 1) (W := Nat) (maxTag := 146) tiny_wf (by decide) (poissonCell 0 0)
    (fitsTags_mono (by rw [tiny_last]; exact Nat.le_refl _)
      (fitsTags_last (createLevel0_tiled tiny_wf (by decide)).valid))
  obtain ⟨ops, s', o1, o2, o3⟩ := C113_any_partial tiny_wf (by decide) (by rw [tiny_last]; exact Nat.le_refl _) (.init h1) (fun _ h => h)
    halfE_tiled halfE_balanced
  have hr : Reachable tinyG (poissonCell 0 0) 146 s' := run_reachable (.init h1) (fun op ho _ => by have := o1 op ho; cases op <;> first | trivial | exact this.elim) o2
  have hr' : Reachable tinyG (poissonCell 0 0) 146 fun i => { s' i with data := fun c => ((s' i).data c).map fun _ => F c } :=
    reachable_data tiny_wf hr (fun i => rfl) fun i c => by
      show (((s' i).data c).map fun _ => F c).isSome = _
      rw [Option.isSome_map]
  obtain ⟨w, hi⟩ := hr.inv tiny_wf (by decide)
  refine ⟨_, w, hr', inv_of tiny_wf (by decide) hr' fun i => hi.sys.owner i, ?_, fun i c hc => ?_⟩
  · funext c
    rw [← o3 0 c, hi.sys.owner]
  · show ((s' i).data c).map _ = _
    obtain ⟨x, e⟩ := Option.ne_none_iff_exists'.1 (hi.access_own hc).2
    rw [e]; rfl

theorem products_eval (hw : g.WF) (hn : 0 < n) (h : Reachable g dflt maxTag s) (hi : Inv g w s)
    (own : ∀ i c, w c = some i → (s i).data c = some (F c)) (len : Nat → V3 Rat) (cells skip : Fin n → List Nat) :
    ∃ x y s1 s2 s3, cacheSystem g maxTag len cells skip s = .ok x ∧ startPoisson g maxTag x = .ok y ∧
      updatePoisson g maxTag .solving y.sys = .ok s1 ∧
      solveCells (fun c l => { c with ap := timesA (·.p0) c l }) y.info s1 = .ok s2 ∧
      solveCells (fun c l => { c with ap := timesAT (·.p1) c l }) y.info s1 = .ok s3 ∧
      globalSum false (fun c => c.p1 * c.ap) y.info s2 = .ok (gSum g (exist w) false (fun c => c.p1 * c.ap)
        (passed (solveNbrs g (exist w) (typeOf w cells skip)) (fun c l => { c with ap := timesA (·.p0) c l })
          (passed (solveNbrs g (exist w) (typeOf w cells skip)) startSolve
            (cachedField g (exist w) len (typeOf w cells skip) fun c => { F c with typ := typeOf w cells skip c })))) ∧
      globalSum false (fun c => c.p0 * c.ap) y.info s3 = .ok (gSum g (exist w) false (fun c => c.p0 * c.ap)
        (passed (solveNbrs g (exist w) (typeOf w cells skip)) (fun c l => { c with ap := timesAT (·.p1) c l })
          (passed (solveNbrs g (exist w) (typeOf w cells skip)) startSolve
            (cachedField g (exist w) len (typeOf w cells skip) fun c => { F c with typ := typeOf w cells skip c })))) := by
  obtain ⟨x, x1, x2, x3⟩ := cacheSystem_spec hw hn h hi own len cells skip
  obtain ⟨y, y1, g1⟩ := startPoisson_solves hw hn x2 x3 fun c _ => cachedField_typ ..
  obtain ⟨s1, a1, a2⟩ := near_update hw hn g1.copied .solving (v' := pView) (by
    intro x y e
    exact congrArg (fun f => (f, x.p0, x.p1)) e)
  have u1 : Uses pView fun c l => { c with ap := timesA (·.p0) c l } :=
    ⟨fun c l l' e => by rw [timesA_only (v := pView) _ ⟨fun y => y.2.1, fun _ => rfl⟩ c e], fun _ _ => rfl, fun _ _ => rfl⟩
  have u2 : Uses pView fun c l => { c with ap := timesAT (·.p1) c l } :=
    ⟨fun c l l' e => by
      rw [timesAT_only (v := pView) _ ⟨fun y => y.2.2, fun _ => rfl⟩ ⟨fun y => y.1, fun _ => rfl⟩ c e], fun _ _ => rfl, fun _ _ => rfl⟩
  obtain ⟨s2, b1, b2⟩ := near_pass hw hn g1.cached g1.typ u1 a2
  obtain ⟨s3, c1, c2⟩ := near_pass hw hn g1.cached g1.typ u2 a2
  exact ⟨x, y, s1, s2, s3, x1, y1, a1, b1, c1, near_sum g1.cached (fun c e => (passed_typ u1 c).trans (g1.typ c e)) b2 ..,
    near_sum g1.cached (fun c e => (passed_typ u2 c).trans (g1.typ c e)) c2 ..⟩

/-- Hypotheses of `C126_transpose_partial` are met by a grid of two cells on two processes, where both products are -1. -/
example : ∃ (s : Sys 2 PoissonCell Nat) (x : Sys 2 PoissonCell Nat × (Fin 2 → List (Nat × List NbrInfo))) (y : PState 2 Nat)
      (s1 s2 s3 : Sys 2 PoissonCell Nat),
    Reachable tinyG (poissonCell 0 0) 146 s ∧
    (∀ i c, (s i).owner c = some i → c ∉ [1, 2] → (access (s i) c).map (fun d => (d.p0, d.p1)) = some (0, 0)) ∧
    (∀ i j c b l k, (s i).owner c = some i → (s j).owner b = some j → c ∈ [1, 2] → b ∈ [1, 2] →
      faceNeighbors tinyG (exist (s i).owner) c = .ok l → (b, k) ∈ l → tinyG.lvl c = tinyG.lvl b) ∧
    cacheSystem tinyG 146 (fun _ _ => 1) (fun _ => [1, 2]) (fun _ => []) s = .ok x ∧ startPoisson tinyG 146 x = .ok y ∧
    updatePoisson tinyG 146 .solving y.sys = .ok s1 ∧
    solveCells (fun c l => { c with ap := timesA (·.p0) c l }) y.info s1 = .ok s2 ∧
    solveCells (fun c l => { c with ap := timesAT (·.p1) c l }) y.info s1 = .ok s3 ∧
    globalSum false (fun c => c.p1 * c.ap) y.info s2 = .ok (-1) ∧ globalSum false (fun c => c.p0 * c.ap) y.info s3 = .ok (-1) := by
  obtain ⟨s, h1, h2, h3⟩ := poissonDemo_start (n := 2) (by decide) fun c => poissonCell (if c = 1 then 1 else 2) 0
  obtain ⟨x, y, s1, s2, s3, x1, x2, x3, x4, x5, x6, x7⟩ := products_eval tiny_wf (by decide) h1 h2 h3 (fun _ _ => 1) (fun _ => [1, 2]) (fun _ => [])
  rw [demo_exist (by decide), demo_all] at x6 x7
  refine ⟨s, x, y, s1, s2, s3, h1, fun i c e hc => ?_, fun i j c b l k _ _ hc hb _ _ => ?_, x1, x2, x3, x4, x5, ?_, ?_⟩
  · rw [h2.sys.owner] at e
    have he := exist_of e
    rw [demo_exist (by decide), decide_eq_true_eq] at he
    exact absurd (by simp only [List.mem_cons, List.not_mem_nil, or_false]; omega) hc
  · have : ∀ c ∈ [1, 2], ∀ b ∈ [1, 2], tinyG.lvl c = tinyG.lvl b := by decide +kernel
    exact this c hc b hb
  · rw [x6]; congr 1; decide +kernel
  · rw [x7]; congr 1; decide +kernel

/-- Lengths of cells of the demo with a refined cell. -/
def halfLen : Nat → V3 Rat := fun c _ => if c = 2 then 1 else 1 / 2

/-- C126: the product with the transpose is not that of the transpose of the matrix of the solver if neighbors are of different size: factors
between the same cells are different in the two products. Here all cells are solved, search directions were zero, and after the start
p1 . (A . p0) = 0 but p0 . (transpose(A) . p1) = -64 / 35. -/
theorem C126_false : ∃ (s : Sys 1 PoissonCell Nat) (x : Sys 1 PoissonCell Nat × (Fin 1 → List (Nat × List NbrInfo))) (y : PState 1 Nat)
      (s1 s2 s3 : Sys 1 PoissonCell Nat),
    Reachable tinyG (poissonCell 0 0) 146 s ∧ (∀ i c, (s i).owner c = some i → c ∈ 2 :: tinyG.children 1) ∧
    cacheSystem tinyG 146 halfLen (fun _ => 2 :: tinyG.children 1) (fun _ => []) s = .ok x ∧ startPoisson tinyG 146 x = .ok y ∧
    updatePoisson tinyG 146 .solving y.sys = .ok s1 ∧
    solveCells (fun c l => { c with ap := timesA (·.p0) c l }) y.info s1 = .ok s2 ∧
    solveCells (fun c l => { c with ap := timesAT (·.p1) c l }) y.info s1 = .ok s3 ∧
    globalSum false (fun c => c.p1 * c.ap) y.info s2 = .ok 0 ∧ globalSum false (fun c => c.p0 * c.ap) y.info s3 = .ok (-64 / 35) := by
  obtain ⟨s, w, h1, h2, h0, h3⟩ := halfDemo_start fun _ => poissonCell 1 0
  obtain ⟨x, y, s1, s2, s3, x1, x2, x3, x4, x5, x6, x7⟩ := products_eval tiny_wf (by decide) h1 h2 h3 halfLen (fun _ => 2 :: tinyG.children 1) (fun _ => [])
  have hT : typeOf w (fun _ => 2 :: tinyG.children 1) (fun _ => []) = fun c => if halfE c then 0 else 1 := by
    funext c
    unfold typeOf
    rw [← h0]
    cases hc : w c with
    | none => simp [exist, hc]
    | some i =>
      have : halfE c = true := by rw [← h0]; exact exist_of hc
      have : c ∈ 2 :: tinyG.children 1 := of_decide_eq_true this
      simp [exist, hc, this]
  rw [h0, hT] at x6 x7
  refine ⟨s, x, y, s1, s2, s3, h1, fun i c e => ?_, x1, x2, x3, x4, x5, ?_, ?_⟩
  · rw [h2.sys.owner] at e
    have he := exist_of e
    rw [h0] at he
    exact of_decide_eq_true he
  · rw [x6]; congr 1; decide +kernel
  · rw [x7]; congr 1; decide +kernel

end Dccrg
