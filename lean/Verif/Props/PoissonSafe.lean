import Verif.PoissonSafe
import Verif.Props.PoissonLaplace
/-!
# C128: the other solver of the Poisson test
-/
namespace Dccrg
open Cfg
variable {n : Nat} {W : Type} {g : Cfg} {w : Owner n} {s : Sys n PoissonCell W} {dflt : PoissonCell} {maxTag : Nat}
  {F : Nat → PoissonCell} {nb : Nat → List NbrInfo} {T : Nat → Nat} {info : Fin n → List (Nat × List NbrInfo)}

/-! ## Positive lengths -/

theorem offset_pos {len : Nat → V3 Rat} {c : Nat} {l : List NbrInfo} (hc : ∀ d, 0 < len c d) (hl : ∀ y ∈ l, ∀ d, 0 < len y.1 d) (k : Int) :
    ∃ X : Rat, 0 < X ∧ nbrOffset len c l k = signOf k * X := by
  unfold nbrOffset
  have key : ∀ (o : Int → Rat), (∃ X : Rat, 0 < X ∧ o k = signOf k * X) → ∃ X : Rat, 0 < X ∧
      l.foldl (fun o y k => if k = y.2.1 then signOf k * (len c (dimOf k) / 2 + len y.1 (dimOf k) / 2) else o k) o k = signOf k * X := by
    induction l with
    | nil => exact fun o h => h
    | cons y l ih =>
      intro o h
      rw [List.foldl_cons]
      refine ih (fun z hz => hl z (List.mem_cons_of_mem _ hz)) _ ?_
      by_cases e : k = y.2.1
      · refine ⟨len c (dimOf k) / 2 + len y.1 (dimOf k) / 2, ?_, if_pos e⟩
        have h1 := hc (dimOf k)
        have h2 := hl y List.mem_cons_self (dimOf k)
        grind
      · obtain ⟨X, h1, h2⟩ := h
        exact ⟨X, h1, by rw [if_neg e]; exact h2⟩
  refine key _ ⟨len c (dimOf k), hc _, ?_⟩
  grind

theorem factor_nonneg {len : Nat → V3 Rat} {c : Nat} {l : List NbrInfo} (hc : ∀ d, 0 < len c d) (hl : ∀ y ∈ l, ∀ d, 0 < len y.1 d)
    (d : Fin 3) (pos : Bool) : 0 ≤ nbrFactor len c l (dirOf d pos) ∧
      ((l.any fun y => decide (y.2.1 = dirOf d pos)) = true → 0 < nbrFactor len c l (dirOf d pos)) := by
  obtain ⟨e1, e2, e3, e4⟩ := dim_dir d pos
  have p1 := (dim_dir d true).2.1
  have p2 := (dim_dir d false).2.1
  have key : (l.any fun y => decide (y.2.1 = dirOf d pos)) = true → 0 < nbrFactor len c l (dirOf d pos) := by
    intro h
    unfold nbrFactor
    rw [if_pos h, e4, e3]
    obtain ⟨X, x1, x2⟩ := offset_pos hc hl (dirOf d pos)
    obtain ⟨Y, y1, y2⟩ := offset_pos hc hl (dirOf d true)
    obtain ⟨Z, z1, z2⟩ := offset_pos hc hl (dirOf d false)
    rw [x2, y2, z2, e2, p1, p2]
    have hpos : 0 < X * (Y + Z) := Rat.mul_pos x1 (by grind)
    have : (if pos = true then (1 : Rat) else -1) * 2 / ((if pos = true then (1 : Rat) else -1) * X * ((if true = true then (1 : Rat) else -1) * Y -
        (if false = true then (1 : Rat) else -1) * Z)) = 2 * (X * (Y + Z))⁻¹ := by
      cases pos
      · simp only [Bool.false_eq_true, if_false, if_true]
        have : (-1 * X * (1 * Y - -1 * Z) : Rat) = -(X * (Y + Z)) := by grind
        rw [this]
        grind
      · simp only [Bool.false_eq_true, if_false, if_true]
        have : (1 * X * (1 * Y - -1 * Z) : Rat) = X * (Y + Z) := by grind
        rw [this]
        grind
    rw [this]
    exact Rat.mul_pos (by decide +kernel) (Rat.inv_pos.2 hpos)
  refine ⟨?_, key⟩
  by_cases h : (l.any fun y => decide (y.2.1 = dirOf d pos)) = true
  · exact Rat.le_of_lt (key h)
  · unfold nbrFactor
    rw [if_neg h]
    exact Rat.le_refl

theorem scale_neg {len : Nat → V3 Rat} {c : Nat} {l : List NbrInfo} (hc : ∀ d, 0 < len c d) (hl : ∀ y ∈ l, ∀ d, 0 < len y.1 d)
    (h : ∃ y ∈ l, ∃ d pos, y.2.1 = dirOf d pos) (a : PoissonCell) : (setFactors len c l a).scale < 0 := by
  show -nbrFactor len c l (dirOf 0 true) - nbrFactor len c l (dirOf 0 false) -
    nbrFactor len c l (dirOf 1 true) - nbrFactor len c l (dirOf 1 false) -
    nbrFactor len c l (dirOf 2 true) - nbrFactor len c l (dirOf 2 false) < 0
  obtain ⟨y, hy, d, pos, e⟩ := h
  have hp := (factor_nonneg hc hl d pos).2 (List.any_eq_true.2 ⟨y, hy, decide_eq_true e⟩)
  have h0 := (factor_nonneg hc hl 0 true).1
  have h1 := (factor_nonneg hc hl 0 false).1
  have h2 := (factor_nonneg hc hl 1 true).1
  have h3 := (factor_nonneg hc hl 1 false).1
  have h4 := (factor_nonneg hc hl 2 true).1
  have h5 := (factor_nonneg hc hl 2 false).1
  revert hp
  revert d
  rw [forall_fin3]
  cases pos <;> refine ⟨fun _ hp => ?_, fun _ hp => ?_, fun _ hp => ?_⟩ <;> grind

/-! ## The solver on all cells -/

/-- One iteration. -/
def gSafeIter (g : Cfg) (E : Nat → Bool) (nb : Nat → List NbrInfo) (F : Nat → PoissonCell) : (Nat → PoissonCell) × Rat :=
  (passed nb (fun a _ => { a with sol := a.best }) (passed nb safeNext F), gSum g E false (fun a => (a.sol - a.best).abs) (passed nb safeNext F))

/-- Iterations. -/
def gSafeLoop (g : Cfg) (E : Nat → Bool) (nb : Nat → List NbrInfo) (stop : Rat) : Nat → (Nat → PoissonCell) → Option Rat → (Nat → PoissonCell) × Option Rat
  | 0, F, r => (F, r)
  | k + 1, F, r =>
    if r.all fun r => decide (stop < r) then gSafeLoop g E nb stop k (gSafeIter g E nb F).1 (some (gSafeIter g E nb F).2) else (F, r)

theorem safeFold {l : List (Nat × List NbrInfo)} {p : Proc n PoissonCell W}
    (h : ∀ x ∈ l, ∀ a, access p x.1 = some a → a.typ = 0 → a.scale ≠ 0) :
    Out.fold safeCell l p = Out.fold (solveCell safeNext) l p := by
  induction l generalizing p with
  | nil => rfl
  | cons x l ih =>
    have h0 : safeCell x p = solveCell safeNext x p := by
      unfold safeCell solveCell
      cases ha : access p x.1 with
      | none => rfl
      | some a =>
        simp only
        by_cases ht : a.typ ≠ 0
        · rw [if_pos ht, if_pos ht]
        · rw [if_neg ht, if_neg ht, if_neg (h x List.mem_cons_self a ha (by simpa using ht))]
    unfold Out.fold
    rw [h0]
    cases hq : solveCell safeNext x p with
    | ok q =>
      simp only
      refine ih fun y hy b hb ht => ?_
      unfold solveCell at hq
      cases ha : access p x.1 with
      | none => rw [ha] at hq; cases hq
      | some a =>
        rw [ha] at hq
        simp only at hq
        split at hq
        · injection hq with hq
          subst hq
          exact h y (List.mem_cons_of_mem _ hy) b hb ht
        · obtain ⟨m, m1, m2⟩ := Out.bind_inv hq
          injection m2 with m2
          subst m2
          rw [access_write ha] at hb
          split at hb
          · injection hb with hb
            subst hb
            exact h x List.mem_cons_self a ha ht
          · exact h y (List.mem_cons_of_mem _ hy) b hb ht
    | throws => rfl
    | hangs => rfl
    | undef => rfl

theorem safeNext_uses : Uses (fun a : PoissonCell => (a.f, a.sol)) safeNext := by
  refine ⟨fun a l l' e => ?_, fun _ _ => rfl, fun _ _ => rfl⟩
  have : ∀ l : List (PoissonCell × Int × Int), l.foldl (fun r y => r + -1 / a.scale * nbrWeight a.f y.2.1 y.2.2 * y.1.sol) (-(-1 / a.scale) * a.rhs) =
      (l.map fun y => ((y.1.f, y.1.sol), y.2)).foldl (fun r y => r + -1 / a.scale * nbrWeight a.f y.2.1 y.2.2 * y.1.2) (-(-1 / a.scale) * a.rhs) := by
    intro l
    rw [List.foldl_map]
  unfold safeNext
  simp only
  rw [this l, this l', e]

/-- Factors of cells to solve are not zero. -/
def Scaled (w : Owner n) (F : Nat → PoissonCell) : Prop := ∀ c, exist w c = true → (F c).typ = 0 → (F c).scale ≠ 0

theorem safeIter_spec (hw : g.WF) (hn : 0 < n) (hcp : Copied g dflt maxTag w (·.f) F s) (hc : Cached g w T nb info)
    (hT : ∀ c, exist w c = true → (F c).typ = T c) (hS : Scaled w F) :
    ∃ t, safeIter g maxTag info s = .ok (t, (gSafeIter g (exist w) nb F).2) ∧ Copied g dflt maxTag w (·.f) (gSafeIter g (exist w) nb F).1 t ∧
      (∀ c, exist w c = true → ((gSafeIter g (exist w) nb F).1 c).typ = T c) ∧ Scaled w (gSafeIter g (exist w) nb F).1 := by
  obtain ⟨s1, a1, a2⟩ := near_update hw hn hcp .init (v' := fun a => (a.f, a.sol)) (by
    intro x y e
    exact congrArg (fun f => (f, x.sol)) e)
  obtain ⟨s2, b1, b2⟩ := near_pass hw hn hc hT safeNext_uses a2
  have hT2 := fun c e => (passed_typ (nb := nb) (F := F) safeNext_uses c).trans (hT c e)
  have u : Uses (fun a : PoissonCell => a.f) fun a _ => { a with sol := a.best } := ⟨fun _ _ _ _ => rfl, fun _ _ => rfl, fun _ _ => rfl⟩
  obtain ⟨s3, c1, c2⟩ := near_pass hw hn hc hT2 u (b2.weaken fun x y e => (Prod.mk.inj e).1)
  refine ⟨s3, ?_, c2, fun c e => (passed_typ (nb := nb) u c).trans (hT2 c e), fun c e ht => ?_⟩
  · unfold safeIter
    have : (Out.collect fun i => Out.fold safeCell (info i) (s1 i)) = solveCells safeNext info s1 := by
      unfold solveCells
      congr 1
      funext i
      refine safeFold fun x hx a ha ht => ?_
      have := (hc.cells i x.1).1 (List.mem_map_of_mem hx)
      rw [access_data (a2.own i _ this.1)] at ha
      injection ha with ha
      subst ha
      exact hS x.1 (exist_of this.1) ht
    rw [a1, Out.bind_ok, this, b1, Out.bind_ok, near_sum hc hT2 b2, Out.bind_ok, c1]
    rfl
  · have e2 : ((gSafeIter g (exist w) nb F).1 c).scale = (F c).scale := by
      unfold gSafeIter passed
      simp only
      split <;> first | rfl | (split <;> rfl)
    rw [e2]
    refine hS c e ?_
    rw [← ht]
    exact ((passed_typ (nb := nb) u c).trans (passed_typ safeNext_uses c)).symm

theorem safeLoop_spec (hw : g.WF) (hn : 0 < n) (hcp : Copied g dflt maxTag w (·.f) F s) (hc : Cached g w T nb info)
    (hT : ∀ c, exist w c = true → (F c).typ = T c) (hS : Scaled w F) (stop : Rat) (k : Nat) (r : Option Rat) :
    ∃ t, safeLoop g maxTag stop info k s r = .ok (t, (gSafeLoop g (exist w) nb stop k F r).2) ∧
      Copied g dflt maxTag w (·.f) (gSafeLoop g (exist w) nb stop k F r).1 t := by
  induction k generalizing s F r with
  | zero => exact ⟨s, rfl, hcp⟩
  | succ k ih =>
    unfold safeLoop gSafeLoop
    split
    · obtain ⟨t, t1, t2, t3, t4⟩ := safeIter_spec hw hn hcp hc hT hS
      rw [t1, Out.bind_ok]
      exact ih t2 t3 t4 _
    · exact ⟨s, rfl, hcp⟩

theorem cached_scaled (hw : g.WF) (h : Reachable g dflt maxTag s) (hi : Inv g w s) {len : Nat → V3 Rat}
    (hlen : ∀ c, exist w c = true → ∀ d, 0 < len c d) (T : Nat → Nat) (F : Nat → PoissonCell) :
    Scaled w (cachedField g (exist w) len T fun c => { F c with typ := T c }) := by
  intro c hc ht
  rw [cachedField_typ] at ht
  unfold finalType at ht
  split at ht
  · cases ht
  rename_i hne
  have he : cachedField g (exist w) len T (fun c => { F c with typ := T c }) c = setFactors len c (solveNbrs g (exist w) T c) { F c with typ := T c } := by
    unfold cachedField
    rw [if_neg (by rw [ht]; decide), if_neg hne]
  rw [he]
  have mem : ∀ y ∈ solveNbrs g (exist w) T c, exist w y.1 = true ∧ ∃ d pos, y.2.1 = dirOf d pos := by
    intro y hy
    obtain ⟨u, hu, rfl⟩ := List.mem_map.1 hy
    obtain ⟨k1, d, pos, k2, -⟩ := ((faceList_spec hw hi hc).2.2 u.1 u.2).1 (List.mem_filter.1 hu).1
    exact ⟨k1, d, pos, k2⟩
  obtain ⟨y, l, e⟩ := List.exists_cons_of_ne_nil hne
  have hy : y ∈ solveNbrs g (exist w) T c := by rw [e]; exact List.mem_cons_self
  have := scale_neg (hlen c hc) (fun y hy => hlen y.1 (mem y hy).1) ⟨y, hy, (mem y hy).2⟩ { F c with typ := T c }
  intro h0
  rw [h0] at this
  exact absurd this (by decide)

/-- `solve_failsafe` on all cells. -/
def gSafe (g : Cfg) (E : Nat → Bool) (len : Nat → V3 Rat) (a : PParams) (T : Nat → Nat) (F : Nat → PoissonCell) : (Nat → PoissonCell) × Option Rat :=
  gSafeLoop g E (solveNbrs g E T) a.stopRes a.maxIter (cachedField g E len T fun c => { F c with typ := T c }) none

theorem poissonSafe_holds (hw : g.WF) (hn : 0 < n) (h : Reachable g dflt maxTag s) (hi : Inv g w s)
    (hF : ∀ i c, w c = some i → (s i).data c = some (F c)) (len : Nat → V3 Rat) (hlen : ∀ c, exist w c = true → ∀ d, 0 < len c d) (a : PParams)
    (cells skip : Fin n → List Nat) :
    ∃ t, poissonSafe g maxTag len a cells skip s = .ok (t, (gSafe g (exist w) len a (typeOf w cells skip) F).2) ∧ Reachable g dflt maxTag t ∧ Inv g w t ∧
      ∀ i c, w c = some i → (t i).data c = some ((gSafe g (exist w) len a (typeOf w cells skip) F).1 c) := by
  obtain ⟨x, x1, x2, x3⟩ := cacheSystem_spec hw hn h hi hF len cells skip
  obtain ⟨t, t1, t2⟩ := safeLoop_spec hw hn x2 x3 (fun c _ => cachedField_typ ..) (cached_scaled hw h hi hlen _ _) a.stopRes a.maxIter none
  refine ⟨t, ?_, t2.reach, t2.inv, t2.own⟩
  unfold poissonSafe
  rw [x1, Out.bind_ok]
  exact t1

/-- C128: if lengths of cells are positive then `solve_failsafe` succeeds, and its results and the last norm do not depend on the number of processes nor
on which cells they have. -/
theorem C128_same_results {n' : Nat} {W' : Type} {dflt' : PoissonCell} {maxTag' : Nat} {s' : Sys n' PoissonCell W'} (hw : g.WF)
    (hn : 0 < n) (hn' : 0 < n') (h : Reachable g dflt maxTag s) (h' : Reachable g dflt' maxTag' s') (hs : SameData s s')
    (len : Nat → V3 Rat) (hlen : ∀ i c, (s i).owner c = some i → ∀ d, 0 < len c d) (a : PParams)
    {cells skip : Fin n → List Nat} {cells' skip' : Fin n' → List Nat}
    (hc : ∀ i j c, (s i).owner c = some i → (s' j).owner c = some j →
      (c ∈ cells i ↔ c ∈ cells' j) ∧ (c ∈ skip i ↔ c ∈ skip' j)) :
    ∃ t t' r, poissonSafe g maxTag len a cells skip s = .ok (t, r) ∧ poissonSafe g maxTag' len a cells' skip' s' = .ok (t', r) ∧
      Reachable g dflt maxTag t ∧ Reachable g dflt' maxTag' t' ∧ SameData t t' := by
  obtain ⟨w, w', F, hi, hi', hE, hT, own, own'⟩ := same_field hw hn hn' h h' hs hc
  have hl : ∀ c, exist w c = true → ∀ d, 0 < len c d := by
    intro c hc
    obtain ⟨i, e⟩ := Option.isSome_iff_exists.1 hc
    exact hlen i c (by rw [hi.sys.owner]; exact e)
  obtain ⟨t, t1, t2, t3, t4⟩ := poissonSafe_holds hw hn h hi own len hl a cells skip
  obtain ⟨t', t1', t2', t3', t4'⟩ := poissonSafe_holds hw hn' h' hi' own' len (by rw [← hE]; exact hl) a cells' skip'
  rw [← hE, ← hT] at t1' t4'
  refine ⟨t, t', _, t1, t1', t2, t2', fun i j c => ?_, fun i j c e e' => ?_⟩
  · rw [t3.sys.owner, t3'.sys.owner, hE]
  · rw [t3.sys.owner] at e
    rw [t3'.sys.owner] at e'
    rw [(t3.access_own e).1, (t3'.access_own e').1, t4 i c e, t4' j c e']

/-! ## The equation -/

theorem sum_mul_rat {α : Type} (k : α → Rat) (a : Rat) (l : List α) : (l.map fun y => a * k y).sum = a * (l.map k).sum := by
  induction l with
  | nil => simp
  | cons y l ih => simp only [List.map_cons, List.sum_cons, ih]; grind

theorem sum_nonneg_rat {α : Type} {k : α → Rat} {l : List α} (h : ∀ x ∈ l, 0 ≤ k x) : 0 ≤ (l.map k).sum := by
  induction l with
  | nil => exact Rat.le_refl
  | cons y l ih =>
    rw [List.map_cons, List.sum_cons]
    have := h y List.mem_cons_self
    have := ih fun x hx => h x (List.mem_cons_of_mem _ hx)
    grind

theorem sum_zero_rat {α : Type} {k : α → Rat} {l : List α} (h : ∀ x ∈ l, 0 ≤ k x) : (l.map k).sum = 0 ↔ ∀ x ∈ l, k x = 0 := by
  induction l with
  | nil => simp
  | cons y l ih =>
    rw [List.map_cons, List.sum_cons]
    have h1 := h y List.mem_cons_self
    have h2 := sum_nonneg_rat fun x hx => h x (List.mem_cons_of_mem _ hx)
    have h3 := ih fun x hx => h x (List.mem_cons_of_mem _ hx)
    constructor
    · intro e x hx
      have e1 : k y = 0 := by grind
      have e2 : (l.map k).sum = 0 := by grind
      rcases List.mem_cons.1 hx with rfl | hx
      · exact e1
      · exact h3.1 e2 x hx
    · intro e
      rw [e y List.mem_cons_self, h3.2 fun x hx => e x (List.mem_cons_of_mem _ hx)]
      exact Rat.add_zero 0

/-- The next solution of a cell is the current one if and only if its equation holds. -/
theorem safeNext_fixed {c : Nat} (hs : (F c).scale ≠ 0) :
    (safeNext (F c) ((nb c).map fun y => (F y.1, y.2))).best = (F c).sol ↔ (F c).rhs = appliedA nb F (·.sol) c := by
  have e : (safeNext (F c) ((nb c).map fun y => (F y.1, y.2))).best =
      -(-1 / (F c).scale) * (F c).rhs + -1 / (F c).scale * ((nb c).map fun y => nbrWeight (F c).f y.2.1 y.2.2 * (F y.1).sol).sum := by
    unfold safeNext
    simp only
    rw [foldl_add_sum (fun y : PoissonCell × Int × Int => -1 / (F c).scale * nbrWeight (F c).f y.2.1 y.2.2 * y.1.sol), List.map_map, ← sum_mul_rat]
    congr 2
    refine List.map_congr_left fun y _ => ?_
    simp only [Function.comp_apply]
    grind
  rw [e]
  unfold appliedA
  generalize ((nb c).map fun y => nbrWeight (F c).f y.2.1 y.2.2 * (F y.1).sol).sum = S
  constructor <;> intro h <;> grind

/-- What iterations do not change. -/
structure SafeKept (F F' : Nat → PoissonCell) : Prop where
  f : ∀ c, (F' c).f = (F c).f
  scale : ∀ c, (F' c).scale = (F c).scale
  rhs : ∀ c, (F' c).rhs = (F c).rhs
  typ : ∀ c, (F' c).typ = (F c).typ
  rest : ∀ c, (F c).typ ≠ 0 → F' c = F c

theorem SafeKept.refl (F : Nat → PoissonCell) : SafeKept F F :=
  ⟨fun _ => rfl, fun _ => rfl, fun _ => rfl, fun _ => rfl, fun _ _ => rfl⟩

theorem SafeKept.trans {F F' F'' : Nat → PoissonCell} (h : SafeKept F F') (h' : SafeKept F' F'') : SafeKept F F'' :=
  ⟨fun c => (h'.f c).trans (h.f c), fun c => (h'.scale c).trans (h.scale c), fun c => (h'.rhs c).trans (h.rhs c),
    fun c => (h'.typ c).trans (h.typ c), fun c e => (h'.rest c (by rw [h.typ]; exact e)).trans (h.rest c e)⟩

theorem gSafeIter_cell (g : Cfg) (E : Nat → Bool) (nb : Nat → List NbrInfo) (F : Nat → PoissonCell) (c : Nat) :
    (gSafeIter g E nb F).1 c = if (F c).typ = 0 then
      { F c with best := (safeNext (F c) ((nb c).map fun y => (F y.1, y.2))).best, sol := (safeNext (F c) ((nb c).map fun y => (F y.1, y.2))).best }
      else F c := by
  unfold gSafeIter
  by_cases h : (F c).typ = 0
  · rw [if_pos h]
    dsimp only
    rw [passed_zero (by rw [passed_zero h]; exact h), passed_zero h]
    rfl
  · rw [if_neg h]
    dsimp only
    have e : passed nb safeNext F c = F c := if_neg h
    have e2 : passed nb (fun a _ => { a with sol := a.best }) (passed nb safeNext F) c = passed nb safeNext F c := if_neg (by rw [e]; exact h)
    rw [e2, e]

theorem gSafeIter_kept (g : Cfg) (E : Nat → Bool) (nb : Nat → List NbrInfo) (F : Nat → PoissonCell) : SafeKept F (gSafeIter g E nb F).1 := by
  refine ⟨fun c => ?_, fun c => ?_, fun c => ?_, fun c => ?_, fun c h => ?_⟩ <;> rw [gSafeIter_cell]
  · split <;> rfl
  · split <;> rfl
  · split <;> rfl
  · split <;> rfl
  · rw [if_neg h]

/-- The equation holds in every cell to solve. -/
def Fixed (E : Nat → Bool) (nb : Nat → List NbrInfo) (F : Nat → PoissonCell) : Prop :=
  ∀ c, E c = true → (F c).typ = 0 → (F c).rhs = appliedA nb F (·.sol) c

theorem gSafeIter_zero {E : Nat → Bool} (hE : ∀ c, E c = true → c ≤ g.last) (hS : ∀ c, E c = true → (F c).typ = 0 → (F c).scale ≠ 0) :
    (gSafeIter g E nb F).2 = 0 ↔ Fixed E nb F := by
  unfold gSafeIter
  dsimp only
  unfold gSum
  rw [sum_zero_rat (by
    intro x _
    split
    · exact Rat.abs_nonneg
    · exact Rat.le_refl)]
  constructor
  · intro h c hc ht
    have := h c (List.mem_filter.2 ⟨List.mem_range.2 (Nat.lt_succ_of_le (hE c hc)), hc⟩)
    rw [passed_zero ht] at this
    have e : (safeNext (F c) ((nb c).map fun y => (F y.1, y.2))).typ = 0 := ht
    rw [if_pos (Or.inl e)] at this
    have e2 : (safeNext (F c) ((nb c).map fun y => (F y.1, y.2))).sol = (F c).sol := rfl
    rw [Rat.abs_eq_zero_iff, e2] at this
    exact (safeNext_fixed (hS c hc ht)).1 (by grind)
  · intro h c hc
    have hc := (List.mem_filter.1 hc).2
    by_cases ht : (F c).typ = 0
    · rw [passed_zero ht]
      have e2 : (safeNext (F c) ((nb c).map fun y => (F y.1, y.2))).sol = (F c).sol := rfl
      dsimp only
      rw [e2, (safeNext_fixed (hS c hc ht)).2 (h c hc ht)]
      split
      · rw [Rat.abs_eq_zero_iff]; grind
      · rfl
    · have e : passed nb safeNext F c = F c := if_neg ht
      rw [e, if_neg (by simp [ht])]

theorem gSafeIter_fixed {E : Nat → Bool} (hnb : ∀ c, E c = true → ∀ y ∈ nb c, E y.1 = true)
    (hS : ∀ c, E c = true → (F c).typ = 0 → (F c).scale ≠ 0) (hx : Fixed E nb F) :
    (∀ c, E c = true → ((gSafeIter g E nb F).1 c).sol = (F c).sol) ∧ Fixed E nb (gSafeIter g E nb F).1 := by
  have hk := gSafeIter_kept g E nb F
  have hsol : ∀ c, E c = true → ((gSafeIter g E nb F).1 c).sol = (F c).sol := by
    intro c hc
    rw [gSafeIter_cell]
    split
    · rename_i ht
      exact (safeNext_fixed (hS c hc ht)).2 (hx c hc ht)
    · rfl
  refine ⟨hsol, fun c hc ht => ?_⟩
  rw [hk.typ] at ht
  rw [hk.rhs, hx c hc ht]
  unfold appliedA
  simp only
  rw [hk.f, hk.scale, hsol c hc]
  congr 2
  exact List.map_congr_left fun y hy => by rw [hsol y.1 (hnb c hc y hy)]

theorem gSafeLoop_kept (g : Cfg) (E : Nat → Bool) (nb : Nat → List NbrInfo) (stop : Rat) (k : Nat) (F : Nat → PoissonCell) (r : Option Rat) :
    SafeKept F (gSafeLoop g E nb stop k F r).1 := by
  induction k generalizing F r with
  | zero => exact .refl F
  | succ k ih =>
    unfold gSafeLoop
    split
    · exact (gSafeIter_kept g E nb F).trans (ih _ _)
    · exact .refl F

theorem gSafeLoop_zero {E : Nat → Bool} (hE : ∀ c, E c = true → c ≤ g.last) (hnb : ∀ c, E c = true → ∀ y ∈ nb c, E y.1 = true)
    (hS : ∀ c, E c = true → (F c).typ = 0 → (F c).scale ≠ 0) {stop : Rat} {k : Nat} {r : Option Rat} (hr : r = some 0 → Fixed E nb F)
    (h : (gSafeLoop g E nb stop k F r).2 = some 0) : Fixed E nb (gSafeLoop g E nb stop k F r).1 := by
  induction k generalizing F r with
  | zero => exact hr h
  | succ k ih =>
    unfold gSafeLoop at h ⊢
    split
    · rename_i hc
      rw [if_pos hc] at h
      have hk := gSafeIter_kept g E nb F
      refine ih (fun c hc ht => by rw [hk.scale]; exact hS c hc (by rw [← hk.typ]; exact ht)) (fun e => ?_) h
      injection e with e
      exact (gSafeIter_fixed hnb hS ((gSafeIter_zero hE hS).1 e)).2
    · rename_i hc
      rw [if_neg hc] at h
      exact hr h

theorem gSafeLoop_fixed {E : Nat → Bool} (hE : ∀ c, E c = true → c ≤ g.last) (hnb : ∀ c, E c = true → ∀ y ∈ nb c, E y.1 = true)
    (hS : ∀ c, E c = true → (F c).typ = 0 → (F c).scale ≠ 0) (hx : Fixed E nb F) (stop : Rat) (k : Nat) (r : Option Rat) :
    (∀ c, E c = true → ((gSafeLoop g E nb stop k F r).1 c).sol = (F c).sol) ∧
      ((r = none ∧ 0 < k ∨ r = some 0) → (gSafeLoop g E nb stop k F r).2 = some 0) := by
  induction k generalizing F r with
  | zero =>
    refine ⟨fun _ _ => rfl, fun h => ?_⟩
    rcases h with h | h
    · exact absurd h.2 (Nat.lt_irrefl _)
    · exact h
  | succ k ih =>
    unfold gSafeLoop
    split
    · have hk := gSafeIter_kept g E nb F
      obtain ⟨f1, f2⟩ := gSafeIter_fixed (g := g) hnb hS hx
      obtain ⟨k1, k2⟩ := ih (fun c hc ht => by rw [hk.scale]; exact hS c hc (by rw [← hk.typ]; exact ht)) f2 (some (gSafeIter g E nb F).2)
      refine ⟨fun c hc => (k1 c hc).trans (f1 c hc), fun _ => k2 (Or.inr ?_)⟩
      rw [(gSafeIter_zero hE hS).2 hx]
    · rename_i hc
      refine ⟨fun _ _ => rfl, fun h => ?_⟩
      rcases h with ⟨rfl, -⟩ | h
      · exact absurd rfl hc
      · exact h

theorem field_of (hi : Inv g w s) (dflt : PoissonCell) : ∃ F : Nat → PoissonCell, ∀ i c, w c = some i → (s i).data c = some (F c) := by
  refine ⟨fun c => ((w c).bind fun i => (s i).data c).getD dflt, fun i c e => ?_⟩
  have := (hi.access_own e).2
  show _ = some (((w c).bind fun i => (s i).data c).getD dflt)
  rw [e]
  show _ = some (((s i).data c).getD dflt)
  cases hx : (s i).data c with
  | none => exact absurd hx this
  | some x => rfl

theorem solveNbrs_exist (hw : g.WF) (hi : Inv g w s) {T : Nat → Nat} {c : Nat} (hc : exist w c = true) :
    ∀ y ∈ solveNbrs g (exist w) T c, exist w y.1 = true := by
  intro y hy
  obtain ⟨u, hu, rfl⟩ := List.mem_map.1 hy
  exact (((faceList_spec hw hi hc).2.2 u.1 u.2).1 (List.mem_filter.1 hu).1).1

theorem solAt_eq {t : Sys n PoissonCell W} (hi : Inv g w t) {G : Nat → PoissonCell} (own : ∀ i c, w c = some i → (t i).data c = some (G c)) (i : Fin n) (c : Nat) :
    solAt t i c = if exist w c = true then (G c).sol else 0 := by
  unfold solAt
  rw [hi.sys.owner]
  cases e : w c with
  | none => rw [if_neg (by unfold exist; rw [e]; exact Bool.false_ne_true)]
  | some j =>
    simp only
    rw [if_pos (exist_of e), access_data (own j c e)]
    rfl

/-- C128: if nothing was changed in the last iteration of `solve_failsafe`, its norm was zero, then the equation holds in every cell that was solved: the right
hand side is the sum of second differences of the solution, with means as in C127 and under the same assumptions. -/
theorem C128_exact (hw : g.WF) (hn : 0 < n) (h : Reachable g dflt maxTag s) (len : Nat → V3 Rat)
    (hlen : ∀ i c, (s i).owner c = some i → ∀ d, 0 < len c d) (a : PParams) (cells skip : Fin n → List Nat) {t : Sys n PoissonCell W}
    (h1 : poissonSafe g maxTag len a cells skip s = .ok (t, some 0)) (i : Fin n) (c : Nat) (hc : (s i).owner c = some i) (hcc : c ∈ cells i) :
    ∃ N : Fin 3 → Bool → List Nat,
      (∀ d pos, (N d pos).Nodup ∧
        ∀ b, b ∈ N d pos ↔ exist (s i).owner b = true ∧ FaceCell g c d pos b ∧ ¬Skipped s cells skip b) ∧
      ((∃ d pos, N d pos ≠ []) →
        (∀ d pos b b', exist (s i).owner b = true → FaceCell g c d pos b → exist (s i).owner b' = true → FaceCell g c d pos b' →
          (Skipped s cells skip b ↔ Skipped s cells skip b') ∧ len b d = len b' d) →
        (access (t i) c).map (·.rhs) = some (laplacian len (solAt t i) c N) ∧ (access (t i) c).map (·.rhs) = (access (s i) c).map (·.rhs)) := by
  obtain ⟨w, hi⟩ := h.inv hw hn
  obtain ⟨F, own⟩ := field_of hi dflt
  have hl : ∀ c, exist w c = true → ∀ d, 0 < len c d := by
    intro c hc
    obtain ⟨i, e⟩ := Option.isSome_iff_exists.1 hc
    exact hlen i c (by rw [hi.sys.owner]; exact e)
  obtain ⟨t', t1, t2, t3, t4⟩ := poissonSafe_holds hw hn h hi own len hl a cells skip
  rw [t1] at h1
  injection h1 with h1
  obtain ⟨rfl, h2⟩ := Prod.mk.inj h1
  have hk : SafeKept _ (gSafe g (exist w) len a (typeOf w cells skip) F).1 := gSafeLoop_kept ..
  have hf : Fixed (exist w) _ (gSafe g (exist w) len a (typeOf w cells skip) F).1 :=
    gSafeLoop_zero (fun c hc => (hi.sys.tiled.valid c hc).2) (fun c hc => solveNbrs_exist hw hi hc) (cached_scaled hw h hi hl _ _) (fun e => by cases e) h2
  obtain ⟨N, n1, -, n2⟩ := applied_face hw h hi len cells skip (fun c => ⟨hk.f c, hk.scale c⟩) t3 t4 i c hc hcc
  refine ⟨N, n1, fun hne hg => ?_⟩
  obtain ⟨k1, k2, k3⟩ := n2 hne hg
  rw [hi.sys.owner] at hc
  rw [access_data (t4 i c hc), access_data (own i c hc)]
  have e := hf c (exist_of hc) (by rw [hk.typ, cachedField_typ]; exact k1)
  refine ⟨?_, ?_⟩
  · rw [← k3, ← e]
    rfl
  · simp only [Option.map_some]
    rw [hk.rhs]
    unfold cachedField
    split
    · rfl
    · split <;> rfl

/-- C128: if the equation holds for the given solution in every cell to solve then `solve_failsafe` does not change the solution in any cell, and the norm is zero
if there is at least one iteration. -/
theorem C128_kept (hw : g.WF) (hn : 0 < n) (h : Reachable g dflt maxTag s) (len : Nat → V3 Rat)
    (hlen : ∀ i c, (s i).owner c = some i → ∀ d, 0 < len c d) (a : PParams) (cells skip : Fin n → List Nat)
    (hg : ∀ i c, (s i).owner c = some i → c ∈ cells i → ∀ d pos b b', exist (s i).owner b = true → FaceCell g c d pos b →
      exist (s i).owner b' = true → FaceCell g c d pos b' → (Skipped s cells skip b ↔ Skipped s cells skip b') ∧ len b d = len b' d)
    (heq : ∀ i c, (s i).owner c = some i → c ∈ cells i → ∀ N : Fin 3 → Bool → List Nat,
      (∀ d pos, (N d pos).Nodup ∧ ∀ b, b ∈ N d pos ↔ exist (s i).owner b = true ∧ FaceCell g c d pos b ∧ ¬Skipped s cells skip b) →
      (∃ d pos, N d pos ≠ []) → (access (s i) c).map (·.rhs) = some (laplacian len (solAt s i) c N)) :
    ∃ t r, poissonSafe g maxTag len a cells skip s = .ok (t, r) ∧ Reachable g dflt maxTag t ∧ (0 < a.maxIter → r = some 0) ∧
      ∀ i c, (t i).owner c = (s i).owner c ∧ solAt t i c = solAt s i c := by
  obtain ⟨w, hi⟩ := h.inv hw hn
  obtain ⟨F, own⟩ := field_of hi dflt
  have hl : ∀ c, exist w c = true → ∀ d, 0 < len c d := by
    intro c hc
    obtain ⟨i, e⟩ := Option.isSome_iff_exists.1 hc
    exact hlen i c (by rw [hi.sys.owner]; exact e)
  obtain ⟨t, t1, t2, t3, t4⟩ := poissonSafe_holds hw hn h hi own len hl a cells skip
  obtain ⟨x, x1, x2, x3⟩ := cacheSystem_spec hw hn h hi own len cells skip
  have hcs : ∀ c, (cachedField g (exist w) len (typeOf w cells skip) (fun c => { F c with typ := typeOf w cells skip c }) c).sol = (F c).sol ∧
      (cachedField g (exist w) len (typeOf w cells skip) (fun c => { F c with typ := typeOf w cells skip c }) c).rhs = (F c).rhs := by
    intro c
    unfold cachedField
    split
    · exact ⟨rfl, rfl⟩
    · split <;> exact ⟨rfl, rfl⟩
  have hsx : ∀ i, solAt x.1 i = solAt s i := by
    intro i
    funext c
    rw [solAt_eq x2.inv x2.own, solAt_eq hi own, (hcs c).1]
  have hf : Fixed (exist w) (solveNbrs g (exist w) (typeOf w cells skip))
      (cachedField g (exist w) len (typeOf w cells skip) fun c => { F c with typ := typeOf w cells skip c }) := by
    intro c hc ht
    rw [cachedField_typ] at ht
    obtain ⟨i, e⟩ := Option.isSome_iff_exists.1 hc
    have hcc : c ∈ cells i := by
      unfold finalType at ht
      split at ht
      · cases ht
      · unfold typeOf at ht
        rw [e] at ht
        simp only at ht
        split at ht
        · assumption
        · split at ht <;> cases ht
    have e' : (s i).owner c = some i := by rw [hi.sys.owner]; exact e
    obtain ⟨N, n1, n2, n3⟩ := applied_face hw h hi len cells skip (fun c => ⟨rfl, rfl⟩) x2.inv x2.own i c e' hcc
    have q := heq i c e' hcc N n1 (n2 ht)
    rw [(n3 (n2 ht) (hg i c e' hcc)).2.2, hsx, (hcs c).2]
    rw [access_data (own i c e)] at q
    injection q
  obtain ⟨f1, f2⟩ := gSafeLoop_fixed (g := g) (fun c hc => (hi.sys.tiled.valid c hc).2) (fun c hc => solveNbrs_exist hw hi hc) (cached_scaled hw h hi hl _ _) hf
    a.stopRes a.maxIter none
  refine ⟨t, _, t1, t2, fun h0 => f2 (Or.inl ⟨rfl, h0⟩), fun i c => ⟨by rw [t3.sys.owner, hi.sys.owner], ?_⟩⟩
  rw [solAt_eq t3 t4, solAt_eq hi own]
  split
  · rename_i hc
    exact (f1 c hc).trans (hcs c).1
  · rfl

/-- C128: `solve_failsafe` does not change which process has which cells, right hand sides, nor solutions of cells that are not solved. -/
theorem C128_rest (hw : g.WF) (hn : 0 < n) (h : Reachable g dflt maxTag s) (len : Nat → V3 Rat)
    (hlen : ∀ i c, (s i).owner c = some i → ∀ d, 0 < len c d) (a : PParams) (cells skip : Fin n → List Nat) :
    ∃ t r, poissonSafe g maxTag len a cells skip s = .ok (t, r) ∧ Reachable g dflt maxTag t ∧ ∀ i c, (t i).owner c = (s i).owner c ∧
      ((s i).owner c = some i → (access (t i) c).map (·.rhs) = (access (s i) c).map (·.rhs) ∧
        (c ∉ cells i → (access (t i) c).map (·.sol) = (access (s i) c).map (·.sol))) := by
  obtain ⟨w, hi⟩ := h.inv hw hn
  obtain ⟨F, own⟩ := field_of hi dflt
  have hl : ∀ c, exist w c = true → ∀ d, 0 < len c d := by
    intro c hc
    obtain ⟨i, e⟩ := Option.isSome_iff_exists.1 hc
    exact hlen i c (by rw [hi.sys.owner]; exact e)
  obtain ⟨t, t1, t2, t3, t4⟩ := poissonSafe_holds hw hn h hi own len hl a cells skip
  have hk : SafeKept _ (gSafe g (exist w) len a (typeOf w cells skip) F).1 := gSafeLoop_kept ..
  have hcs : ∀ c, (cachedField g (exist w) len (typeOf w cells skip) (fun c => { F c with typ := typeOf w cells skip c }) c).sol = (F c).sol ∧
      (cachedField g (exist w) len (typeOf w cells skip) (fun c => { F c with typ := typeOf w cells skip c }) c).rhs = (F c).rhs := by
    intro c
    unfold cachedField
    split
    · exact ⟨rfl, rfl⟩
    · split <;> exact ⟨rfl, rfl⟩
  refine ⟨t, _, t1, t2, fun i c => ⟨by rw [t3.sys.owner, hi.sys.owner], fun e => ?_⟩⟩
  rw [hi.sys.owner] at e
  rw [access_data (t4 i c e), access_data (own i c e)]
  simp only [Option.map_some]
  refine ⟨by rw [hk.rhs, (hcs c).2], fun hc => ?_⟩
  rw [hk.rest c ?_, (hcs c).1]
  rw [cachedField_typ]
  unfold finalType
  split
  · decide
  · unfold typeOf
    rw [e]
    simp only
    rw [if_neg hc]
    split <;> decide

/-! ## Witnesses -/

theorem single_list {l l' : List Nat} (h : l.Nodup) (hm : ∀ b, b ∈ l ↔ b ∈ l') (hl : l'.length ≤ 1) : l = l' := by
  match l', hl with
  | [], _ =>
    cases l with
    | nil => rfl
    | cons a l => exact absurd ((hm a).1 List.mem_cons_self) (by simp)
  | [x], _ =>
    have hall : ∀ b ∈ l, b = x := fun b hb => by simpa using (hm b).1 hb
    have hx : x ∈ l := (hm x).2 List.mem_cons_self
    match l, h with
    | [], _ => cases hx
    | [a], _ => rw [hall a List.mem_cons_self]
    | a :: b :: l, h =>
      have e1 := hall a List.mem_cons_self
      have e2 := hall b (List.mem_cons_of_mem _ List.mem_cons_self)
      rw [e1, e2] at h
      simp at h

/-- Hypotheses of theorems are met by a grid of two cells on two processes where the solution is 1/2 in cell 2 and -3/2 in cell 1, which is solved with right
hand side 2. -/
example : ∃ (s t : Sys 2 PoissonCell Nat), Reachable tinyG (poissonCell 0 0) 146 s ∧ (s 0).owner 1 = some 0 ∧ (s 1).owner 2 = some 1 ∧
    (∀ i c, (s i).owner c = some i → c ∈ [1] → ∀ d pos b b', exist (s i).owner b = true → FaceCell tinyG c d pos b →
      exist (s i).owner b' = true → FaceCell tinyG c d pos b' →
      (Skipped s (fun _ => [1]) (fun _ => []) b ↔ Skipped s (fun _ => [1]) (fun _ => []) b') ∧ (1 : Rat) = 1) ∧
    (∀ i c, (s i).owner c = some i → c ∈ [1] → ∀ N : Fin 3 → Bool → List Nat,
      (∀ d pos, (N d pos).Nodup ∧ ∀ b, b ∈ N d pos ↔ exist (s i).owner b = true ∧ FaceCell tinyG c d pos b ∧ ¬Skipped s (fun _ => [1]) (fun _ => []) b) →
      (∃ d pos, N d pos ≠ []) ∧ (access (s i) c).map (·.rhs) = some (laplacian (fun _ _ => 1) (solAt s i) c N)) ∧
    poissonSafe tinyG 146 (fun _ _ => 1) (poissonParams 0) (fun _ => [1]) (fun _ => []) s = .ok (t, some 0) ∧ solAt t 0 1 = -3 / 2 ∧ solAt t 0 2 = 1 / 2 := by
  obtain ⟨s, h1, h2, h3⟩ := poissonDemo_start (n := 2) (by decide) fun c => if c = 1 then poissonCell 2 (-3 / 2) else poissonCell 0 (1 / 2)
  have e1 : (createLevel0 2 2).2 1 = some 0 := by decide
  have e2 : (createLevel0 2 2).2 2 = some 1 := by decide
  have nosk : ∀ b, ¬Skipped s (fun _ => [1]) (fun _ => []) b := by
    rintro b ⟨j, -, -, h⟩
    cases h
  have full := fun d pos => faceDir_full tiny_wf h2.sys.tiled ((balanced_iff tiny_wf h2.sys.tiled).1 h2.sys.balanced).faces (exist_of e1) d pos
  have hg : ∀ i c, (s i).owner c = some i → c ∈ [1] → ∀ d pos b b', exist (s i).owner b = true → FaceCell tinyG c d pos b →
      exist (s i).owner b' = true → FaceCell tinyG c d pos b' →
      (Skipped s (fun _ => [1]) (fun _ => []) b ↔ Skipped s (fun _ => [1]) (fun _ => []) b') ∧ (1 : Rat) = 1 :=
    fun _ _ _ _ _ _ b b' _ _ _ _ => ⟨⟨fun h => absurd h (nosk b), fun h => absurd h (nosk b')⟩, rfl⟩
  have heq : ∀ i c, (s i).owner c = some i → c ∈ [1] → ∀ N : Fin 3 → Bool → List Nat,
      (∀ d pos, (N d pos).Nodup ∧ ∀ b, b ∈ N d pos ↔ exist (s i).owner b = true ∧ FaceCell tinyG c d pos b ∧ ¬Skipped s (fun _ => [1]) (fun _ => []) b) →
      (∃ d pos, N d pos ≠ []) ∧ (access (s i) c).map (·.rhs) = some (laplacian (fun _ _ => 1) (solAt s i) c N) := by
    intro i c hc hcc N hN
    rw [List.mem_singleton] at hcc
    subst hcc
    have hN' : N = faceDir tinyG (fun c => decide (1 ≤ c ∧ c ≤ 2)) 1 := by
      funext d pos
      refine single_list (hN d pos).1 (fun b => ?_) ?_
      · rw [(hN d pos).2 b, ← demo_exist (n := 2) (by decide), (full d pos).2.1 b, h2.sys.owner]
        exact ⟨fun h => ⟨h.1, h.2.1⟩, fun h => ⟨h.1, h.2, nosk b⟩⟩
      · revert d pos
        decide +kernel
    rw [hN']
    rw [h2.sys.owner] at hc
    refine ⟨⟨0, true, by decide +kernel⟩, ?_⟩
    have hsol : solAt s i = fun c => if decide (1 ≤ c ∧ c ≤ 2) = true then ((if c = 1 then poissonCell 2 (-3 / 2) else poissonCell 0 (1 / 2)) : PoissonCell).sol else 0 := by
      funext c
      rw [solAt_eq h2 h3, demo_exist (by decide)]
    rw [hsol, access_data (h3 i 1 hc)]
    decide +kernel
  obtain ⟨t, r, t1, t2, t3, t4⟩ := C128_kept tiny_wf (by decide) h1 (fun _ _ => 1) (fun _ _ _ _ => by decide) (poissonParams 0) (fun _ => [1]) (fun _ => []) hg
    (fun i c hc hcc N hN _ => (heq i c hc hcc N hN).2)
  rw [t3 (by decide)] at t1
  refine ⟨s, t, h1, by rw [h2.sys.owner]; exact e1, by rw [h2.sys.owner]; exact e2, hg, heq, t1, ?_, ?_⟩
  · rw [(t4 0 1).2, solAt_eq h2 h3, demo_exist (by decide)]; decide +kernel
  · rw [(t4 0 2).2, solAt_eq h2 h3, demo_exist (by decide)]; decide +kernel

/-- A grid of two cells without periodic directions. -/
def openPairG : Cfg := { len := v3 2 1 1, maxLvl := 0, periodic := v3 false false false, hood := 1 }

theorem openPair_wf : openPairG.WF := by unfold Cfg.WF; rw [forall_fin3]; decide

theorem openPair_start (F : Nat → PoissonCell) : ∃ s : Sys 2 PoissonCell Nat,
    Reachable openPairG (poissonCell 0 0) 146 s ∧ Inv openPairG (createLevel0 2 2).2 s ∧
    ∀ i c, (createLevel0 2 2).2 c = some i → (s i).data c = some (F c) := by
  have hn : 0 < 2 := by decide
  obtain ⟨s, h1, hx, hy⟩ := createGrid_spec (n := 2) (W := Nat) (maxTag := 146) openPair_wf hn (poissonCell 0 0)
    (fitsTags_mono (by decide) (fitsTags_last (createLevel0_tiled openPair_wf hn).valid))
  have htot : openPairG.total = 2 := by decide
  rw [htot] at hx hy
  have hr : Reachable openPairG (poissonCell 0 0) 146 s := .init h1
  have hr' : Reachable openPairG (poissonCell 0 0) 146 fun i => { s i with data := fun c => ((s i).data c).map fun _ => F c } :=
    reachable_data openPair_wf hr (fun i => rfl) fun i c => by
      show (((s i).data c).map fun _ => F c).isSome = _
      rw [Option.isSome_map]
  refine ⟨_, hr', inv_of openPair_wf hn hr' fun i => hx.owner i, fun i c hc => ?_⟩
  show ((s i).data c).map _ = _
  have hi : Inv openPairG (createLevel0 2 2).2 s := inv_of openPair_wf hn hr hx.owner
  obtain ⟨x, e⟩ := Option.ne_none_iff_exists'.1 (hi.access_own hc).2
  rw [e]; rfl

/-- Cells with solutions `a` and `b` and factors of the grid of two cells. -/
structure Swinging (F : Nat → PoissonCell) (a b : Rat) : Prop where
  typ1 : (F 1).typ = 0
  typ2 : (F 2).typ = 0
  rhs1 : (F 1).rhs = 0
  rhs2 : (F 2).rhs = 0
  scale1 : (F 1).scale = -1
  scale2 : (F 2).scale = -1
  f1 : nbrWeight (F 1).f 1 0 = 1
  f2 : nbrWeight (F 2).f (-1) 0 = 1
  sol1 : (F 1).sol = a
  sol2 : (F 2).sol = b

theorem swing {a b : Rat} {nb : Nat → List NbrInfo} (h1 : nb 1 = [(2, 1, 0)]) (h2 : nb 2 = [(1, -1, 0)]) (h : Swinging F a b) :
    Swinging (gSafeIter openPairG (fun c => decide (1 ≤ c ∧ c ≤ 2)) nb F).1 b a ∧
      (gSafeIter openPairG (fun c => decide (1 ≤ c ∧ c ≤ 2)) nb F).2 = (a - b).abs + (b - a).abs := by
  have b1 : (safeNext (F 1) ((nb 1).map fun y => (F y.1, y.2))).best = b := by
    rw [h1]
    simp only [safeNext, List.map_cons, List.map_nil, List.foldl_cons, List.foldl_nil, h.rhs1, h.scale1, h.f1, h.sol2]
    grind
  have b2 : (safeNext (F 2) ((nb 2).map fun y => (F y.1, y.2))).best = a := by
    rw [h2]
    simp only [safeNext, List.map_cons, List.map_nil, List.foldl_cons, List.foldl_nil, h.rhs2, h.scale2, h.f2, h.sol1]
    grind
  have c1 := gSafeIter_cell openPairG (fun c => decide (1 ≤ c ∧ c ≤ 2)) nb F 1
  have c2 := gSafeIter_cell openPairG (fun c => decide (1 ≤ c ∧ c ≤ 2)) nb F 2
  rw [if_pos h.typ1, b1] at c1
  rw [if_pos h.typ2, b2] at c2
  refine ⟨⟨?_, ?_, ?_, ?_, ?_, ?_, ?_, ?_, ?_, ?_⟩, ?_⟩
  · rw [c1]; exact h.typ1
  · rw [c2]; exact h.typ2
  · rw [c1]; exact h.rhs1
  · rw [c2]; exact h.rhs2
  · rw [c1]; exact h.scale1
  · rw [c2]; exact h.scale2
  · rw [c1]; exact h.f1
  · rw [c2]; exact h.f2
  · rw [c1]
  · rw [c2]
  · have hl : (List.range (openPairG.last + 1)).filter (fun c => decide (1 ≤ c ∧ c ≤ 2)) = [1, 2] := by decide
    unfold gSafeIter gSum
    dsimp only
    rw [hl]
    simp only [List.map_cons, List.map_nil, List.sum_cons, List.sum_nil]
    rw [passed_zero h.typ1, passed_zero h.typ2, b1, b2]
    have t1 : (safeNext (F 1) ((nb 1).map fun y => (F y.1, y.2))).typ = 0 := h.typ1
    have t2 : (safeNext (F 2) ((nb 2).map fun y => (F y.1, y.2))).typ = 0 := h.typ2
    have s1 : (safeNext (F 1) ((nb 1).map fun y => (F y.1, y.2))).sol = a := h.sol1
    have s2 : (safeNext (F 2) ((nb 2).map fun y => (F y.1, y.2))).sol = b := h.sol2
    rw [if_pos (Or.inl t1), if_pos (Or.inl t2), s1, s2]
    grind

theorem swing_loop {nb : Nat → List NbrInfo} (h1 : nb 1 = [(2, 1, 0)]) (h2 : nb 2 = [(1, -1, 0)]) {stop : Rat} (hs : stop < 2) (k : Nat) (a b : Rat)
    (hab : a = 1 ∧ b = 0 ∨ a = 0 ∧ b = 1) (h : Swinging F a b) (r : Option Rat) (hr : r = none ∨ r = some 2) :
    (gSafeLoop openPairG (fun c => decide (1 ≤ c ∧ c ≤ 2)) nb stop k F r).2 = (if k = 0 then r else some 2) ∧
    Swinging (gSafeLoop openPairG (fun c => decide (1 ≤ c ∧ c ≤ 2)) nb stop k F r).1 (if k % 2 = 0 then a else b) (if k % 2 = 0 then b else a) := by
  induction k generalizing F a b r with
  | zero => exact ⟨rfl, h⟩
  | succ k ih =>
    have hc : (r.all fun r => decide (stop < r)) = true := by
      rcases hr with rfl | rfl
      · rfl
      · exact decide_eq_true hs
    unfold gSafeLoop
    rw [if_pos hc]
    obtain ⟨s1, s2⟩ := swing h1 h2 h
    have e : (a - b).abs + (b - a).abs = 2 := by
      rcases hab with ⟨rfl, rfl⟩ | ⟨rfl, rfl⟩ <;> decide +kernel
    rw [s2, e]
    obtain ⟨k1, k2⟩ := ih b a (hab.symm.imp And.symm And.symm) s1 (some 2) (Or.inr rfl)
    refine ⟨?_, ?_⟩
    · rw [k1, if_neg (Nat.succ_ne_zero k)]
      split <;> rfl
    · rcases Nat.mod_two_eq_zero_or_one k with hk | hk
      · rw [if_pos hk, if_pos hk] at k2
        rw [if_neg (by omega), if_neg (by omega)]
        exact k2
      · rw [if_neg (by omega), if_neg (by omega)] at k2
        rw [if_pos (by omega), if_pos (by omega)]
        exact k2

/-- C128: iterations of `solve_failsafe` do not have to converge although there is a solution: in a grid of two cells without a right hand side, which are both
solved from 1 and 0, the solutions are exchanged in every iteration and the norm is always 2. -/
theorem C128_converges_false : ∃ s : Sys 2 PoissonCell Nat, Reachable openPairG (poissonCell 0 0) 146 s ∧
    (∀ i c, (s i).owner c = some i → (c = 1 ∨ c = 2) ∧ access (s i) c = some (poissonCell 0 (if c = 1 then 1 else 0))) ∧
    ∀ a : PParams, 0 < a.maxIter → a.stopRes < 2 →
      ∃ t, poissonSafe openPairG 146 (fun _ _ => 1) a (fun _ => [1, 2]) (fun _ => []) s = .ok (t, some 2) ∧
        solAt t 0 1 = (if a.maxIter % 2 = 0 then 1 else 0) ∧ solAt t 0 2 = (if a.maxIter % 2 = 0 then 0 else 1) := by
  obtain ⟨s, h1, h2, h3⟩ := openPair_start fun c => poissonCell 0 (if c = 1 then 1 else 0)
  refine ⟨s, h1, fun i c e => ?_, fun a ha hs => ?_⟩
  · rw [h2.sys.owner] at e
    have he := exist_of e
    rw [demo_exist (by decide), decide_eq_true_eq] at he
    exact ⟨by omega, access_data (h3 i c e)⟩
  · obtain ⟨t, t1, t2, t3, t4⟩ := poissonSafe_holds openPair_wf (by decide) h1 h2 h3 (fun _ _ => 1) (fun _ _ _ => by decide) a (fun _ => [1, 2]) (fun _ => [])
    have hsw : Swinging (cachedField openPairG (fun c => decide (1 ≤ c ∧ c ≤ 2)) (fun _ _ => 1) (fun c => if c = 1 ∨ c = 2 then 0 else 1) fun c =>
        { poissonCell 0 (if c = 1 then 1 else 0) with typ := if c = 1 ∨ c = 2 then 0 else 1 }) 1 0 := by
      constructor <;> decide +kernel
    obtain ⟨k1, k2⟩ := swing_loop (nb := solveNbrs openPairG (fun c => decide (1 ≤ c ∧ c ≤ 2)) fun c => if c = 1 ∨ c = 2 then 0 else 1)
      (by decide +kernel) (by decide +kernel) hs a.maxIter 1 0 (Or.inl ⟨rfl, rfl⟩) hsw none (Or.inl rfl)
    rw [if_neg (Nat.ne_of_gt ha)] at k1
    have e := t1
    rw [demo_exist (by decide), demo_all] at e
    unfold gSafe at e
    rw [k1] at e
    refine ⟨t, e, ?_, ?_⟩
    · rw [solAt_eq t3 t4, demo_exist (by decide), demo_all]
      exact k2.sol1
    · rw [solAt_eq t3 t4, demo_exist (by decide), demo_all]
      exact k2.sol2

end Dccrg
