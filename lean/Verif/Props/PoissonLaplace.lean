import Verif.Props.PoissonTranspose
/-!
# C127: the equation that the Poisson test solves
-/
namespace Dccrg
open Cfg

/-! ## Specification -/

/-- Mean of values in cells. -/
def faceMean (u : Nat → Rat) (l : List Nat) : Rat := (l.map u).sum / (l.length : Rat)

/-- Distance in dimension `d` between centers of a cell and of cells `l` on the other side of a face, the length of the cell if there are none. -/
def faceGap (len : Nat → V3 Rat) (c : Nat) (d : Fin 3) : List Nat → Rat
  | [] => len c d
  | b :: _ => (len c d + len b d) / 2

/-- Slope of `u` from a cell towards cells `l` on the other side of a face, zero if there are none. -/
def faceSlope (len : Nat → V3 Rat) (u : Nat → Rat) (c : Nat) (d : Fin 3) (l : List Nat) : Rat :=
  if l = [] then 0 else (faceMean u l - u c) / faceGap len c d l

/-- Difference of slopes of `u` on both sides of a cell in dimension `d`, where `N` are cells on the other sides of faces. -/
def secondDiff (len : Nat → V3 Rat) (u : Nat → Rat) (c : Nat) (N : Fin 3 → Bool → List Nat) (d : Fin 3) : Rat :=
  (faceSlope len u c d (N d true) + faceSlope len u c d (N d false)) / ((faceGap len c d (N d true) + faceGap len c d (N d false)) / 2)

/-- Sum of second differences. -/
def laplacian (len : Nat → V3 Rat) (u : Nat → Rat) (c : Nat) (N : Fin 3 → Bool → List Nat) : Rat :=
  secondDiff len u c N 0 + secondDiff len u c N 1 + secondDiff len u c N 2

/-! ## Factors -/

variable {n : Nat} {W : Type} {g : Cfg} {w : Owner n} {s : Sys n PoissonCell W} {dflt : PoissonCell} {maxTag : Nat}
  {F : Nat → PoissonCell}

theorem offset_fold (len : Nat → V3 Rat) (c : Nat) {l : List NbrInfo} {k : Int} {L : Rat}
    (hL : ∀ y ∈ l, y.2.1 = k → len y.1 (dimOf k) = L) (o : Int → Rat) :
    l.foldl (fun o y k => if k = y.2.1 then signOf k * (len c (dimOf k) / 2 + len y.1 (dimOf k) / 2) else o k) o k =
      if (l.any fun y => decide (y.2.1 = k)) = true then signOf k * (len c (dimOf k) / 2 + L / 2) else o k := by
  induction l generalizing o with
  | nil => rfl
  | cons y l ih =>
    rw [List.foldl_cons, ih (fun z hz => hL z (List.mem_cons_of_mem _ hz)), List.any_cons]
    by_cases h : y.2.1 = k
    · simp only [h, decide_true, Bool.true_or, if_true, hL y List.mem_cons_self h]
      split <;> rfl
    · simp only [h, decide_false, Bool.false_or, if_neg (Ne.symm h)]

/-- Neighbors of a cell in lists of its directions. -/
def faceNbrs (g : Cfg) (c : Nat) (N : Fin 3 → Bool → List Nat) : List NbrInfo :=
  [((0 : Fin 3), false), (0, true), (1, false), (1, true), (2, false), (2, true)].flatMap fun x =>
    (N x.1 x.2).map fun b => (b, dirOf x.1 x.2, relLevel g c b)

theorem mem_faceNbrs {c : Nat} {N : Fin 3 → Bool → List Nat} {y : NbrInfo} {d : Fin 3} {pos : Bool} :
    (y ∈ faceNbrs g c N ∧ y.2.1 = dirOf d pos) ↔ ∃ b ∈ N d pos, y = (b, dirOf d pos, relLevel g c b) := by
  unfold faceNbrs
  rw [List.mem_flatMap]
  constructor
  · rintro ⟨⟨⟨d', pos'⟩, -, h⟩, h2⟩
    obtain ⟨b, hb, rfl⟩ := List.mem_map.1 h
    obtain ⟨rfl, rfl⟩ := dirOf_inj h2
    exact ⟨b, hb, rfl⟩
  · rintro ⟨b, hb, rfl⟩
    refine ⟨⟨(d, pos), ?_, List.mem_map.2 ⟨b, hb, rfl⟩⟩, rfl⟩
    have : ∀ (d : Fin 3) (pos : Bool), (d, pos) ∈
      [((0 : Fin 3), false), (0, true), (1, false), (1, true), (2, false), (2, true)] := by decide
    exact this d pos

theorem any_faceNbrs {c : Nat} {N : Fin 3 → Bool → List Nat} (d : Fin 3) (pos : Bool) :
    ((faceNbrs g c N).any fun y => decide (y.2.1 = dirOf d pos)) = true ↔ N d pos ≠ [] := by
  rw [List.any_eq_true]
  constructor
  · rintro ⟨y, h1, h2⟩ he
    obtain ⟨b, hb, -⟩ := mem_faceNbrs.1 ⟨h1, of_decide_eq_true h2⟩
    rw [he] at hb; cases hb
  · intro he
    obtain ⟨b, l, e⟩ := List.exists_cons_of_ne_nil he
    have := (mem_faceNbrs (g := g) (c := c) (N := N) (d := d) (pos := pos)).2 ⟨b, by rw [e]; exact List.mem_cons_self, rfl⟩
    exact ⟨_, this.1, decide_eq_true this.2⟩

theorem dim_dir : ∀ (d : Fin 3) (pos : Bool), dimOf (dirOf d pos) = d ∧ signOf (dirOf d pos) = (if pos then 1 else -1) ∧
    ((dirOf d pos).natAbs : Int) = dirOf d true ∧ -((dirOf d pos).natAbs : Int) = dirOf d false := by decide +kernel

theorem offset_gap {len : Nat → V3 Rat} {c : Nat} {N : Fin 3 → Bool → List Nat}
    (hlen : ∀ d pos, ∀ b ∈ N d pos, ∀ b' ∈ N d pos, len b d = len b' d) (d : Fin 3) (pos : Bool) :
    nbrOffset len c (faceNbrs g c N) (dirOf d pos) = (if pos then 1 else -1) * faceGap len c d (N d pos) := by
  obtain ⟨e1, e2, -, -⟩ := dim_dir d pos
  unfold nbrOffset
  cases hN : N d pos with
  | nil =>
    rw [offset_fold len c (L := 0) (fun y hy hk => by
      obtain ⟨b, hb, -⟩ := mem_faceNbrs.1 ⟨hy, hk⟩
      rw [hN] at hb; cases hb), if_neg (fun h => (any_faceNbrs d pos).1 h hN), e1, e2]
    unfold faceGap
    grind
  | cons b l =>
    rw [offset_fold len c (L := len b d) (fun y hy hk => by
      obtain ⟨b', hb', rfl⟩ := mem_faceNbrs.1 ⟨hy, hk⟩
      rw [e1]
      exact hlen d pos _ hb' _ (by rw [hN]; exact List.mem_cons_self)), if_pos ((any_faceNbrs d pos).2 (by rw [hN]; exact List.cons_ne_nil _ _)), e1, e2]
    unfold faceGap
    grind

theorem factor_gap {len : Nat → V3 Rat} {c : Nat} {N : Fin 3 → Bool → List Nat}
    (hlen : ∀ d pos, ∀ b ∈ N d pos, ∀ b' ∈ N d pos, len b d = len b' d) (d : Fin 3) (pos : Bool) :
    nbrFactor len c (faceNbrs g c N) (dirOf d pos) = if N d pos = [] then 0 else
      2 / (faceGap len c d (N d pos) * (faceGap len c d (N d true) + faceGap len c d (N d false))) := by
  obtain ⟨e1, e2, e3, e4⟩ := dim_dir d pos
  unfold nbrFactor
  rw [e4, e3, offset_gap hlen, offset_gap hlen, offset_gap hlen, e2]
  by_cases h : N d pos = []
  · rw [if_neg (fun h' => (any_faceNbrs d pos).1 h' h), if_pos h]
  · rw [if_pos ((any_faceNbrs d pos).2 h), if_neg h]
    generalize faceGap len c d (N d pos) = A
    generalize faceGap len c d (N d true) = B
    generalize faceGap len c d (N d false) = C
    cases pos
    · simp only [Bool.false_eq_true, if_false, if_true]
      have : (-1 * A * (1 * B - -1 * C) : Rat) = -(A * (B + C)) := by grind
      rw [this]
      grind
    · simp only [Bool.false_eq_true, if_false, if_true]
      have : (1 * A * (1 * B - -1 * C) : Rat) = A * (B + C) := by grind
      rw [this]
      grind

theorem weights_mean {f : Int → Rat} {u : Nat → Rat} {c : Nat} {k : Int} {l : List Nat}
    (hs : l = [] ∨ (∃ b, l = [b] ∧ g.lvl b ≤ g.lvl c) ∨ (l.length = 4 ∧ ∀ b ∈ l, g.lvl b = g.lvl c + 1)) :
    (l.map fun b => nbrWeight f k (relLevel g c b) * u b).sum = f k * faceMean u l := by
  unfold faceMean
  rcases hs with rfl | ⟨b, rfl, h⟩ | ⟨h4, h⟩
  · simp only [List.map_nil, List.sum_nil]; grind
  · have : nbrWeight f k (relLevel g c b) = f k := by
      unfold nbrWeight relLevel
      rw [if_neg (by omega : ¬g.lvl c < g.lvl b)]
      split <;> rfl
    simp only [List.map_cons, List.map_nil, List.sum_cons, List.sum_nil, this, List.length_cons, List.length_nil]
    have : (((0 + 1 : Nat)) : Rat) = 1 := by decide +kernel
    rw [this]
    grind
  · have : (l.map fun b => nbrWeight f k (relLevel g c b) * u b) = l.map fun b => f k / 4 * u b := by
      refine List.map_congr_left fun b hb => ?_
      unfold nbrWeight relLevel
      rw [if_pos (by rw [h b hb]; omega)]
    rw [this, rat_sum_mul, h4]
    have : (((4 : Nat)) : Rat) = 4 := by decide +kernel
    rw [this]
    grind

/-- The matrix in a cell. -/
theorem applied_laplacian {len : Nat → V3 Rat} {u : Nat → Rat} {c : Nat} {N : Fin 3 → Bool → List Nat}
    (hlen : ∀ d pos, ∀ b ∈ N d pos, ∀ b' ∈ N d pos, len b d = len b' d)
    (hs : ∀ d pos, N d pos = [] ∨ (∃ b, N d pos = [b] ∧ g.lvl b ≤ g.lvl c) ∨ ((N d pos).length = 4 ∧ ∀ b ∈ N d pos, g.lvl b = g.lvl c + 1))
    (a : PoissonCell) :
    (setFactors len c (faceNbrs g c N) a).scale * u c + ((faceNbrs g c N).map fun y =>
      nbrWeight (setFactors len c (faceNbrs g c N) a).f y.2.1 y.2.2 * u y.1).sum = laplacian len u c N := by
  have e : ((faceNbrs g c N).map fun y => nbrWeight (nbrFactor len c (faceNbrs g c N)) y.2.1 y.2.2 * u y.1).sum =
      ([((0 : Fin 3), false), (0, true), (1, false), (1, true), (2, false), (2, true)].map fun x =>
        nbrFactor len c (faceNbrs g c N) (dirOf x.1 x.2) * faceMean u (N x.1 x.2)).sum := by
    generalize nbrFactor len c (faceNbrs g c N) = f
    unfold faceNbrs
    rw [List.map_flatMap, sum_flatMap]
    congr 1
    refine List.map_congr_left fun x _ => ?_
    rw [List.map_map]
    exact weights_mean (hs x.1 x.2)
  have t : ∀ d pos, nbrFactor len c (faceNbrs g c N) (dirOf d pos) * (faceMean u (N d pos) - u c) =
      faceSlope len u c d (N d pos) / ((faceGap len c d (N d true) + faceGap len c d (N d false)) / 2) := by
    intro d pos
    rw [factor_gap hlen]
    unfold faceSlope
    split
    · simp only [Rat.div_def, Rat.zero_mul]
    · simp only [Rat.div_def, Rat.inv_mul_rev, Rat.inv_inv]
      grind
  show (-nbrFactor len c (faceNbrs g c N) (dirOf 0 true) - nbrFactor len c (faceNbrs g c N) (dirOf 0 false) -
    nbrFactor len c (faceNbrs g c N) (dirOf 1 true) - nbrFactor len c (faceNbrs g c N) (dirOf 1 false) -
    nbrFactor len c (faceNbrs g c N) (dirOf 2 true) - nbrFactor len c (faceNbrs g c N) (dirOf 2 false)) * u c +
    ((faceNbrs g c N).map fun y => nbrWeight (nbrFactor len c (faceNbrs g c N)) y.2.1 y.2.2 * u y.1).sum = _
  rw [e]
  simp only [List.map_cons, List.map_nil, List.sum_cons, List.sum_nil]
  unfold laplacian secondDiff
  have t0 := t 0 true
  have t1 := t 0 false
  have t2 := t 1 true
  have t3 := t 1 false
  have t4 := t 2 true
  have t5 := t 2 false
  have dv : ∀ x y z : Rat, (x + y) / z = x / z + y / z := fun x y z => by rw [Rat.div_def, Rat.div_def, Rat.div_def]; grind
  rw [dv (faceSlope _ _ _ _ _) (faceSlope _ _ _ _ _), dv (faceSlope _ _ _ 1 _) (faceSlope _ _ _ _ _),
    dv (faceSlope _ _ _ 2 _) (faceSlope _ _ _ _ _), ← t0, ← t1, ← t2, ← t3, ← t4, ← t5]
  grind

theorem faceList_nbrs {s : Sys n PoissonCell W} (hw : g.WF) (hi : Inv g w s) {c : Nat} (hc : exist w c = true) (k : Nat → Bool) :
    ((faceList g (exist w) c).filter fun y => k y.1).map (fun y => (y.1, y.2, relLevel g c y.1)) =
      faceNbrs g c fun d pos => (faceDir g (exist w) c d pos).filter k := by
  have h := (faceList_spec hw hi hc).1
  unfold faceNeighbors at h
  split at h
  · cases h
  · injection h with h
    rw [← h, List.filter_flatMap, List.map_flatMap]
    unfold faceNbrs
    congr 1
    funext x
    rw [List.filter_map, List.map_map]
    rfl

/-- A cell that does not take part in solving: its process has given it to be skipped and not to be solved. -/
def Skipped (s : Sys n PoissonCell W) (cells skip : Fin n → List Nat) (b : Nat) : Prop :=
  ∃ j, (s j).owner b = some j ∧ b ∉ cells j ∧ b ∈ skip j

/-- Rows of the matrix are sums of second differences. -/
theorem applied_face (hw : g.WF) (h : Reachable g dflt maxTag s) (hi : Inv g w s) (len : Nat → V3 Rat) (cells skip : Fin n → List Nat)
    {G : Nat → PoissonCell}
    (g3 : ∀ c, (G c).f = (cachedField g (exist w) len (typeOf w cells skip) (fun c => { F c with typ := typeOf w cells skip c }) c).f ∧
      (G c).scale = (cachedField g (exist w) len (typeOf w cells skip) (fun c => { F c with typ := typeOf w cells skip c }) c).scale)
    {t : Sys n PoissonCell W} (hti : Inv g w t) (hown : ∀ i c, w c = some i → (t i).data c = some (G c))
    (i : Fin n) (c : Nat) (hc : (s i).owner c = some i) (hcc : c ∈ cells i) :
    ∃ N : Fin 3 → Bool → List Nat,
      (∀ d pos, (N d pos).Nodup ∧
        ∀ b, b ∈ N d pos ↔ exist (s i).owner b = true ∧ FaceCell g c d pos b ∧ ¬Skipped s cells skip b) ∧
      (finalType g (exist w) (typeOf w cells skip) c = 0 → ∃ d pos, N d pos ≠ []) ∧
      ((∃ d pos, N d pos ≠ []) →
        (∀ d pos b b', exist (s i).owner b = true → FaceCell g c d pos b → exist (s i).owner b' = true → FaceCell g c d pos b' →
          (Skipped s cells skip b ↔ Skipped s cells skip b') ∧ len b d = len b' d) →
        finalType g (exist w) (typeOf w cells skip) c = 0 ∧ (G c).sol = solAt t i c ∧
          appliedA (solveNbrs g (exist w) (typeOf w cells skip)) G (·.sol) c = laplacian len (solAt t i) c N) := by
  rw [hi.sys.owner] at hc
  have he := exist_of hc
  have full := fun d pos => faceDir_full hw hi.sys.tiled ((balanced_iff hw hi.sys.tiled).1 hi.sys.balanced).faces he d pos
  have hsk : ∀ b, exist w b = true → (typeOf w cells skip b = 2 ↔ Skipped s cells skip b) := by
    intro b hb
    obtain ⟨j, hj⟩ := Option.isSome_iff_exists.1 hb
    unfold typeOf Skipped
    rw [hj]
    simp only
    constructor
    · intro e
      split at e
      · cases e
      · rename_i k1
        split at e
        · rename_i k2
          exact ⟨j, by rw [hi.sys.owner]; exact hj, k1, k2⟩
        · cases e
    · rintro ⟨j', e1, e2, e3⟩
      rw [hi.sys.owner, hj] at e1
      injection e1 with e1
      subst e1
      rw [if_neg e2, if_pos e3]
  have mem : ∀ d pos b, b ∈ (faceDir g (exist w) c d pos).filter (fun b => decide (typeOf w cells skip b ≠ 2)) ↔
      exist w b = true ∧ FaceCell g c d pos b ∧ ¬Skipped s cells skip b := by
    intro d pos b
    rw [List.mem_filter, (full d pos).2.1, decide_eq_true_eq]
    constructor
    · rintro ⟨⟨m1, m2⟩, m3⟩
      exact ⟨m1, m2, fun m4 => m3 ((hsk b m1).2 m4)⟩
    · rintro ⟨m1, m2, m3⟩
      exact ⟨⟨m1, m2⟩, fun m4 => m3 ((hsk b m1).1 m4)⟩
  have hT : typeOf w cells skip c = 0 := by
    unfold typeOf
    rw [hc]
    exact if_pos hcc
  have hnb : solveNbrs g (exist w) (typeOf w cells skip) c =
      faceNbrs g c fun d pos => (faceDir g (exist w) c d pos).filter fun b => decide (typeOf w cells skip b ≠ 2) := by
    rw [← faceList_nbrs hw hi he]
    unfold solveNbrs
    congr 1
    refine List.filter_congr fun y _ => ?_
    unfold usedNbr
    rw [hT]
    simp
  refine ⟨fun d pos => (faceDir g (exist w) c d pos).filter fun b => decide (typeOf w cells skip b ≠ 2),
    fun d pos => ⟨(full d pos).1.filter _, ?_⟩, fun h0 => ?_, fun hne hgrp => ?_⟩
  · rw [hi.sys.owner]
    exact mem d pos
  · unfold finalType at h0
    split at h0
    · cases h0
    · rename_i h1
      rw [hnb] at h1
      obtain ⟨y, l, e⟩ := List.exists_cons_of_ne_nil h1
      have hy : y ∈ faceNbrs g c fun d pos => (faceDir g (exist w) c d pos).filter fun b => decide (typeOf w cells skip b ≠ 2) := by
        rw [e]; exact List.mem_cons_self
      obtain ⟨x, -, hx⟩ := List.mem_flatMap.1 hy
      refine ⟨x.1, x.2, fun h2 => ?_⟩
      simp only at h2 hx
      rw [h2] at hx
      cases hx
  rw [hi.sys.owner] at hgrp
  have hlen : ∀ d pos, ∀ b ∈ (faceDir g (exist w) c d pos).filter (fun b => decide (typeOf w cells skip b ≠ 2)),
      ∀ b' ∈ (faceDir g (exist w) c d pos).filter (fun b => decide (typeOf w cells skip b ≠ 2)), len b d = len b' d := by
    intro d pos b hb b' hb'
    obtain ⟨k1, k2, -⟩ := (mem d pos b).1 hb
    obtain ⟨k3, k4, -⟩ := (mem d pos b').1 hb'
    exact (hgrp d pos b b' k1 k2 k3 k4).2
  have hshape : ∀ d pos, (faceDir g (exist w) c d pos).filter (fun b => decide (typeOf w cells skip b ≠ 2)) = [] ∨
      (faceDir g (exist w) c d pos).filter (fun b => decide (typeOf w cells skip b ≠ 2)) = faceDir g (exist w) c d pos := by
    intro d pos
    by_cases h0 : (faceDir g (exist w) c d pos).filter (fun b => decide (typeOf w cells skip b ≠ 2)) = []
    · exact Or.inl h0
    · obtain ⟨b, l, e⟩ := List.exists_cons_of_ne_nil h0
      obtain ⟨k1, k2, k3⟩ := (mem d pos b).1 (by rw [e]; exact List.mem_cons_self)
      refine Or.inr (List.filter_eq_self.2 fun b' hb' => ?_)
      obtain ⟨k4, k5⟩ := ((full d pos).2.1 b').1 hb'
      rw [decide_eq_true_eq, Ne, hsk b' k4]
      exact fun k6 => k3 ((hgrp d pos b b' k1 k2 k4 k5).1.2 k6)
  have hne' : solveNbrs g (exist w) (typeOf w cells skip) c ≠ [] := by
    obtain ⟨d, pos, hne⟩ := hne
    obtain ⟨b, l, e⟩ := List.exists_cons_of_ne_nil hne
    rw [hnb]
    intro h0
    have := ((mem_faceNbrs (g := g) (c := c) (N := fun d pos => (faceDir g (exist w) c d pos).filter fun b => decide (typeOf w cells skip b ≠ 2)) (d := d) (pos := pos)).2 ⟨b, by simp only at e; rw [e]; exact List.mem_cons_self, rfl⟩).1
    rw [h0] at this; cases this
  have hft : finalType g (exist w) (typeOf w cells skip) c = 0 := by
    unfold finalType
    rw [if_neg hne', hT]
  have hsol : ∀ b, exist w b = true → solAt t i b = (G b).sol := by
    intro b hb
    obtain ⟨j, hj⟩ := Option.isSome_iff_exists.1 hb
    unfold solAt
    rw [hti.sys.owner, hj]
    show ((access (t j) b).map _).getD 0 = _
    rw [access_data (hown j _ hj)]
    rfl
  refine ⟨hft, (hsol c he).symm, ?_⟩
  rw [← applied_laplacian (g := g) hlen (fun d pos => by
    rcases hshape d pos with e | e
    · exact Or.inl e
    · rw [e]; exact (full d pos).2.2) ({ F c with typ := typeOf w cells skip c })]
  have e : cachedField g (exist w) len (typeOf w cells skip) (fun c => { F c with typ := typeOf w cells skip c }) c =
      setFactors len c (faceNbrs g c fun d pos => (faceDir g (exist w) c d pos).filter fun b => decide (typeOf w cells skip b ≠ 2)) { F c with typ := typeOf w cells skip c } := by
    unfold cachedField
    rw [if_neg (by rw [hT]; decide), if_neg hne', hnb]
  have e3 := g3 c
  rw [e] at e3
  unfold appliedA
  rw [hnb, e3.1, e3.2, hsol c he]
  congr 2
  refine List.map_congr_left fun y hy => ?_
  congr 1
  rw [hsol]
  rw [← faceList_nbrs hw hi he] at hy
  obtain ⟨u, hu, rfl⟩ := List.mem_map.1 hy
  exact (faceList_linked hw h hi he (List.mem_filter.1 hu).1).1

/-- C127: after any number of iterations the residual in a cell to solve is the right hand side minus the sum of second differences
of the solution, with means over cells on the other sides of its faces that are not skipped, wherever these and their data are, if there is at least
one, those on the other side of the same face have equal lengths and all or none of them are skipped. As in C125, search direction was zero in cells that are
not solved when the solver was started. False if only some cells on the other side of a face are skipped (`C127_skipped_false`). -/
theorem C127_equation_partial (hw : g.WF) (hn : 0 < n) (h : Reachable g dflt maxTag s) (len : Nat → V3 Rat) (a : PParams)
    (cells skip : Fin n → List Nat)
    (hp : ∀ i c, (s i).owner c = some i → c ∉ cells i → (access (s i) c).map (·.p0) = some 0) {x y z}
    (h1 : cacheSystem g maxTag len cells skip s = .ok x) (h2 : startPoisson g maxTag x = .ok y) (h3 : Iterates g maxTag a y z)
    (i : Fin n) (c : Nat) (hc : (s i).owner c = some i) (hcc : c ∈ cells i) :
    ∃ N : Fin 3 → Bool → List Nat,
      (∀ d pos, (N d pos).Nodup ∧
        ∀ b, b ∈ N d pos ↔ exist (s i).owner b = true ∧ FaceCell g c d pos b ∧ ¬Skipped s cells skip b) ∧
      ((∃ d pos, N d pos ≠ []) →
        (∀ d pos b b', exist (s i).owner b = true → FaceCell g c d pos b → exist (s i).owner b' = true → FaceCell g c d pos b' →
          (Skipped s cells skip b ↔ Skipped s cells skip b') ∧ len b d = len b' d) →
        ∃ v, access (z.sys i) c = some v ∧ v.sol = solAt z.sys i c ∧ v.r0 = v.rhs - laplacian len (solAt z.sys i) c N) := by
  obtain ⟨w, hi⟩ := h.inv hw hn
  have own : ∀ i c, w c = some i → (s i).data c = some ((fun c => (((w c).bind fun i => (s i).data c).getD dflt)) c) := by
    intro i c e
    have := (hi.access_own e).2
    show _ = some (((w c).bind fun i => (s i).data c).getD dflt)
    rw [e]
    show _ = some (((s i).data c).getD dflt)
    cases hx : (s i).data c with
    | none => exact absurd hx this
    | some x => rfl
  generalize (fun c => (((w c).bind fun i => (s i).data c).getD dflt)) = F at own
  obtain ⟨G, g1, g2, g3⟩ := residual_state hw hn h hi own len a cells skip hp h1 h2 h3
  obtain ⟨N, n1, -, n2⟩ := applied_face hw h hi len cells skip g3 g1.copied.inv g1.copied.own i c hc hcc
  refine ⟨N, n1, fun hne hg => ?_⟩
  obtain ⟨k1, k2, k3⟩ := n2 hne hg
  rw [hi.sys.owner] at hc
  refine ⟨G.F c, access_data (g1.copied.own i _ hc), k2, ?_⟩
  rw [g2.res c (exist_of hc) (by rw [g1.typ c (exist_of hc)]; exact k1), k3]

theorem laplacian_uniform {len : Nat → V3 Rat} {u : Nat → Rat} {c : Nat} {N : Fin 3 → Bool → List Nat} {K : Rat} (hc : u c = K)
    (hu : ∀ d pos, ∀ b ∈ N d pos, u b = K) : laplacian len u c N = 0 := by
  have h : ∀ d pos, faceSlope len u c d (N d pos) = 0 := by
    intro d pos
    unfold faceSlope
    split
    · rfl
    · rename_i h0
      have e : ((N d pos).map u).sum = ((N d pos).length : Rat) * K := by
        have hl := hu d pos
        generalize N d pos = l at hl
        clear h0
        induction l with
        | nil => simp only [List.map_nil, List.sum_nil, List.length_nil]; exact (Rat.zero_mul K).symm
        | cons b l ih =>
          rw [List.map_cons, List.sum_cons, ih fun x hx => hl x (List.mem_cons_of_mem _ hx), hl b List.mem_cons_self, List.length_cons, Rat.natCast_add]
          grind
      have hl : ((N d pos).length : Rat) ≠ 0 := by
        intro e0
        have : (N d pos).length = 0 := Rat.natCast_inj.1 e0
        exact h0 (List.eq_nil_of_length_eq_zero this)
      have : faceMean u (N d pos) = K := by
        unfold faceMean
        rw [e, Rat.div_def, Rat.mul_comm _ K, Rat.mul_assoc, Rat.mul_inv_cancel _ hl, Rat.mul_one]
      rw [this, hc, Rat.div_def]
      grind
  unfold laplacian secondDiff
  simp only [h]
  simp only [Rat.div_def]
  grind

/-- C127, uniform solutions: what is left of the right hand side is all of it where the solution is uniform. -/
theorem C127_uniform_partial (hw : g.WF) (hn : 0 < n) (h : Reachable g dflt maxTag s) (len : Nat → V3 Rat) (a : PParams)
    (cells skip : Fin n → List Nat)
    (hp : ∀ i c, (s i).owner c = some i → c ∉ cells i → (access (s i) c).map (·.p0) = some 0) {x y z}
    (h1 : cacheSystem g maxTag len cells skip s = .ok x) (h2 : startPoisson g maxTag x = .ok y) (h3 : Iterates g maxTag a y z)
    (i : Fin n) (c : Nat) (hc : (s i).owner c = some i) (hcc : c ∈ cells i)
    (hne : ∃ d pos b, exist (s i).owner b = true ∧ FaceCell g c d pos b ∧ ¬Skipped s cells skip b)
    (hg : ∀ d pos b b', exist (s i).owner b = true → FaceCell g c d pos b → exist (s i).owner b' = true → FaceCell g c d pos b' →
      (Skipped s cells skip b ↔ Skipped s cells skip b') ∧ len b d = len b' d)
    (K : Rat) (hK : solAt z.sys i c = K) (hu : ∀ d pos b, exist (s i).owner b = true → FaceCell g c d pos b → solAt z.sys i b = K) :
    ∃ v, access (z.sys i) c = some v ∧ v.r0 = v.rhs := by
  obtain ⟨N, n1, n2⟩ := C127_equation_partial hw hn h len a cells skip hp h1 h2 h3 i c hc hcc
  obtain ⟨d, pos, b, b1, b2, b3⟩ := hne
  obtain ⟨v, v1, -, v3⟩ := n2 ⟨d, pos, fun e => by
    have := ((n1 d pos).2 b).2 ⟨b1, b2, b3⟩
    rw [e] at this; cases this⟩ hg
  refine ⟨v, v1, ?_⟩
  rw [v3, laplacian_uniform hK fun d pos b hb => hu d pos b (((n1 d pos).2 b).1 hb).1 (((n1 d pos).2 b).1 hb).2.1]
  grind

/-! ## Witnesses -/

theorem half_type {w : Owner 1} (h0 : exist w = halfE) (sk : List Nat) : typeOf w (fun _ => [2]) (fun _ => sk) =
    fun c => if halfE c = false then 1 else if c = 2 then 0 else if c ∈ sk then 2 else 1 := by
  funext c
  unfold typeOf
  rw [← h0]
  cases hc : w c with
  | none => simp [exist, hc]
  | some i => simp [exist, hc]

theorem half_faces {s : Sys 1 PoissonCell Nat} {w : Owner 1} (h2 : Inv tinyG w s) (h0 : exist w = halfE) : w 2 = some 0 ∧ (s 0).owner 2 = some 0 ∧
    (∀ b ∈ [4, 8, 12, 16], exist (s 0).owner b = true ∧ FaceCell tinyG 2 0 false b ∧ ¬Skipped s (fun _ => [2]) (fun _ => []) b) ∧
    (∀ d pos b b', exist (s 0).owner b = true → FaceCell tinyG 2 d pos b → exist (s 0).owner b' = true → FaceCell tinyG 2 d pos b' →
      (Skipped s (fun _ => [2]) (fun _ => []) b ↔ Skipped s (fun _ => [2]) (fun _ => []) b') ∧ halfLen b d = halfLen b' d) := by
  have h02 : w 2 = some 0 := by
    have : exist w 2 = true := by rw [h0]; decide +kernel
    obtain ⟨i, hi⟩ := Option.isSome_iff_exists.1 this
    rw [hi, Subsingleton.elim i 0]
  have full := fun d pos => faceDir_full tiny_wf h2.sys.tiled ((balanced_iff tiny_wf h2.sys.tiled).1 h2.sys.balanced).faces (exist_of h02) d pos
  have nosk : ∀ b, ¬Skipped s (fun _ => [2]) (fun _ => []) b := by
    rintro b ⟨j, -, -, h⟩
    cases h
  refine ⟨h02, by rw [h2.sys.owner]; exact h02, fun b hb => ?_, fun d pos b b' k1 k2 k3 k4 => ?_⟩
  · rw [h2.sys.owner]
    have : b ∈ faceDir tinyG (exist w) 2 0 false := by
      rw [h0]
      have : ∀ b ∈ [4, 8, 12, 16], b ∈ faceDir tinyG halfE 2 0 false := by decide +kernel
      exact this b hb
    have := ((full 0 false).2.1 b).1 this
    exact ⟨this.1, this.2, nosk b⟩
  · refine ⟨⟨fun h => absurd h (nosk b), fun h => absurd h (nosk b')⟩, ?_⟩
    rw [h2.sys.owner] at k1 k3
    have m1 := ((full d pos).2.1 b).2 ⟨k1, k2⟩
    have m2 := ((full d pos).2.1 b').2 ⟨k3, k4⟩
    rw [h0] at m1 m2
    have : ∀ d pos, ∀ b ∈ faceDir tinyG halfE 2 d pos, ∀ b' ∈ faceDir tinyG halfE 2 d pos, halfLen b d = halfLen b' d := by decide +kernel
    exact this d pos b m1 b' m2

/-- Hypotheses of `C127_equation_partial` are met by a grid of a cell and eight smaller ones, of which four are its neighbors. The solution is 1 in these and
0 in the cell, hence the residual for a right hand side of 0 is - 32 / 21. -/
example : ∃ (s : Sys 1 PoissonCell Nat) (x : Sys 1 PoissonCell Nat × (Fin 1 → List (Nat × List NbrInfo))) (y : PState 1 Nat),
    Reachable tinyG (poissonCell 0 0) 146 s ∧
    (∀ i c, (s i).owner c = some i → c ∉ [2] → (access (s i) c).map (·.p0) = some 0) ∧
    cacheSystem tinyG 146 halfLen (fun _ => [2]) (fun _ => []) s = .ok x ∧ startPoisson tinyG 146 x = .ok y ∧
    (s 0).owner 2 = some 0 ∧
    (∀ b ∈ [4, 8, 12, 16], exist (s 0).owner b = true ∧ FaceCell tinyG 2 0 false b ∧ ¬Skipped s (fun _ => [2]) (fun _ => []) b) ∧
    (∀ d pos b b', exist (s 0).owner b = true → FaceCell tinyG 2 d pos b → exist (s 0).owner b' = true → FaceCell tinyG 2 d pos b' →
      (Skipped s (fun _ => [2]) (fun _ => []) b ↔ Skipped s (fun _ => [2]) (fun _ => []) b') ∧ halfLen b d = halfLen b' d) ∧
    (access (y.sys 0) 2).map (fun v => (v.rhs, v.r0)) = some (0, -32 / 21) := by
  obtain ⟨s, w, h1, h2, h0, h3⟩ := halfDemo_start fun c => if c = 2 then poissonCell 0 0 else poissonCell 0 1
  obtain ⟨x, x1, x2, x3⟩ := cacheSystem_spec tiny_wf (by decide) h1 h2 h3 halfLen (fun _ => [2]) (fun _ => [])
  obtain ⟨y, y1, y2⟩ := startPoisson_solves tiny_wf (by decide) x2 x3 fun c _ => cachedField_typ ..
  obtain ⟨h02, f1, f2, f3⟩ := half_faces h2 h0
  refine ⟨s, x, y, h1, fun i c e hc => ?_, x1, y1, f1, f2, f3, ?_⟩
  · rw [h2.sys.owner] at e
    rw [access_data (h3 i c e), if_neg (by simpa using hc)]
    rfl
  · rw [access_data (y2.copied.own 0 2 h02), half_type h0, h0]
    decide +kernel

/-- Hypotheses of `C127_uniform_partial` are met by the same grid with a solution of 1 in all cells and a right hand side of 3. -/
example : ∃ (s : Sys 1 PoissonCell Nat) (x : Sys 1 PoissonCell Nat × (Fin 1 → List (Nat × List NbrInfo))) (y : PState 1 Nat),
    Reachable tinyG (poissonCell 0 0) 146 s ∧
    (∀ i c, (s i).owner c = some i → c ∉ [2] → (access (s i) c).map (·.p0) = some 0) ∧
    cacheSystem tinyG 146 halfLen (fun _ => [2]) (fun _ => []) s = .ok x ∧ startPoisson tinyG 146 x = .ok y ∧
    (s 0).owner 2 = some 0 ∧
    (∃ d pos b, exist (s 0).owner b = true ∧ FaceCell tinyG 2 d pos b ∧ ¬Skipped s (fun _ => [2]) (fun _ => []) b) ∧
    (∀ d pos b b', exist (s 0).owner b = true → FaceCell tinyG 2 d pos b → exist (s 0).owner b' = true → FaceCell tinyG 2 d pos b' →
      (Skipped s (fun _ => [2]) (fun _ => []) b ↔ Skipped s (fun _ => [2]) (fun _ => []) b') ∧ halfLen b d = halfLen b' d) ∧
    (∀ b, exist (s 0).owner b = true → solAt y.sys 0 b = 1) ∧
    (access (y.sys 0) 2).map (fun v => (v.rhs, v.r0)) = some (3, 3) := by
  obtain ⟨s, w, h1, h2, h0, h3⟩ := halfDemo_start fun _ => poissonCell 3 1
  obtain ⟨x, x1, x2, x3⟩ := cacheSystem_spec tiny_wf (by decide) h1 h2 h3 halfLen (fun _ => [2]) (fun _ => [])
  obtain ⟨y, y1, y2⟩ := startPoisson_solves tiny_wf (by decide) x2 x3 fun c _ => cachedField_typ ..
  obtain ⟨h02, f1, f2, f3⟩ := half_faces h2 h0
  refine ⟨s, x, y, h1, fun i c e hc => ?_, x1, y1, f1, ⟨0, false, 4, f2 4 (by decide)⟩, f3, fun b hb => ?_, ?_⟩
  · rw [h2.sys.owner] at e
    rw [access_data (h3 i c e)]
    rfl
  · rw [h2.sys.owner] at hb
    obtain ⟨j, hj⟩ := Option.isSome_iff_exists.1 hb
    unfold solAt
    rw [y2.copied.inv.sys.owner, hj]
    show ((access (y.sys j) b).map _).getD 0 = _
    rw [access_data (y2.copied.own j _ hj), half_type h0, h0]
    rw [h0] at hb
    have : ∀ b ∈ 2 :: tinyG.children 1, (passed (solveNbrs tinyG halfE fun c => if halfE c = false then 1 else if c = 2 then 0 else if c ∈ [] then 2 else 1) startSolve
      (cachedField tinyG halfE halfLen (fun c => if halfE c = false then 1 else if c = 2 then 0 else if c ∈ [] then 2 else 1)
        fun c => { poissonCell 3 1 with typ := if halfE c = false then 1 else if c = 2 then 0 else if c ∈ [] then 2 else 1 }) b).sol = 1 := by decide +kernel
    exact this b (of_decide_eq_true hb)
  · rw [access_data (y2.copied.own 0 2 h02), half_type h0, h0]
    decide +kernel

/-- C127: if one of the four smaller cells on the other side of a face is skipped then the matrix does not have differences of the solution: a uniform
solution has a residual. -/
theorem C127_skipped_false : ∃ (s : Sys 1 PoissonCell Nat) (x : Sys 1 PoissonCell Nat × (Fin 1 → List (Nat × List NbrInfo))) (y : PState 1 Nat),
    Reachable tinyG (poissonCell 0 0) 146 s ∧
    (∀ i c, (s i).owner c = some i → (access (s i) c).map (fun v => (v.rhs, v.sol, v.p0, v.p1)) = some (0, 1, 0, 0)) ∧
    cacheSystem tinyG 146 halfLen (fun _ => [2]) (fun _ => [4]) s = .ok x ∧ startPoisson tinyG 146 x = .ok y ∧
    (s 0).owner 2 = some 0 ∧ (access (y.sys 0) 2).map (fun v => (v.sol, v.rhs, v.r0)) = some (1, 0, 8 / 21) := by
  obtain ⟨s, w, h1, h2, h0, h3⟩ := halfDemo_start fun _ => poissonCell 0 1
  obtain ⟨x, x1, x2, x3⟩ := cacheSystem_spec tiny_wf (by decide) h1 h2 h3 halfLen (fun _ => [2]) (fun _ => [4])
  obtain ⟨y, y1, y2⟩ := startPoisson_solves tiny_wf (by decide) x2 x3 fun c _ => cachedField_typ ..
  have h02 : w 2 = some 0 := by
    have : exist w 2 = true := by rw [h0]; decide +kernel
    obtain ⟨i, hi⟩ := Option.isSome_iff_exists.1 this
    rw [hi, Subsingleton.elim i 0]
  refine ⟨s, x, y, h1, fun i c e => ?_, x1, y1, by rw [h2.sys.owner]; exact h02, ?_⟩
  · rw [h2.sys.owner] at e
    rw [access_data (h3 i c e)]
    rfl
  · rw [access_data (y2.copied.own 0 2 h02), half_type h0, h0]
    decide +kernel

end Dccrg
