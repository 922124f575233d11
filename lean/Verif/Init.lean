import Verif.Stop
/-!
# Initial state of the grid

Models of `create_level_0_cells` (dccrg.hpp:8144-8279, without `USE_SFC`) and of the rest of `initialize`
(dccrg.hpp:480-562) that concerns cells.
-/
namespace Dccrg
open Cfg
variable {n : Nat} {D W : Type} {g : Cfg}

/-- `cells_per_process` (dccrg.hpp:8158-8166), `t` is total number of cells. -/
def perProcess (n t : Nat) : Nat :=
  if t < n then 1 else if t % n > 0 then t / n + 1 else t / n

/-- `procs_with_fewer` (dccrg.hpp:8169). The product may exceed 64 bits but the difference is exact in
modular arithmetic. -/
def withFewer (n t : Nat) : Nat := perProcess n t * n - t

/-- `cells_to_create` of a process (dccrg.hpp:8176-8181). -/
def toCreate (n t p : Nat) : Nat :=
  if p < withFewer n t then perProcess n t - 1 else perProcess n t

/-- Cells of one process (dccrg.hpp:8175-8189). -/
def createOf (t : Nat) (s : Nat × Owner n) (p : Fin n) : Nat × Owner n :=
  (s.1 + toCreate n t p, put s.2 (List.range' s.1 (toCreate n t p)) (some p))

/-- Loop over processes (dccrg.hpp:8173-8190): next cell to create and owners of cells. -/
def createLevel0 (n t : Nat) : Nat × Owner n :=
  (List.finRange n).foldl (createOf t) (1, fun _ => none)

/-- Process before neighbors are searched for. -/
def freshProc (g : Cfg) (dflt : D) (i : Fin n) : Proc n D W where
  owner := (createLevel0 n g.total).2
  data := fun c => if (createLevel0 n g.total).2 c = some i then some dflt else none
  remote := fun _ => none
  req := ⟨[], [], [], []⟩
  refinedData := fun _ => none
  unrefinedData := fun _ => none
  pins := fun _ => none
  newPins := fun _ => none
  weights := fun _ => none
  hoods := []

/-- `initialize` (dccrg.hpp:480-562) of all processes. -/
def createGrid (g : Cfg) (n : Nat) (dflt : D) (maxTag : Nat) : Out (Sys n D W) :=
  Out.collect fun i => rebuild g dflt maxTag i (freshProc g dflt i)

/-! ## Shares of processes -/

/-- First cell of process `p`. -/
def firstOf (n t p : Nat) : Nat := 1 + (p * perProcess n t - min p (withFewer n t))

theorem perProcess_pos {t : Nat} (hn : 0 < n) : 0 < perProcess n t := by
  unfold perProcess
  split
  · omega
  · have := Nat.div_pos (show n ≤ t by omega) hn
    split <;> omega

theorem perProcess_bounds {t : Nat} (hn : 0 < n) :
    t ≤ perProcess n t * n ∧ perProcess n t * n ≤ t + n := by
  unfold perProcess
  have h1 := Nat.div_add_mod t n
  have h2 := Nat.mod_lt t hn
  have h3 : t / n * n = n * (t / n) := Nat.mul_comm _ _
  split
  · omega
  · split
    · rw [Nat.add_mul]; omega
    · omega

theorem withFewer_le {t : Nat} (hn : 0 < n) : withFewer n t ≤ n := by
  have := perProcess_bounds (t := t) hn
  unfold withFewer; omega

theorem firstOf_succ {t : Nat} (hn : 0 < n) (p : Nat) :
    firstOf n t (p + 1) = firstOf n t p + toCreate n t p := by
  unfold firstOf toCreate
  have h := perProcess_pos (t := t) hn
  have : p ≤ p * perProcess n t := Nat.le_mul_of_pos_right p h
  rw [Nat.add_mul]
  split <;> omega

theorem firstOf_mono {t : Nat} (hn : 0 < n) {p q : Nat} (h : p ≤ q) : firstOf n t p ≤ firstOf n t q := by
  induction h with
  | refl => exact Nat.le_refl _
  | step _ ih => rw [Nat.succ_eq_add_one, firstOf_succ hn]; omega

theorem firstOf_last {t : Nat} (hn : 0 < n) : firstOf n t n = 1 + t := by
  have h1 := perProcess_bounds (t := t) hn
  have h2 := withFewer_le (t := t) hn
  unfold firstOf
  rw [Nat.min_eq_right h2]
  unfold withFewer
  rw [Nat.mul_comm]
  omega

/-- State of the loop after the first `m` processes. -/
theorem createLevel0_take {t : Nat} (hn : 0 < n) (m : Nat) (hm : m ≤ n) :
    (((List.finRange n).take m).foldl (createOf t)
      ((1, fun _ => none) : Nat × Owner n)).1 = firstOf n t m ∧
    ∀ c (p : Fin n), (((List.finRange n).take m).foldl (createOf t)
      ((1, fun _ => none) : Nat × Owner n)).2 c = some p ↔
      p.1 < m ∧ firstOf n t p ≤ c ∧ c < firstOf n t (p.1 + 1) := by
  induction m with
  | zero =>
    simp only [List.take_zero, List.foldl_nil]
    refine ⟨by unfold firstOf; omega, fun c p => ?_⟩
    constructor
    · intro h; cases h
    · rintro ⟨h, -⟩; omega
  | succ m ih =>
    obtain ⟨i1, i2⟩ := ih (by omega)
    have e : (List.finRange n).take (m + 1) = (List.finRange n).take m ++ [⟨m, by omega⟩] := by
      rw [List.take_add_one, List.getElem?_eq_getElem (by rw [List.length_finRange]; omega)]
      simp
    rw [e, List.foldl_append, List.foldl_cons, List.foldl_nil]
    generalize ((List.finRange n).take m).foldl (createOf t) ((1, fun _ => none) : Nat × Owner n) = F
      at i1 i2 ⊢
    unfold createOf
    simp only
    rw [i1]
    refine ⟨(firstOf_succ hn m).symm, fun c p => ?_⟩
    unfold put
    have hm' : c ∈ List.range' (firstOf n t m) (toCreate n t m) ↔
        firstOf n t m ≤ c ∧ c < firstOf n t (m + 1) := by rw [List.mem_range'_1, ← firstOf_succ hn]
    by_cases h : firstOf n t m ≤ c ∧ c < firstOf n t (m + 1)
    · rw [if_pos (hm'.2 h)]
      constructor
      · intro hp
        injection hp with hp
        subst hp
        exact ⟨by simp, h.1, h.2⟩
      · rintro ⟨h1, h2, h3⟩
        congr 1
        apply Fin.ext
        show m = p.1
        rcases Nat.lt_or_ge p.1 m with h4 | h4
        · have := firstOf_mono (t := t) hn (show p.1 + 1 ≤ m from h4)
          omega
        · omega
    · rw [if_neg (fun h' => h (hm'.1 h')), i2]
      constructor
      · rintro ⟨h1, h2, h3⟩; exact ⟨by omega, h2, h3⟩
      · rintro ⟨h1, h2, h3⟩
        refine ⟨?_, h2, h3⟩
        rcases Nat.lt_or_ge p.1 m with h4 | h4
        · exact h4
        · have : p.1 = m := by omega
          rw [this] at h2 h3
          exact absurd ⟨h2, h3⟩ h

theorem createLevel0_owner {t : Nat} (hn : 0 < n) {c : Nat} {p : Fin n} :
    (createLevel0 n t).2 c = some p ↔ firstOf n t p ≤ c ∧ c < firstOf n t (p.1 + 1) := by
  have := (createLevel0_take (t := t) hn n (Nat.le_refl n)).2 c p
  rw [List.take_of_length_le (by rw [List.length_finRange]; omega)] at this
  unfold createLevel0
  rw [this]
  exact ⟨fun h => h.2, fun h => ⟨p.2, h⟩⟩

theorem exists_owner {t : Nat} (hn : 0 < n) {c : Nat} (h1 : 1 ≤ c) (h2 : c ≤ t) :
    ∃ p : Fin n, firstOf n t p ≤ c ∧ c < firstOf n t (p.1 + 1) := by
  have : ∀ m, m ≤ n → c < firstOf n t m →
      ∃ p : Fin n, firstOf n t p ≤ c ∧ c < firstOf n t (p.1 + 1) := by
    intro m
    induction m with
    | zero => intro _ h; unfold firstOf at h; omega
    | succ m ih =>
      intro hm h
      rcases Nat.lt_or_ge c (firstOf n t m) with h3 | h3
      · exact ih (by omega) h3
      · exact ⟨⟨m, by omega⟩, h3, h⟩
  exact this n (Nat.le_refl n) (by rw [firstOf_last hn]; omega)

theorem createLevel0_exist {t : Nat} (hn : 0 < n) {c : Nat} :
    exist (createLevel0 n t).2 c = true ↔ 1 ≤ c ∧ c ≤ t := by
  rw [exist_iff]
  constructor
  · rintro ⟨p, hp⟩
    rw [createLevel0_owner hn] at hp
    have h1 := firstOf_mono (t := t) hn (Nat.zero_le p.1)
    have h2 := firstOf_mono (t := t) hn (show p.1 + 1 ≤ n from p.2)
    rw [firstOf_last hn] at h2
    have : firstOf n t 0 = 1 := by unfold firstOf; omega
    omega
  · rintro ⟨h1, h2⟩
    obtain ⟨p, hp⟩ := exists_owner hn h1 h2
    exact ⟨p, (createLevel0_owner hn).2 hp⟩

/-! ## The initial grid is consistent -/

theorem base_one : g.base 1 = g.total := by simp [base]

theorem lvl_level0 {c : Nat} (h1 : 1 ≤ c) (h2 : c ≤ g.total) : g.Valid c ∧ g.lvl c = 0 := by
  have hb : g.base 1 ≤ g.base (g.maxLvl + 1) := base_mono (by omega)
  rw [base_one] at hb
  exact ⟨⟨h1, Nat.le_trans h2 hb⟩, lvl_unique (Nat.zero_le _) (by simp [base]; omega) (by rw [base_one]; exact h2)⟩

theorem createLevel0_tiled (hw : g.WF) (hn : 0 < n) : Tiled g (exist (createLevel0 n g.total).2) := by
  constructor
  · intro c hc
    rw [createLevel0_exist hn] at hc
    exact (lvl_level0 hc.1 hc.2).1
  · intro p hp
    have h := cellAt_range hp (Nat.zero_le _)
    rw [base_one] at h
    refine ⟨g.cellAt 0 p, (createLevel0_exist hn).2 ⟨by omega, h.2⟩, ?_⟩
    rw [mem_iff_cellAt hw (cellAt_valid hp (Nat.zero_le _)) hp, lvl_cellAt hp (Nat.zero_le _)]
  · intro p a b ha hb
    rw [createLevel0_exist hn] at ha hb
    have h1 := lvl_level0 ha.1 ha.2
    have h2 := lvl_level0 hb.1 hb.2
    exact eq_of_mem_lvl hw h1.1 h2.1 (h1.2.trans h2.2.symm)

theorem createLevel0_balanced (hn : 0 < n) : Balanced g (exist (createLevel0 n g.total).2) := by
  intro a b ha hb _
  rw [createLevel0_exist hn] at ha hb
  rw [(lvl_level0 ha.1 ha.2).2, (lvl_level0 hb.1 hb.2).2]
  omega

theorem freshProc_ok (hw : g.WF) (hn : 0 < n) (dflt : D) :
    SysOk g (createLevel0 n g.total).2 (fun i : Fin n => (freshProc g dflt i : Proc n D W)) := by
  constructor
  · exact fun i => rfl
  · exact createLevel0_tiled hw hn
  · exact createLevel0_balanced hn
  · intro i c
    show ((if _ then _ else _ : Option D)).isSome = true ↔ _
    split <;> simp_all
  · exact fun i c _ => ⟨rfl, rfl⟩
  · exact fun i j c => rfl
  · exact fun i c _ => rfl
  · exact fun i c _ => rfl
  · intro i h hh; cases hh

theorem createGrid_spec (hw : g.WF) (hn : 0 < n) (dflt : D) {maxTag : Nat}
    (hm : FitsTags maxTag (createLevel0 n g.total).2) :
    ∃ s : Sys n D W, createGrid g n dflt maxTag = .ok s ∧ SysOk g (createLevel0 n g.total).2 s ∧
      ∀ i, (s i).req = ⟨[], [], [], []⟩ ∧ (s i).hoods = [] ∧
        (∀ c, (s i).data c = if (createLevel0 n g.total).2 c = some i then some dflt else none) ∧
        (∀ c, (s i).remote c =
          if c ∈ remoteBoundary g i (createLevel0 n g.total).2 (fun c => ((s i).data c).isSome)
          then some dflt else none) ∧
        (∀ c, (s i).refinedData c = none ∧ (s i).unrefinedData c = none ∧ (s i).pins c = none ∧
          (s i).newPins c = none ∧ (s i).weights c = none) := by
  have ho := freshProc_ok (W := W) hw hn dflt
  have hr : ∀ i : Fin n, _ := fun i => rebuild_ok (maxTag := maxTag) (i := i) (p := freshProc g dflt i) hw dflt
    (createLevel0_tiled hw hn) (createLevel0_balanced hn) (ho.hoods i) (ho.placed i) hm
  refine ⟨_, Out.collect_ok hr, ?_, fun i => ⟨rfl, rfl, fun c => rfl, fun c => rfl, fun c => ⟨rfl, rfl, rfl, rfl, rfl⟩⟩⟩
  exact ⟨ho.owner, ho.tiled, ho.balanced, ho.placed, ho.pins, ho.pinsAgree, ho.newPins, ho.weights, ho.hoods⟩

theorem createGrid_mono {maxTag M : Nat} (hM : maxTag ≤ M) {dflt : D} {s : Sys n D W}
    (h : createGrid g n dflt maxTag = .ok s) : createGrid g n dflt M = .ok s := by
  unfold createGrid at h ⊢
  exact Out.collect_ok fun i => rebuild_mono hM (Out.collect_inv h i)

end Dccrg
