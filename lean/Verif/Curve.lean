import Verif.Hist
/-!
# Initial cells along a space-filling curve

Model of `create_level_0_cells` (dccrg.hpp:8144-8279) when `USE_SFC` is defined. The curve is computed by
an external library (sfc::Sfc): `sfc k` are the indices of position `k` on the curve. The library answers only
for the range of positions that was cached last.
-/
namespace Dccrg
open Cfg
variable {n : Nat} {D W : Type} {g : Cfg}

/-- State of the loop: cached range of positions, next position (`sfc_index`) and owners of cells. -/
structure Along (n : Nat) where
  first : Nat
  last : Nat
  pos : Nat
  owner : Owner n

/-- `batch_size` (dccrg.hpp:8216-8221). -/
def batchSize (size batches : Nat) : Nat :=
  if size % batches > 0 then 1 + size / batches else size / batches

/-- Caching of a new batch (dccrg.hpp:8238-8248). -/
def nextBatch (size batch : Nat) (s : Along n) : Along n :=
  if s.pos > s.last then
    let last := s.last + batch
    { s with first := s.last, last := if last ≥ size then size - 1 else last }
  else s

/-- Cell at a position of the curve (dccrg.hpp:8250-8255). -/
def curveCell (g : Cfg) (sfc : Nat → V3 Nat) (k : Nat) : Nat := g.cellAt 0 fun d => sfc k d * 2 ^ g.maxLvl

/-- Body of the loop over cells of a process (dccrg.hpp:8235-8264). A position that is not cached throws. -/
def alongCell (g : Cfg) (sfc : Nat → V3 Nat) (size batch : Nat) (p : Fin n) (s : Along n) : Out (Along n) :=
  let s := nextBatch size batch s
  if s.first ≤ s.pos ∧ s.pos ≤ s.last ∧ s.last < size then
    .ok { s with pos := s.pos + 1, owner := put s.owner [curveCell g sfc s.pos] (some p) }
  else .throws

/-- Loop over cells of a process (dccrg.hpp:8235-8265). -/
def alongCells (g : Cfg) (sfc : Nat → V3 Nat) (size batch : Nat) (p : Fin n) : Nat → Along n → Out (Along n)
  | 0, s => .ok s
  | k + 1, s => (alongCells g sfc size batch p k s).bind (alongCell g sfc size batch p)

/-- Owners of cells (dccrg.hpp:8144-8279 with `USE_SFC`). The check at the end aborts. -/
def createAlong (g : Cfg) (n : Nat) (sfc : Nat → V3 Nat) (batches : Nat) : Out (Owner n) :=
  if batches = 0 then .throws
  else
    let batch := batchSize g.total batches
    (Out.fold (fun p s => alongCells g sfc g.total batch p (toCreate n g.total p) s) (List.finRange n)
      { first := 0, last := batch - 1, pos := 0, owner := fun _ => none }).bind fun s =>
    if s.pos = g.total then .ok s.owner else .throws

/-- Process before neighbors are searched for, with given owners of cells. -/
def freshWith (g : Cfg) (w : Owner n) (dflt : D) (i : Fin n) : Proc n D W :=
  { freshProc g dflt i with owner := w, data := fun c => if w c = some i then some dflt else none }

/-- `initialize` (dccrg.hpp:485-562) of all processes when `USE_SFC` is defined. -/
def createGridAlong (g : Cfg) (n : Nat) (dflt : D) (maxTag : Nat) (sfc : Nat → V3 Nat) (batches : Nat) :
    Out (Sys n D W) :=
  (createAlong g n sfc batches).bind fun w =>
  Out.collect fun i => rebuild g dflt maxTag i (freshWith g w dflt i)

/-- What is required of the library: the curve visits every level 0 cell once. -/
structure CurveOk (len : V3 Nat) (sfc : Nat → V3 Nat) : Prop where
  inside : ∀ k, k < len 0 * len 1 * len 2 → ∀ d, sfc k d < len d
  once : ∀ j k, j < len 0 * len 1 * len 2 → k < len 0 * len 1 * len 2 → sfc j = sfc k → j = k
  all : ∀ p : V3 Nat, (∀ d, p d < len d) → ∃ k, k < len 0 * len 1 * len 2 ∧ sfc k = p

/-! ## Cells of the curve -/

section
variable {sfc : Nat → V3 Nat} (hw : g.WF) (hc : CurveOk g.len sfc)
include hw hc

theorem curve_inGrid {k : Nat} (hk : k < g.total) : g.InGrid fun d => sfc k d * 2 ^ g.maxLvl := fun d =>
  Nat.mul_lt_mul_of_pos_right (hc.inside k hk d) (Nat.two_pow_pos _)

theorem curveCell_range {k : Nat} (hk : k < g.total) : 1 ≤ curveCell g sfc k ∧ curveCell g sfc k ≤ g.total := by
  have h := cellAt_range (curve_inGrid hw hc hk) (Nat.zero_le _)
  rw [base_one] at h
  exact ⟨by unfold curveCell; omega, h.2⟩

theorem curveCell_idx {k : Nat} (hk : k < g.total) (d : Fin 3) :
    g.idx (curveCell g sfc k) d = sfc k d * 2 ^ g.maxLvl := by
  unfold curveCell
  rw [idx_cellAt (curve_inGrid hw hc hk) (Nat.zero_le _), Nat.sub_zero, Nat.mul_div_cancel _ (Nat.two_pow_pos _)]

theorem curveCell_inj {j k : Nat} (hj : j < g.total) (hk : k < g.total) (h : curveCell g sfc j = curveCell g sfc k) :
    j = k := by
  apply hc.once j k hj hk
  funext d
  have h1 := curveCell_idx hw hc hj d
  rw [h, curveCell_idx hw hc hk d] at h1
  exact (Nat.eq_of_mul_eq_mul_right (Nat.two_pow_pos _) h1).symm

theorem curveCell_surj {c : Nat} (h1 : 1 ≤ c) (h2 : c ≤ g.total) : ∃ k, k < g.total ∧ curveCell g sfc k = c := by
  obtain ⟨hv, hl⟩ := lvl_level0 h1 h2
  have hi : g.InGrid (g.idx c) := idx_inGrid hw hv
  obtain ⟨k, hk, e⟩ := hc.all (fun d => g.idx c d / 2 ^ g.maxLvl) (fun d =>
    (Nat.div_lt_iff_lt_mul (Nat.two_pow_pos _)).2 (hi d))
  refine ⟨k, hk, ?_⟩
  have h3 := cellAt_idx hv
  rw [hl] at h3
  rw [← h3]
  unfold curveCell cellAt
  rw [e]
  simp only [Nat.sub_zero]
  simp only [Nat.mul_div_cancel _ (Nat.two_pow_pos _)]

end

/-! ## The loop -/

/-- What holds when `s.pos` cells have been created. -/
structure AlongOk (g : Cfg) (sfc : Nat → V3 Nat) (s : Along n) : Prop where
  low : s.first ≤ s.pos
  ordered : s.first ≤ s.last
  high : s.pos ≤ s.last + 1
  size : s.last < g.total
  owner : ∀ j, j < s.pos → s.owner (curveCell g sfc j) = (createLevel0 n g.total).2 (j + 1)
  other : ∀ c, (∀ j, j < s.pos → curveCell g sfc j ≠ c) → s.owner c = none

theorem alongCell_ok {sfc : Nat → V3 Nat} (hw : g.WF) (hc : CurveOk g.len sfc) {batch : Nat} (hb : 0 < batch)
    {p : Fin n} {s : Along n} (h : AlongOk g sfc s) (ht : s.pos < g.total)
    (hp : (createLevel0 n g.total).2 (s.pos + 1) = some p) :
    ∃ s', alongCell g sfc g.total batch p s = .ok s' ∧ s'.pos = s.pos + 1 ∧ AlongOk g sfc s' := by
  have h1 := h.low
  have h2 := h.high
  have h3 := h.size
  have h6 := h.ordered
  have hn : ∃ f l, nextBatch g.total batch s = { s with first := f, last := l } ∧
      f ≤ s.pos ∧ s.pos ≤ l ∧ l < g.total ∧ f ≤ l := by
    unfold nextBatch
    by_cases hl : s.pos > s.last
    · rw [if_pos hl]
      refine ⟨s.last, _, rfl, by omega, ?_, ?_, ?_⟩ <;> split <;> omega
    · rw [if_neg hl]
      exact ⟨s.first, s.last, rfl, h1, by omega, h3, h6⟩
  obtain ⟨f, l, e, hf, hl, hs, hfl⟩ := hn
  refine ⟨{ s with first := f, last := l, pos := s.pos + 1, owner := put s.owner [curveCell g sfc s.pos] (some p) },
    ?_, rfl, ?_⟩
  · unfold alongCell
    rw [e]
    exact if_pos ⟨hf, hl, hs⟩
  · refine ⟨?_, hfl, ?_, hs, ?_, ?_⟩
    · show f ≤ s.pos + 1
      omega
    · show s.pos + 1 ≤ l + 1
      omega
    · intro j hj
      show put s.owner [curveCell g sfc s.pos] (some p) (curveCell g sfc j) = _
      unfold put
      have hj' : j < s.pos + 1 := hj
      by_cases hjp : j = s.pos
      · subst hjp
        rw [if_pos (List.mem_singleton.2 rfl), hp]
      · rw [if_neg, h.owner j (by omega)]
        intro hm
        exact hjp (curveCell_inj hw hc (by omega) ht (List.mem_singleton.1 hm))
    · intro c hcj
      show put s.owner [curveCell g sfc s.pos] (some p) c = none
      unfold put
      rw [if_neg, h.other c (fun j hj => hcj j (Nat.lt_succ_of_lt hj))]
      intro hm
      exact hcj s.pos (Nat.lt_succ_self _) (List.mem_singleton.1 hm).symm

theorem alongCells_ok {sfc : Nat → V3 Nat} (hw : g.WF) (hc : CurveOk g.len sfc) {batch : Nat} (hb : 0 < batch)
    {p : Fin n} (hn : 0 < n) {s : Along n} (h : AlongOk g sfc s) (hp : s.pos + 1 = firstOf n g.total p) (k : Nat)
    (hk : k ≤ toCreate n g.total p) :
    ∃ s', alongCells g sfc g.total batch p k s = .ok s' ∧ s'.pos = s.pos + k ∧ AlongOk g sfc s' := by
  induction k with
  | zero => exact ⟨s, rfl, rfl, h⟩
  | succ k ih =>
    obtain ⟨s1, h1, h2, h3⟩ := ih (by omega)
    have e1 := firstOf_succ (t := g.total) hn p
    have e2 := firstOf_mono (t := g.total) hn (show p.1 + 1 ≤ n from p.2)
    rw [firstOf_last hn] at e2
    obtain ⟨s2, h4, h5, h6⟩ := alongCell_ok (p := p) hw hc hb h3 (by omega)
      ((createLevel0_owner hn).2 ⟨by omega, by omega⟩)
    refine ⟨s2, ?_, by omega, h6⟩
    rw [alongCells, h1, Out.bind_ok, h4]

theorem batchSize_bounds {size batches : Nat} (hs : 0 < size) (hb : 0 < batches) :
    0 < batchSize size batches ∧ batchSize size batches ≤ size := by
  unfold batchSize
  have h1 := Nat.div_add_mod size batches
  have h2 := Nat.div_le_self size batches
  have h4 := Nat.mod_lt size hb
  split
  · refine ⟨by generalize size / batches = z; omega, ?_⟩
    rcases Nat.eq_or_lt_of_le h2 with h | h
    · have : batches = 1 ∨ 2 ≤ batches := by omega
      rcases this with rfl | h5
      · omega
      · have := Nat.mul_le_mul_right (size / batches) h5
        omega
    · omega
  · refine ⟨?_, h2⟩
    rcases Nat.eq_zero_or_pos (size / batches) with h | h
    · rw [h, Nat.mul_zero] at h1; omega
    · exact h

theorem createAlong_ok {sfc : Nat → V3 Nat} (hw : g.WF) (hc : CurveOk g.len sfc) (hn : 0 < n) {batches : Nat}
    (hb : 0 < batches) :
    ∃ w, createAlong g n sfc batches = .ok w ∧
      (∀ k, k < g.total → w (curveCell g sfc k) = (createLevel0 n g.total).2 (k + 1)) ∧
      ∀ c, ¬ (1 ≤ c ∧ c ≤ g.total) → w c = none := by
  have ht := total_pos (g := g) hw
  obtain ⟨b1, b2⟩ := batchSize_bounds ht hb
  have key : ∀ m, m ≤ n → ∀ l : List (Fin n), l = (List.finRange n).drop (n - m) → ∀ s : Along n, AlongOk g sfc s →
      s.pos + 1 = firstOf n g.total (n - m) →
      ∃ s', Out.fold (fun p s => alongCells g sfc g.total (batchSize g.total batches) p (toCreate n g.total p) s) l s =
        .ok s' ∧ s'.pos + 1 = firstOf n g.total n ∧ AlongOk g sfc s' := by
    intro m
    induction m with
    | zero =>
      intro _ l hl s h hp
      rw [Nat.sub_zero, List.drop_of_length_le (by rw [List.length_finRange]; omega)] at hl
      subst hl
      exact ⟨s, rfl, hp, h⟩
    | succ m ih =>
      intro hm l hl s h hp
      have hlt : n - (m + 1) < (List.finRange n).length := by rw [List.length_finRange]; omega
      rw [List.drop_eq_getElem_cons hlt] at hl
      subst hl
      have hq : ((List.finRange n)[n - (m + 1)]'hlt).1 = n - (m + 1) := by simp
      obtain ⟨s1, h1, h2, h3⟩ := alongCells_ok (p := (List.finRange n)[n - (m + 1)]'hlt) hw hc b1 hn h
        (by rw [hq]; exact hp) _ (Nat.le_refl _)
      have e1 := firstOf_succ (t := g.total) hn ((List.finRange n)[n - (m + 1)]'hlt).1
      obtain ⟨s2, h4, h5⟩ := ih (by omega) _ (by rw [show n - m = n - (m + 1) + 1 by omega]) s1 h3 (by
        rw [show n - m = n - (m + 1) + 1 by omega]
        rw [hq] at e1 h2
        omega)
      refine ⟨s2, ?_, h5⟩
      rw [Out.fold, h1]
      exact h4
  obtain ⟨s, h1, h2, h3⟩ := key n (Nat.le_refl n) (List.finRange n) (by simp)
    { first := 0, last := batchSize g.total batches - 1, pos := 0, owner := fun _ => none }
    ⟨Nat.le_refl _, Nat.zero_le _, Nat.zero_le _, by show batchSize g.total batches - 1 < g.total; omega,
      fun j hj => absurd hj (Nat.not_lt_zero j), fun c _ => rfl⟩
    (by rw [Nat.sub_self]; unfold firstOf; simp)
  rw [firstOf_last hn] at h2
  have hpos : s.pos = g.total := by omega
  refine ⟨s.owner, ?_, ?_, ?_⟩
  · unfold createAlong
    rw [if_neg (by omega)]
    simp only
    rw [h1, Out.bind_ok, if_pos hpos]
  · intro k hk
    exact h3.owner k (by omega)
  · intro c hcr
    apply h3.other c
    rintro j hj rfl
    exact hcr (curveCell_range hw hc (by omega))

/-! ## Any distribution of cells can be the result of load balancing -/

/-- Cells that change process, with old (`rcv`) or new process, as the partitioner reports them. -/
def movesTo (g : Cfg) (w w' : Owner n) : Fin n → Moves n := fun p =>
  { send := (ids g).filterMap fun c => if w c = some p ∧ w' c ≠ some p then (w' c).map (fun q => (c, q)) else none
    recv := (ids g).filterMap fun c => if w' c = some p ∧ w c ≠ some p then (w c).map (fun q => (c, q)) else none }

theorem mem_movesTo_send {w w' : Owner n} {p q : Fin n} {c : Nat} :
    (c, q) ∈ (movesTo g w w' p).send ↔ c ≤ g.last ∧ w c = some p ∧ w' c = some q ∧ p ≠ q := by
  show (c, q) ∈ List.filterMap _ _ ↔ _
  rw [List.mem_filterMap]
  constructor
  · rintro ⟨x, hx, h⟩
    split at h
    · rename_i h1
      obtain ⟨q', h2, h3⟩ := Option.map_eq_some_iff.1 h
      injection h3 with h3 h4
      subst h3 h4
      refine ⟨mem_ids.1 hx, h1.1, h2, ?_⟩
      rintro rfl
      exact h1.2 h2
    · cases h
  · rintro ⟨h1, h2, h3, h4⟩
    refine ⟨c, mem_ids.2 h1, ?_⟩
    rw [if_pos ⟨h2, by rw [h3]; intro e; injection e with e; exact h4 e.symm⟩, h3]
    rfl

theorem mem_movesTo_recv {w w' : Owner n} {p q : Fin n} {c : Nat} :
    (c, q) ∈ (movesTo g w w' p).recv ↔ c ≤ g.last ∧ w' c = some p ∧ w c = some q ∧ p ≠ q := by
  show (c, q) ∈ List.filterMap _ _ ↔ _
  rw [List.mem_filterMap]
  constructor
  · rintro ⟨x, hx, h⟩
    split at h
    · rename_i h1
      obtain ⟨q', h2, h3⟩ := Option.map_eq_some_iff.1 h
      injection h3 with h3 h4
      subst h3 h4
      refine ⟨mem_ids.1 hx, h1.1, h2, ?_⟩
      rintro rfl
      exact h1.2 h2
    · cases h
  · rintro ⟨h1, h2, h3, h4⟩
    refine ⟨c, mem_ids.2 h1, ?_⟩
    rw [if_pos ⟨h2, by rw [h3]; intro e; injection e with e; exact h4 e.symm⟩, h3]
    rfl

theorem filterMap_fst_nodup (f : Nat → Option (Nat × Fin n)) (hf : ∀ c m, f c = some m → m.1 = c) {l : List Nat}
    (h : l.Nodup) : ((l.filterMap f).map Prod.fst).Nodup := by
  induction l with
  | nil => exact List.nodup_nil
  | cons a l ih =>
    rw [List.nodup_cons] at h
    rw [List.filterMap_cons]
    cases e : f a with
    | none => exact ih h.2
    | some m =>
      rw [List.map_cons, List.nodup_cons]
      refine ⟨?_, ih h.2⟩
      rw [hf a m e]
      intro hm
      obtain ⟨x, h1, h2⟩ := List.mem_map.1 hm
      obtain ⟨y, h3, h4⟩ := List.mem_filterMap.1 h1
      have := hf y x h4
      rw [h2] at this
      rw [← this] at h3
      exact h.1 h3

theorem movesTo_ok (w w' : Owner n) : MovesOk w (movesTo g w w') := by
  refine ⟨fun p q c hpq => ?_, fun p q c hpq h => (mem_movesTo_send.1 h).2.1, fun p => ?_, fun p => ?_⟩
  · rw [mem_movesTo_send, mem_movesTo_recv]
    constructor
    · rintro ⟨h1, h2, h3, h4⟩; exact ⟨h1, h3, h2, h4.symm⟩
    · rintro ⟨h1, h2, h3, h4⟩; exact ⟨h1, h3, h2, h4.symm⟩
  · refine filterMap_fst_nodup _ (fun c m h => ?_) (show (ids g).Nodup from List.nodup_range)
    split at h
    · obtain ⟨q', h2, h3⟩ := Option.map_eq_some_iff.1 h
      rw [← h3]
    · cases h
  · refine filterMap_fst_nodup _ (fun c m h => ?_) (show (ids g).Nodup from List.nodup_range)
    split at h
    · obtain ⟨q', h2, h3⟩ := Option.map_eq_some_iff.1 h
      rw [← h3]
    · cases h

theorem newHome_movesTo {w w' : Owner n} (hv : ∀ c, exist w c = true → g.Valid c)
    (he : ∀ c, exist w' c = exist w c) : newHome w (fun _ => none) (movesTo g w w') = w' := by
  funext c
  cases hc : w c with
  | none =>
    have := he c
    rw [show exist w c = false by unfold exist; rw [hc]; rfl] at this
    unfold exist at this
    rw [newHome, hc]
    cases h : w' c with
    | none => rfl
    | some q => rw [h] at this; cases this
  | some p =>
    have h1 := he c
    rw [exist_of hc, exist_iff] at h1
    obtain ⟨q, hq⟩ := h1
    by_cases hpq : p = q
    · rw [newHome_stays, hc, hq, hpq]
      rintro a b ⟨h2, h3, h4 | ⟨-, h4⟩⟩
      · cases h4
      · have h5 := mem_movesTo_send.1 h4
        rw [hc] at h3
        rw [hq] at h5
        injection h3 with h3
        injection h5.2.2.1 with h6
        exact h2 (h3.symm.trans (hpq.trans h6))
    · rw [hq]
      exact newHome_goes (movesTo_ok w w') ⟨hpq, hc, .inr ⟨rfl, mem_movesTo_send.2
        ⟨(hv c (exist_of hc)).2, hc, hq, hpq⟩⟩⟩

theorem Proc.eq_of {a b : Proc n D W} (h1 : a.owner = b.owner) (h2 : a.data = b.data) (h3 : a.remote = b.remote)
    (h4 : a.req = b.req) (h5 : a.refinedData = b.refinedData) (h6 : a.unrefinedData = b.unrefinedData)
    (h7 : a.pins = b.pins) (h8 : a.newPins = b.newPins) (h9 : a.weights = b.weights) (h10 : a.hoods = b.hoods) :
    a = b := by
  cases a; cases b
  simp only at *
  subst h1 h2 h3 h4 h5 h6 h7 h8 h9 h10
  rfl

/-- A grid created with any distribution of level 0 cells is the result of `initialize` and load balancing. -/
theorem freshWith_reachable (hw : g.WF) (hn : 0 < n) {w : Owner n} (he : ∀ c, exist w c = true ↔ 1 ≤ c ∧ c ≤ g.total)
    {dflt : D} {maxTag : Nat} {s : Sys n D W}
    (h : Out.collect (fun i => rebuild g dflt maxTag i (freshWith g w dflt i)) = .ok s) :
    Reachable g dflt (max maxTag g.last) s := by
  have hM : maxTag ≤ max maxTag g.last := Nat.le_max_left _ _
  have hM' : g.last ≤ max maxTag g.last := Nat.le_max_right _ _
  generalize max maxTag g.last = M at *
  have hv := (createLevel0_tiled (n := n) hw hn).valid
  obtain ⟨s0, h1, h2, h3⟩ := createGrid_spec (n := n) (W := W) hw hn dflt (fitsTags_mono hM' (fitsTags_last hv))
  have hex : ∀ c, exist w c = exist (createLevel0 n g.total).2 c := by
    intro c
    rw [Bool.eq_iff_iff, he, createLevel0_exist hn]
  have hpin : pinned (createLevel0 n g.total).2 s0 = fun _ => none := by
    funext c
    unfold pinned
    split
    · rfl
    · rename_i p hp
      have := (h3 p).2.2.2.2 c
      rw [this.2.2.1, this.2.2.2.1]; rfl
  have hnew : newHome (createLevel0 n g.total).2 (pinned (createLevel0 n g.total).2 s0)
      (movesTo g (createLevel0 n g.total).2 w) = w := by
    rw [hpin]; exact newHome_movesTo hv hex
  have hvw : ∀ c, exist w c = true → g.Valid c := fun c hc => hv c (by rw [← hex]; exact hc)
  obtain ⟨r, h4, h5⟩ := balanceLoad_spec hw dflt (movesTo_ok (g := g) (createLevel0 n g.total).2 w) h2
    (fitsTags_mono hM' (fitsTags_last hv)) (by rw [hnew]; exact fitsTags_mono hM' (fitsTags_last hvw))
  rw [hnew] at h5
  have hr : Reachable g dflt M r := .step (.balance _) (.init h1) (fun i => by
    rw [h2.owner i]; exact movesTo_ok (g := g) _ w) h4
  have : s = r := by
    funext i
    have e := Out.collect_inv h i
    have h6 := h5 i
    have hd : (r i).data = fun c => if w c = some i then some dflt else none := by
      funext c
      split
      · rename_i hc
        obtain ⟨p, hp⟩ := exist_iff.1 (show exist (createLevel0 n g.total).2 c = true by rw [← hex]; exact exist_of hc)
        rw [h6.data c p hp hc, (h3 p).2.2.1, if_pos hp]
      · rename_i hc
        have := mt (h6.placed c).1 hc
        cases hx : (r i).data c with
        | none => rfl
        | some x => rw [hx] at this; exact absurd rfl this
    unfold rebuild at e
    split at e
    · cases e
    · split at e
      · cases e
      · injection e with e
        rw [← e]
        refine Proc.eq_of h6.owner.symm hd.symm (funext fun c => ?_) h6.req.symm
          (funext fun c => (h6.refinedData c).symm) (funext fun c => (h6.unrefinedData c).symm) (funext fun c => ?_)
          (funext fun c => (h6.newPins c).symm) (funext fun c => (h6.weights c).symm) ?_
        · rw [h6.remote c, hd]
          rfl
        · rw [h6.pins c, hpin]
          rfl
        · rw [h6.hoods, (h3 i).2.1]
          rfl
  rw [this]
  exact hr

/-! ## Limits on tags of messages -/

theorem addHood_mono {maxTag M : Nat} (hM : maxTag ≤ M) {dflt : D} {i : Fin n} {p : Proc n D W} {id : Int}
    {items : List (V3 Int)} {r : Bool × Proc n D W} (h : addHood g dflt maxTag i p id items = .ok r) :
    addHood g dflt M i p id items = .ok r := by
  unfold addHood at h ⊢
  split at h
  · rename_i h1; rw [if_pos h1]; exact h
  · rename_i h1
    rw [if_neg h1]
    split at h
    · rename_i h2; rw [if_pos h2]; exact h
    · rename_i h2
      rw [if_neg h2]
      split at h
      · rename_i h3; rw [if_pos h3]; exact h
      · rename_i h3
        rw [if_neg h3]
        split at h
        · cases h
        · rename_i h4
          rw [if_neg h4]
          split at h
          · cases h
          · rename_i h5
            rw [if_neg]
            · exact h
            · have h6 : tagsFit g maxTag i { p with hoods := [(id, items)] } = true := by simpa using h5
              have : tagsFit g M i { p with hoods := [(id, items)] } = true := by
                unfold tagsFit at h6 ⊢
                simp only [List.all_eq_true, Bool.and_eq_true, decide_eq_true_eq] at h6 ⊢
                intro H hH q hq
                obtain ⟨e1, e2⟩ := h6 H hH q hq
                exact ⟨by omega, by omega⟩
              rw [this]; simp

/-- An operation that returns has the same result when more tags are available. -/
theorem step_mono {maxTag M : Nat} (hM : maxTag ≤ M) {dflt : D} {s s' : Sys n D W} (op : Op n D W)
    (h : step g dflt maxTag s op = .ok s') : step g dflt M s op = .ok s' := by
  cases op with
  | update id =>
    obtain ⟨r, h1, h2⟩ := Out.bind_inv h
    show (updateRemote g M id s).bind _ = _
    rw [updateRemote_mono hM h1]; exact h2
  | addHood id items =>
    obtain ⟨r, h1, h2⟩ := Out.bind_inv h
    show (Out.collect fun i => Dccrg.addHood g dflt M i (s i) id items).bind _ = _
    rw [Out.collect_ok fun i => addHood_mono hM (Out.collect_inv h1 i)]; exact h2
  | stop sorted =>
    obtain ⟨r, h1, h2⟩ := Out.bind_inv h
    show (stopRefining g dflt M sorted s).bind _ = _
    rw [stopRefining_mono hM h1]; exact h2
  | balance z => exact balanceLoad_mono hM h
  | _ => exact h

/-- A state that is reachable stays so when more tags are available. -/
theorem Reachable.mono {maxTag M : Nat} (hM : maxTag ≤ M) {dflt : D} {s : Sys n D W}
    (h : Reachable g dflt maxTag s) : Reachable g dflt M s := by
  induction h with
  | init h => exact .init (createGrid_mono hM h)
  | step op _ ho hs ih => exact .step op (ih hM) ho (step_mono hM op hs)
  | copy _ ih => exact .copy (ih hM)

end Dccrg
