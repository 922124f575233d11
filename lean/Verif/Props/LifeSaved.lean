import Verif.Props.Life
import Verif.Props.Convert
import Verif.Props.Interlaced
/-!
# C134: the game of life example with output
-/
namespace Dccrg
open Cfg

/-! ## Specification -/

/-- One layer of cells whose neighbors are those that share a vertex, with any maximum refinement level (examples/game_of_life_with_output.cpp:139-145). -/
def OneLayer (g : Cfg) : Prop := g.hood = 1 ∧ g.len 2 = 1 ∧ g.periodic 2 = false

/-- Cells haven't been refined. -/
def NotRefined {n : Nat} {D W : Type} (g : Cfg) (s : Sys n D W) : Prop := ∀ i c, (s i).owner c ≠ none → g.lvl c = 0

/-! ## Proofs -/

variable {n : Nat} {W : Type} {g : Cfg} {w : Owner n} {s : Sys n Nat W} {dflt : Nat} {maxTag : Nat} {id : Int} {k : Fin n → Cache} {single : Bool}
  {T : Nat} {x : Game n Nat Nat} {B : Nat → Nat → Bool}

/-- Place of an unrefined cell. -/
def colOf (g : Cfg) (c : Nat) (d : Fin 3) : Nat := g.idx c d / 2 ^ g.maxLvl

theorem whole_side {c : Nat} (h0 : g.lvl c = 0) : g.side c = 2 ^ g.maxLvl := by
  unfold side; rw [h0, Nat.sub_zero]

theorem whole_idx (hw : g.WF) {c : Nat} (h0 : g.lvl c = 0) (hv : g.Valid c) (d : Fin 3) :
    g.idx c d = 2 ^ g.maxLvl * colOf g c d ∧ colOf g c d < g.len d := by
  have h1 := side_dvd_idx hw hv d
  rw [whole_side h0] at h1
  have e : g.idx c d = 2 ^ g.maxLvl * colOf g c d := (Nat.mul_div_cancel' h1).symm
  refine ⟨e, ?_⟩
  have h2 := idx_inGrid hw hv d
  unfold Cfg.n at h2
  rw [e, Nat.mul_comm] at h2
  exact Nat.lt_of_mul_lt_mul_right h2

theorem whole_cell (hw : g.WF) (hf : OneLayer g) {c : Nat} (h0 : g.lvl c = 0) (hv : g.Valid c) :
    colOf g c 2 = 0 ∧ c = squareCell g (colOf g c 0) (colOf g c 1) := by
  have h2 := (whole_idx hw h0 hv 2).2
  rw [hf.2.1] at h2
  have h2' : colOf g c 2 = 0 := by omega
  refine ⟨h2', ?_⟩
  have := cellAt_idx hv
  unfold cellAt at this
  rw [h0] at this
  unfold squareCell
  unfold colOf at h2' ⊢
  simp only [Nat.sub_zero, Nat.pow_zero, Nat.mul_one, base, h2', Nat.zero_mul, Nat.add_zero] at this
  omega

theorem whole_square (hw : g.WF) (hf : OneLayer g) {x y : Nat} (hx : x < g.len 0) (h0 : g.lvl (squareCell g x y) = 0) (hv : g.Valid (squareCell g x y)) :
    colOf g (squareCell g x y) 0 = x ∧ colOf g (squareCell g x y) 1 = y := by
  have h3 := (whole_cell hw hf h0 hv).2
  have h1 := (whole_idx hw h0 hv 0).2
  unfold squareCell at h3 h1 ⊢
  obtain ⟨e1, e2⟩ := square_unique (y := y) (y' := colOf g (1 + x + y * g.len 0) 1) hx h1 (by omega)
  exact ⟨e1.symm, e2.symm⟩

theorem layer_hood (hf : OneLayer g) (P : Int → Int → Bool) :
    (hoodOf g).countP (fun o => decide (o 2 = 0) && P (o 0) (o 1)) = around.countP fun o => P o.1 o.2 := by
  unfold hoodOf
  rw [hf.1]
  rfl

theorem scaled_range {S : Nat} (hS : 0 < S) (z : Int) (m : Nat) : (0 ≤ (S : Int) * z ∧ (S : Int) * z < ((m * S : Nat) : Int)) ↔ 0 ≤ z ∧ z < m := by
  have hS : (0 : Int) < S := by omega
  rw [Int.natCast_mul, Int.mul_comm (m : Int)]
  exact ⟨fun h => ⟨Int.nonneg_of_mul_nonneg_right h.1 hS, Int.lt_of_mul_lt_mul_left h.2 (by omega)⟩,
    fun h => ⟨Int.mul_nonneg (by omega) h.1, Int.mul_lt_mul_of_pos_left h.2 hS⟩⟩

/-- What one offset adds to the count of live neighbors. -/
theorem whole_item (hw : g.WF) (hf : OneLayer g) {E : Nat → Bool} (ht : ∀ b, E b = true → g.Valid b ∧ g.lvl b = 0) {c : Nat} (hc : g.Valid c)
    (hc0 : g.lvl c = 0) {o : V3 Int} {l : List (Nat × V3 Int)} (h : IsItem g E c o l) {u : Nat → Option Nat}
    (hu : ∀ b, E b = true → (0 < (u b).getD 0 ↔ B (colOf g b 0) (colOf g b 1) = true)) :
    l.countP (fun a => decide (0 < (u a.1).getD 0)) =
      if (decide (o 2 = 0) && squareOf g B (colOf g c 0 + o 0) (colOf g c 1 + o 1)) = true then 1 else 0 := by
  have hS : 0 < 2 ^ g.maxLvl := Nat.pow_pos (by omega)
  have hn : ∀ d, g.n d = g.len d * 2 ^ g.maxLvl := fun d => rfl
  have hi2 := (whole_cell hw hf hc0 hc).1
  have hidx : ∀ d, (g.idx c d : Int) = ((2 ^ g.maxLvl : Nat) : Int) * colOf g c d := fun d => by
    rw [(whole_idx hw hc0 hc d).1, Int.natCast_mul]
  have hcor : ∀ d, corner g c o d = ((2 ^ g.maxLvl : Nat) : Int) * (colOf g c d + o d) := fun d => by
    unfold corner; rw [whole_side hc0, hidx, Int.mul_add, Int.mul_comm (o d)]
  have hin : g.InCover (corner g c o) ↔ o 2 = 0 ∧
      (g.periodic 0 || decide (0 ≤ (colOf g c 0 : Int) + o 0 ∧ (colOf g c 0 : Int) + o 0 < g.len 0)) = true ∧
      (g.periodic 1 || decide (0 ≤ (colOf g c 1 : Int) + o 1 ∧ (colOf g c 1 : Int) + o 1 < g.len 1)) = true := by
    unfold InCover
    rw [forall_fin3, hcor, hcor, hcor, hn, hn, hn, scaled_range hS, scaled_range hS, scaled_range hS, hf.2.1, hf.2.2, hi2]
    simp only [Bool.or_eq_true, decide_eq_true_eq, Bool.false_eq_true, false_or]
    constructor
    · rintro ⟨a, b, c⟩; exact ⟨by omega, a, b⟩
    · rintro ⟨a, b, c⟩; exact ⟨b, c, by omega⟩
  cases h with
  | outside h =>
    rw [List.countP_nil, if_neg]
    intro hh
    rw [hin] at h
    unfold squareOf at hh
    simp only [Bool.and_eq_true, decide_eq_true_eq] at hh
    exact h ⟨hh.1, hh.2.1.1, hh.2.1.2⟩
  | @covers b off h1 h2 h3 h4 h5 =>
    have hi := hin.1 h1
    obtain ⟨hbv, hb0⟩ := ht b h2
    have hoff : ∀ d, off d = ((2 ^ g.maxLvl : Nat) : Int) * o d := fun d => by
      rw [Int.mul_comm]
      rcases item_range (IsItem.covers h1 h2 h3 h4 h5) (List.mem_singleton.2 rfl) d with ⟨-, r⟩ | ⟨r, -⟩
      · rw [whole_side hc0, whole_side hb0] at r; omega
      · rw [whole_side hc0, whole_side hb0] at r; omega
    have hm : ∀ d : Fin 3, ((colOf g c d + o d) % (g.len d : Int)).toNat = colOf g b d := fun d => by
      obtain ⟨hbi, hlt⟩ := whole_idx hw hb0 hbv d
      have hq := (h4 d).1
      dsimp only at hq
      rw [hn, hoff, hidx, hbi, Int.natCast_mul, Int.natCast_mul, Int.mul_comm (g.len d : Int), ← Int.mul_add, ← Int.mul_sub] at hq
      obtain ⟨q, hq⟩ := Int.dvd_of_mul_dvd_mul_left (by omega) hq
      have : (colOf g c d : Int) + o d = colOf g b d + g.len d * q := by omega
      rw [this, Int.add_mul_emod_self_left, Int.emod_eq_of_lt (by omega) (by omega)]
      omega
    have e : (decide (o 2 = 0) && squareOf g B (colOf g c 0 + o 0) (colOf g c 1 + o 1)) = B (colOf g b 0) (colOf g b 1) := by
      unfold squareOf
      rw [hi.2.1, hi.2.2, decide_eq_true hi.1, hm 0, hm 1]
      rfl
    rw [e, List.countP_singleton]
    by_cases hB : B (colOf g b 0) (colOf g b 1) = true
    · rw [if_pos hB, if_pos (decide_eq_true ((hu b h2).2 hB))]
    · rw [if_neg hB, if_neg (fun h => hB ((hu b h2).1 (of_decide_eq_true h)))]
  | @eight kk t h1 h2 h3 =>
    obtain ⟨a1, a2, -⟩ := h3 (v3 0 0 0) (by decide)
    rw [whole_side (ht _ a1).2] at a2
    rw [whole_side hc0] at h2
    omega

theorem whole_count (hw : g.WF) (hf : OneLayer g) (hi : Inv g w s) (h0 : ∀ c, exist w c = true → g.lvl c = 0)
    (hH : ∀ i, hoodFor g (s i) id = some (hoodOf g)) (i : Fin n) {c : Nat}
    (hc : exist w c = true) {u : Nat → Option Nat} (hu : ∀ b, exist w b = true → (0 < (u b).getD 0 ↔ B (colOf g b 0) (colOf g b 1) = true)) :
    liveCount c (((getNeighborsOf g (s i) c id).getD []).map fun a => (a, u a.1)) = aliveAround g B (colOf g c 0) (colOf g c 1) := by
  obtain ⟨f, f1, f2, -⟩ := hi.neighborsOf hw (hH i) hc
  rw [f1]
  show List.countP _ (((hoodOf g).flatMap f).map _) = _
  rw [List.countP_map, List.countP_flatMap]
  unfold aliveAround
  rw [← layer_hood hf fun a b => squareOf g B (colOf g c 0 + a) (colOf g c 1 + b)]
  exact sum_ones _ _ _ fun o ho => whole_item hw hf (fun b hb => ⟨hi.sys.tiled.valid b hb, h0 b hb⟩) (hi.sys.tiled.valid c hc) (h0 c hc) (f2 o ho) hu

theorem whole_field (hw : g.WF) (hf : OneLayer g) (hi : Inv g w s) (h0 : ∀ c, exist w c = true → g.lvl c = 0) (hn : 0 < n)
    (hH : ∀ i, hoodFor g (s i) id = some (hoodOf g)) {u : Nat → Option Nat} (hs : ∀ c, (u c).isSome = exist w c)
    (hu : ∀ c, exist w c = true → (0 < (u c).getD 0 ↔ B (colOf g c 0) (colOf g c 1) = true)) (r : Nat) {c : Nat} (hc : exist w c = true) :
    0 < (turnField g (hoodOf g) (sweepOf dflt liveCount lifeRule) u r c).getD 0 ↔ conwayAfter g B r (colOf g c 0) (colOf g c 1) = true := by
  induction r generalizing c with
  | zero => exact hu c hc
  | succ r ih =>
    obtain ⟨h1, h2⟩ := turnField_next hw hi hH (f := sweepOf dflt liveCount lifeRule) hs r
    have h3 := h1 c
    rw [hc] at h3
    obtain ⟨d, hd⟩ := Option.isSome_iff_exists.1 h3
    rw [h2 ⟨0, hn⟩ c d hc hd, sweepOf, whole_count hw hf hi h0 hH _ hc fun b hb => ih hb]
    have hd' := ih hc
    rw [hd] at hd'
    show 0 < lifeRule c d _ ↔ conway g (conwayAfter g B r) _ _ = true
    unfold lifeRule conway
    simp only [Bool.or_eq_true, Bool.and_eq_true, decide_eq_true_eq]
    have hd' : 0 < d ↔ conwayAfter g B r (colOf g c 0) (colOf g c 1) = true := hd'
    rw [← hd']
    split
    · omega
    · split <;> omega

theorem PlayedOn.whole (hw : g.WF) (hf : OneLayer g) (hi : Inv g w s) (h0 : ∀ c, exist w c = true → g.lvl c = 0) (hn : 0 < n) (hp : PlayedOn g s B)
    {u : Nat → Option Nat} (hu : Holds s u) :
    (∀ c, (u c).isSome = exist w c) ∧ ∀ c, exist w c = true → (0 < (u c).getD 0 ↔ B (colOf g c 0) (colOf g c 1) = true) := by
  have h1 : ∀ c, (u c).isSome = exist w c := fun c => by
    have := congrFun (isSome_eq_exist hu ⟨0, hn⟩) c
    rwa [hi.sys.owner] at this
  refine ⟨h1, fun c hc => ?_⟩
  have h2 := h1 c
  rw [hc] at h2
  obtain ⟨d, hd⟩ := Option.isSome_iff_exists.1 h2
  obtain ⟨j, hj⟩ := exist_iff.1 hc
  have hv := hi.sys.tiled.valid c hc
  have e3 := (whole_cell hw hf (h0 c hc) hv).2
  have hj' : (s j).owner c = some j := by rw [hi.sys.owner]; exact hj
  have ha := ((hu j c).1 j hj').1
  rw [hd] at ha ⊢
  exact hp j _ _ d (whole_idx hw (h0 c hc) hv 0).2 (whole_idx hw (h0 c hc) hv 1).2 (by rw [← e3]; exact hj') (by rw [← e3]; exact ha)

theorem NotRefined.all (hi : Inv g w s) (h : NotRefined g s) (i : Fin n) {c : Nat} (hc : exist w c = true) : g.lvl c = 0 := by
  obtain ⟨j, hj⟩ := exist_iff.1 hc
  exact h i c (by rw [hi.sys.owner, hj]; simp)

/-! ## The property -/

/-- C134: the game in a grid that could be refined but hasn't been: when a process has finished `T` turns its cells are alive exactly where the board of
Conway's game of life is after `T` turns. -/
theorem C134_overlap (hw : g.WF) (hf : OneLayer g) (h : Reachable g dflt maxTag s) (h0 : NotRefined g s)
    (hk : ∀ i, updatePointers g i (s i) defaultId = .ok (k i))
    (hp : PlayedOn g s B) (hr : Overlaps g s defaultId (hoodOf g) k single dflt liveCount lifeRule T x) {i : Fin n} (hi : x.todo i = [])
    {a b : Nat} (ha : a < g.len 0) (hc : (s i).owner (squareCell g a b) = some i) :
    0 < x.a.data i (squareCell g a b) ↔ conwayAfter g B T a b = true := by
  have hn : 0 < n := by have := i.2; omega
  have hH : ∀ i, hoodFor g (s i) defaultId = some (hoodOf g) := fun i => rfl
  obtain ⟨w, hI⟩ := h.inv hw hn
  have h0 := fun c hc => h0.all hI i (c := c) hc
  obtain ⟨u, hu⟩ := hI.holds
  obtain ⟨h1, h2⟩ := hp.whole hw hf hI h0 hn hu
  have hG := hr.inv hw h hH hk hu
  have hO := loopOf_ok (single := single) (count := liveCount) (rule := lifeRule) hw h hH hk hu
  have hd := ((hG.2 i).counts.2.2 hi).2 _ (decide_eq_true hc) (hO.all i _)
  have hc' : exist w (squareCell g a b) = true := by rw [hI.sys.owner] at hc; exact exist_of hc
  have := whole_field (dflt := dflt) hw hf hI h0 hn hH h1 h2 T hc'
  have hsq := whole_square hw hf ha (h0 _ hc') (hI.sys.tiled.valid _ hc')
  rw [← hd, hsq.1, hsq.2] at this
  exact this

/-- C134: the same without overlap of calculation and communication. -/
theorem C134_simple {t : Sys n Nat W} (hw : g.WF) (hn : 0 < n) (hf : OneLayer g) (h : Idle g dflt maxTag s) (h0 : NotRefined g s) (hp : PlayedOn g s B)
    (ht : Simulates g dflt maxTag (List.replicate T (.sweep defaultId (hoodOf g) (sweepOf dflt liveCount lifeRule))) s t) :
    PlayedOn g t (conwayAfter g B T) ∧ NotRefined g t := by
  have hH : ∀ i, hoodFor g (s i) defaultId = some (hoodOf g) := fun i => rfl
  obtain ⟨w, hI⟩ := h.reachable.inv hw hn
  have h0 := fun c hc => h0.all hI ⟨0, hn⟩ (c := c) hc
  obtain ⟨u, hu⟩ := hI.holds
  obtain ⟨h1, h2⟩ := hp.whole hw hf hI h0 hn hu
  have hT := (ht.holds hw hn h hu).2
  rw [foldl_turns] at hT
  have hex : ∀ i c, exist (t i).owner c = true → exist w c = true := fun i c hc => by
    rw [← (turnField_next hw hI hH (f := sweepOf dflt liveCount lifeRule) h1 T).1, Option.isSome_iff_ne_none]
    exact ((hT i _).2).1 hc
  refine ⟨fun i a b d ha hb hc hd => ?_, fun i c hc => ?_⟩
  · have e := ((hT i _).1 i hc).1
    rw [hd] at e
    have hc' := hex i _ (exist_of hc)
    have := whole_field (dflt := dflt) hw hf hI h0 hn hH h1 h2 T hc'
    have hsq := whole_square hw hf ha (h0 _ hc') (hI.sys.tiled.valid _ hc')
    rw [← e, hsq.1, hsq.2] at this
    exact this
  · obtain ⟨j, hj⟩ := Option.ne_none_iff_exists'.1 hc
    exact h0 c (hex i c (exist_of hj))

/-- `is_alive` stays representable. -/
theorem turns_small {t : Sys n Nat W} {m : Nat} (hm : 0 < m) (hw : g.WF) (hn : 0 < n) (h : Idle g dflt maxTag s)
    (hs : ∀ i c d, (s i).data c = some d → d ≤ m)
    (ht : Simulates g dflt maxTag (List.replicate T (.sweep defaultId (hoodOf g) (sweepOf dflt liveCount lifeRule))) s t) :
    ∀ i c d, (t i).data c = some d → d ≤ m := by
  have hH : ∀ i, hoodFor g (s i) defaultId = some (hoodOf g) := fun i => rfl
  obtain ⟨w, hI⟩ := h.reachable.inv hw hn
  obtain ⟨u, hu⟩ := hI.holds
  obtain ⟨hid, hT⟩ := ht.holds hw hn h hu
  rw [foldl_turns] at hT
  obtain ⟨w', hI'⟩ := hid.reachable.inv hw hn
  have h1 : ∀ c, (u c).isSome = exist w c := fun c => by
    have := congrFun (isSome_eq_exist hu ⟨0, hn⟩) c
    rwa [hI.sys.owner] at this
  have key : ∀ r c d, turnField g (hoodOf g) (sweepOf dflt liveCount lifeRule) u r c = some d → d ≤ m := by
    intro r
    induction r with
    | zero =>
      intro c d hd
      have hd : u c = some d := hd
      have hc : exist w c = true := by rw [← h1, hd]; rfl
      obtain ⟨j, hj⟩ := exist_iff.1 hc
      have := ((hu j c).1 j (by rw [hI.sys.owner]; exact hj)).2
      exact hs j c d (by rw [this, hd])
    | succ r ih =>
      intro c d hd
      obtain ⟨k1, k2⟩ := turnField_next hw hI hH (f := sweepOf dflt liveCount lifeRule) h1 r
      obtain ⟨k1', -⟩ := turnField_next hw hI hH (f := sweepOf dflt liveCount lifeRule) h1 (r + 1)
      have hc : exist w c = true := by rw [← k1', hd]; rfl
      have k3 := k1 c
      rw [hc] at k3
      obtain ⟨d', hd'⟩ := Option.isSome_iff_exists.1 k3
      rw [k2 ⟨0, hn⟩ c d' hc hd', sweepOf] at hd
      have hd : lifeRule c d' _ = d := Option.some.inj hd
      have := ih c d' hd'
      rw [← hd]
      unfold lifeRule
      split
      · omega
      · split <;> omega
  intro i c d hd
  have ho : (t i).owner c = some i := by
    rw [hI'.sys.owner]
    exact (hI'.sys.placed i c).1 (by rw [hd]; rfl)
  have := ((hT i c).1 i ho).2
  exact key T c d (by rw [← this, hd])

/-- C134: a file saved in a state of the game has every square of the board exactly once and nothing else, alive or not as on the board. -/
theorem C134_saved {e : Order} {M : Meta} {p : CartPar} (hn : 0 < n) (hok : M.mapping.OK) (hM : M.Readable) (hk : M.geom.id = 1)
    (hf : OneLayer M.grid) {s : Sys n Nat W} (hs : Reachable M.grid dflt maxTag s) (h0 : NotRefined M.grid s) (hp : PlayedOn M.grid s B)
    {mine : Fin n → List Nat} (hmine : ∀ i, (mine i).Nodup ∧ ∀ c, c ∈ mine i ↔ ((s i).data c).isSome = true)
    (ha : ∀ i c d, (s i).data c = some d → d < 2 ^ 32) {turn : Nat} (ht : turn < 2 ^ 64) {ws : Fin n → List Write}
    (hsave : save e M { offset := 0, header := timeHeader e turn } mine (fun i c => ((s i).data c).map fun d => alivePiece e d) = .ok ws)
    {l : List Write} (hl : l.Perm ((List.finRange n).flatMap ws)) (f : File) :
    ∃ cells, dcRead e (f.writes l) p = some (turn, M, cells) ∧ (cells.map Prod.fst).Nodup ∧
      (∀ c v, (c, v) ∈ cells → ∃ a b, a < M.grid.len 0 ∧ b < M.grid.len 1 ∧ c = squareCell M.grid a b ∧ (0 < v ↔ B a b = true)) ∧
      ∀ a b, a < M.grid.len 0 → b < M.grid.len 1 → ∃ v, (squareCell M.grid a b, v) ∈ cells := by
  have hw : M.grid.WF := grid_wf hok
  obtain ⟨w, hI⟩ := hs.inv hw hn
  have h0 := fun c hc => h0.all hI ⟨0, hn⟩ (c := c) hc
  obtain ⟨cells, c1, c2, c3⟩ := C118_read (alive := fun d => d) (p := p) hn hok hM hk hs hmine ha ht hsave hl f
  refine ⟨cells, c1, c2, fun c v hc => ?_, fun a b ha hb => ?_⟩
  · obtain ⟨i, d, hd, rfl⟩ := (c3 c v).1 hc
    have hwi := (hI.sys.placed i c).1 (by rw [hd]; rfl)
    have hex := exist_of hwi
    have hv := hI.sys.tiled.valid c hex
    have e3 := (whole_cell hw hf (h0 c hex) hv).2
    refine ⟨_, _, (whole_idx hw (h0 c hex) hv 0).2, (whole_idx hw (h0 c hex) hv 1).2, e3, ?_⟩
    exact hp i _ _ d (whole_idx hw (h0 c hex) hv 0).2 (whole_idx hw (h0 c hex) hv 1).2 (by rw [← e3, hI.sys.owner]; exact hwi)
      (by rw [← e3, (hI.access_own hwi).1]; exact hd)
  · have hS : 0 < 2 ^ M.grid.maxLvl := Nat.pow_pos (by omega)
    have hin : M.grid.InGrid (v3 (2 ^ M.grid.maxLvl * a) (2 ^ M.grid.maxLvl * b) 0) := by
      intro d
      revert d
      rw [forall_fin3]
      unfold Cfg.n
      rw [hf.2.1]
      refine ⟨?_, ?_, ?_⟩
      · show 2 ^ M.grid.maxLvl * a < _
        rw [Nat.mul_comm]
        exact Nat.mul_lt_mul_of_pos_right ha hS
      · show 2 ^ M.grid.maxLvl * b < _
        rw [Nat.mul_comm]
        exact Nat.mul_lt_mul_of_pos_right hb hS
      · show 0 < _
        omega
    obtain ⟨c, hex, hm⟩ := hI.sys.tiled.cover _ hin
    have hv := hI.sys.tiled.valid c hex
    have e3 := (whole_cell hw hf (h0 c hex) hv).2
    have key : ∀ (z : Nat) (d : Fin 3), M.grid.idx c d ≤ 2 ^ M.grid.maxLvl * z ∧ 2 ^ M.grid.maxLvl * z < M.grid.idx c d + M.grid.side c →
        colOf M.grid c d = z := fun z d h => by
      rw [(whole_idx hw (h0 c hex) hv d).1, whole_side (h0 c hex)] at h
      have a1 : colOf M.grid c d ≤ z := Nat.le_of_mul_le_mul_left h.1 hS
      have a2 : 2 ^ M.grid.maxLvl * z < 2 ^ M.grid.maxLvl * (colOf M.grid c d + 1) := by rw [Nat.mul_add, Nat.mul_one]; exact h.2
      have a3 := Nat.lt_of_mul_lt_mul_left a2
      omega
    have e0 := key a 0 (hm 0)
    have e1 := key b 1 (hm 1)
    rw [e0, e1] at e3
    obtain ⟨j, hj⟩ := exist_iff.1 hex
    obtain ⟨d, hd⟩ := Option.ne_none_iff_exists'.1 (hI.access_own hj).2
    exact ⟨d, (c3 _ d).2 ⟨j, d, by rw [← e3]; exact hd, rfl⟩⟩

/-- C134, examples/game_of_life_with_output.cpp and examples/dc2vtk.cpp: from the file that is saved after `T` turns, on any number of processes, the
board of Conway's game of life after `T` turns is read. -/
theorem C134_file {e : Order} {M : Meta} {p : CartPar} (hn : 0 < n) (hok : M.mapping.OK) (hM : M.Readable) (hk : M.geom.id = 1)
    (hf : OneLayer M.grid) {s t : Sys n Nat W} (hs : Idle M.grid dflt maxTag s) (h0 : NotRefined M.grid s) (hp : PlayedOn M.grid s B)
    (ha : ∀ i c d, (s i).data c = some d → d < 2 ^ 32)
    (ht : Simulates M.grid dflt maxTag (List.replicate T (.sweep defaultId (hoodOf M.grid) (sweepOf dflt liveCount lifeRule))) s t)
    {mine : Fin n → List Nat} (hmine : ∀ i, (mine i).Nodup ∧ ∀ c, c ∈ mine i ↔ ((t i).data c).isSome = true) (hT : T < 2 ^ 64)
    {ws : Fin n → List Write}
    (hsave : save e M { offset := 0, header := timeHeader e T } mine (fun i c => ((t i).data c).map fun d => alivePiece e d) = .ok ws)
    {l : List Write} (hl : l.Perm ((List.finRange n).flatMap ws)) (f : File) :
    ∃ cells, dcRead e (f.writes l) p = some (T, M, cells) ∧ (cells.map Prod.fst).Nodup ∧
      (∀ c v, (c, v) ∈ cells → ∃ a b, a < M.grid.len 0 ∧ b < M.grid.len 1 ∧ c = squareCell M.grid a b ∧
        (0 < v ↔ conwayAfter M.grid B T a b = true)) ∧
      ∀ a b, a < M.grid.len 0 → b < M.grid.len 1 → ∃ v, (squareCell M.grid a b, v) ∈ cells := by
  have hw : M.grid.WF := grid_wf hok
  obtain ⟨u, hu⟩ := (hs.reachable.inv hw hn).elim fun _ hI => hI.holds
  obtain ⟨k1, k2⟩ := C134_simple hw hn hf hs h0 hp ht
  exact C134_saved hn hok hM hk hf (ht.holds hw hn hs hu).1.reachable k2 k1 hmine
    (fun i c d hd => by
      have := turns_small (m := 2 ^ 32 - 1) (by omega) hw hn hs (fun i c d hd => by have := ha i c d hd; omega) ht i c d hd
      omega) hT hsave hl f

/-! ## Witnesses -/

/-- A board of two squares in a grid with maximum refinement level 2. -/
def stripMeta : Meta := { lifeMeta with per := v3 true false false }

def stripG : Cfg := { len := v3 2 1 1, maxLvl := 2, periodic := v3 true false false, hood := 1 }

theorem stripMeta_grid : stripMeta.grid = stripG := rfl

theorem strip_wf : stripG.WF := by unfold Cfg.WF; rw [forall_fin3]; decide

theorem strip_layer : OneLayer stripG := ⟨rfl, rfl, rfl⟩

theorem stripMeta_readable : stripMeta.Readable := ⟨lifeMeta_readable.mapping, lifeMeta_readable.hood, lifeMeta_readable.small, lifeMeta_readable.settable⟩

/-- The game on two processes with one square alive, for any number of turns, with both loops. -/
theorem strip_played (T : Nat) : ∃ (s t : Sys 2 Nat Nat) (k : Fin 2 → Cache) (x : Game 2 Nat Nat), Idle stripG 0 146 s ∧ NotRefined stripG s ∧
    PlayedOn stripG s (fun a _ => decide (a = 1)) ∧ (∀ i c d, (s i).data c = some d → d < 2 ^ 32) ∧
    Simulates stripG 0 146 (List.replicate T (.sweep defaultId (hoodOf stripG) (sweepOf 0 liveCount lifeRule))) s t ∧
    Idle stripG 0 146 t ∧ (∀ i, updatePointers stripG i (s i) defaultId = .ok (k i)) ∧
    Overlaps stripG s defaultId (hoodOf stripG) k true 0 liveCount lifeRule T x ∧ (∀ i, x.todo i = []) ∧ (s 1).owner 2 = some 1 := by
  have hlast : stripG.last = 146 := by decide
  obtain ⟨s0, h0, hx, hs⟩ := createGrid_spec (n := 2) (W := Nat) (maxTag := 146) strip_wf (by decide) (0 : Nat)
    (fitsTags_mono (by rw [hlast]; exact Nat.le_refl _) (fitsTags_last (createLevel0_tiled strip_wf (by decide)).valid))
  obtain ⟨a, -, -⟩ := C115_initialize strip_wf h0 h0
  obtain ⟨s, s1, s2, s3⟩ := mark_cells strip_wf (by decide) a [2]
  have ho : ∀ i, (s i).owner = (createLevel0 2 stripG.total).2 := fun i => by rw [(s2 i).1]; exact hx.owner i
  have hval : ∀ i c d, (s i).owner c = some i → access (s i) c = some d → d = if c = 2 then 1 else 0 := fun i c d hc hd => by
    rw [(s2 i).1] at hc
    rw [s3 i c hc] at hd
    by_cases h2 : c = 2
    · rw [if_pos (List.mem_singleton.2 h2)] at hd; rw [if_pos h2]; exact (Option.some.inj hd).symm
    · rw [if_neg (fun h => h2 (List.mem_singleton.1 h))] at hd
      rw [if_neg h2]
      rw [hx.owner] at hc
      unfold access at hd
      simp only [(hs i).2.2.1, if_pos hc] at hd
      exact (Option.some.inj hd).symm
  obtain ⟨w, hi⟩ := s1.reachable.inv strip_wf (by decide)
  obtain ⟨t, e, e'⟩ := C115_possible_all strip_wf (by decide) (by rw [hlast]; exact Nat.le_refl _) s1
    (List.replicate T (.sweep defaultId (hoodOf stripG) (sweepOf 0 liveCount lifeRule))) (fun id H f e => by
      have := List.eq_of_mem_replicate e
      injection this with e1 e2 _
      exact ⟨e1, e2⟩)
  have hH : ∀ i, hoodFor stripG (s i) defaultId = some (hoodOf stripG) := fun i => rfl
  obtain ⟨k, hk⟩ := iterators strip_wf s1.reachable hH
  obtain ⟨x, hxo, -, hf⟩ := C116_finishes (single := true) (count := liveCount) (rule := lifeRule) (T := T) strip_wf (by decide) s1.reachable hH hk
    ⟨fun _ _ => 0, .refl _⟩
  refine ⟨s, t, k, x, s1, fun i c hc => ?_, fun i a b d ha hb hc hd => ?_, fun i c d hd => ?_, e, e', hk, hxo, hf, by rw [ho]; decide⟩
  · rw [ho] at hc
    obtain ⟨j, hj⟩ := Option.ne_none_iff_exists'.1 hc
    have := (createLevel0_exist (by decide)).1 (exist_of hj)
    exact (lvl_level0 this.1 this.2).2
  · have e := hval i _ d hc hd
    have ha : a < 2 := ha
    have hb : b < 1 := hb
    rw [e, decide_eq_true_eq]
    unfold squareCell
    rw [(by omega : b = 0)]
    rcases (by omega : a = 0 ∨ a = 1) with rfl | rfl <;> decide
  · have hwi := (hi.sys.placed i c).1 (by rw [hd]; rfl)
    have := hval i c d (by rw [hi.sys.owner]; exact hwi) (by rw [(hi.access_own hwi).1]; exact hd)
    rw [this]
    split <;> decide

/-- Hypotheses of `C134_overlap` are met. -/
example : ∃ (s : Sys 2 Nat Nat) (k : Fin 2 → Cache) (x : Game 2 Nat Nat), stripG.WF ∧ OneLayer stripG ∧ 0 < stripG.maxLvl ∧ Reachable stripG 0 146 s ∧
    NotRefined stripG s ∧ (∀ i, updatePointers stripG i (s i) defaultId = .ok (k i)) ∧ PlayedOn stripG s (fun a _ => decide (a = 1)) ∧
    Overlaps stripG s defaultId (hoodOf stripG) k true 0 liveCount lifeRule 10 x ∧ x.todo 1 = [] ∧ (s 1).owner (squareCell stripG 1 0) = some 1 := by
  obtain ⟨s, t, k, x, a, b, c, -, -, -, f, h, i, j⟩ := strip_played 10
  exact ⟨s, k, x, strip_wf, strip_layer, by decide, a.reachable, b, f, c, h, i 1, j⟩

/-- Hypotheses of `C134_simple`, `C134_saved` and `C134_file` are met. -/
example : ∃ (s t : Sys 2 Nat Nat) (mine : Fin 2 → List Nat) (ws : Fin 2 → List Write), stripMeta.mapping.OK ∧ stripMeta.Readable ∧
    stripMeta.geom.id = 1 ∧ OneLayer stripMeta.grid ∧ Idle stripMeta.grid 0 146 s ∧ NotRefined stripMeta.grid s ∧
    PlayedOn stripMeta.grid s (fun a _ => decide (a = 1)) ∧ (∀ i c d, (s i).data c = some d → d < 2 ^ 32) ∧
    Simulates stripMeta.grid 0 146 (List.replicate 10 (.sweep defaultId (hoodOf stripMeta.grid) (sweepOf 0 liveCount lifeRule))) s t ∧
    (∀ i, (mine i).Nodup ∧ ∀ c, c ∈ mine i ↔ ((t i).data c).isSome = true) ∧ Reachable stripMeta.grid 0 146 t ∧
    save .little stripMeta { offset := 0, header := timeHeader .little 10 } mine
      (fun i c => ((t i).data c).map fun d => alivePiece .little d) = .ok ws := by
  obtain ⟨s, t, -, -, a, b, c, d, e, e', -⟩ := strip_played 10
  have hmine : ∀ i : Fin 2, ((ids stripG).filter fun c => (t i).has c).Nodup ∧
      ∀ c, c ∈ ((ids stripG).filter fun c => (t i).has c) ↔ ((t i).data c).isSome = true := by
    obtain ⟨w, hi⟩ := e'.reachable.inv strip_wf (by omega)
    intro i
    refine ⟨List.Pairwise.filter _ (show (ids stripG).Nodup from List.nodup_range), fun c => ?_⟩
    rw [List.mem_filter]
    exact ⟨fun h => h.2, fun h => ⟨mem_ids.2 (hi.sys.tiled.valid c (exist_of ((hi.sys.placed i c).1 h))).2, h⟩⟩
  obtain ⟨ws, hws⟩ := C41_save (e := .little) (M := stripMeta) (off := 0) (header := timeHeader .little 10)
    (K := { saved := fun d => alivePiece .little d, loaded := fun _ => alivePiece .little 0, fill := fun d _ => d }) hmine
    (by decide) (fun i => by
      have h1 : ((ids stripG).filter fun c => (t i).has c).length ≤ 147 := by
        refine Nat.le_trans (List.length_filter_le ..) ?_
        unfold ids
        rw [List.length_range, show stripG.last = 146 by decide]
        exact Nat.le_refl _
      exact Nat.le_trans (Nat.mul_le_mul_right 2 h1) (by decide))
  exact ⟨s, t, _, ws, tinyM_ok, stripMeta_readable, rfl, strip_layer, a, b, c, d, e, hmine, e'.reachable, hws⟩

end Dccrg
