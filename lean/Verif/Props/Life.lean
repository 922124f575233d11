import Verif.Life
import Verif.Props.Overlap
import Verif.Props.NbrOnce
/-!
# C131: the game of life of the examples
-/
namespace Dccrg
open Cfg

/-! ## Specification: Conway's game of life on a board -/

/-- A square of a board of `g.len 0` times `g.len 1` squares: squares outside of the board are dead, or squares at the other side of the board in
periodic dimensions. -/
def squareOf (g : Cfg) (B : Nat → Nat → Bool) (x y : Int) : Bool :=
  (g.periodic 0 || decide (0 ≤ x ∧ x < g.len 0)) && (g.periodic 1 || decide (0 ≤ y ∧ y < g.len 1)) &&
    B (x % g.len 0).toNat (y % g.len 1).toNat

/-- Where the eight squares around a square are. -/
def around : List (Int × Int) := [(-1, -1), (0, -1), (1, -1), (-1, 0), (1, 0), (-1, 1), (0, 1), (1, 1)]

/-- How many of the eight squares around a square are alive. -/
def aliveAround (g : Cfg) (B : Nat → Nat → Bool) (x y : Nat) : Nat := around.countP fun o => squareOf g B (x + o.1) (y + o.2)

/-- A square is alive on the next turn if three squares around it are alive, or if two are and it is. -/
def conway (g : Cfg) (B : Nat → Nat → Bool) (x y : Nat) : Bool :=
  decide (aliveAround g B x y = 3) || (decide (aliveAround g B x y = 2) && B x y)

/-- The board after `T` turns. -/
def conwayAfter (g : Cfg) (B : Nat → Nat → Bool) : Nat → Nat → Nat → Bool
  | 0 => B
  | T + 1 => conway g (conwayAfter g B T)

/-- The cell of square `x`, `y`. -/
def squareCell (g : Cfg) (x y : Nat) : Nat := 1 + x + y * g.len 0

/-- A grid for the game: one layer of cells that cannot be refined, cells that share a vertex are neighbors
(examples/game_of_life.cpp:102-107, examples/simple_game_of_life.cpp:58-70). -/
def FlatGrid (g : Cfg) : Prop := g.maxLvl = 0 ∧ g.hood = 1 ∧ g.len 2 = 1 ∧ g.periodic 2 = false

/-- `is_alive` of cells is as on the board. -/
def PlayedOn {n : Nat} {W : Type} (g : Cfg) (s : Sys n Nat W) (B : Nat → Nat → Bool) : Prop :=
  ∀ i x y d, x < g.len 0 → y < g.len 1 → (s i).owner (squareCell g x y) = some i → access (s i) (squareCell g x y) = some d →
    (0 < d ↔ B x y = true)

/-! ## Proofs -/

variable {n : Nat} {W : Type} {g : Cfg} {w : Owner n} {s : Sys n Nat W} {dflt : Nat} {maxTag : Nat} {id : Int} {k : Fin n → Cache} {single : Bool}
  {T : Nat} {x : Game n Nat Nat} {B : Nat → Nat → Bool}

theorem flat_lvl (hf : FlatGrid g) {c : Nat} (hv : g.Valid c) : g.lvl c = 0 := by
  have := lvl_le hv; have := hf.1; omega

theorem flat_side (hf : FlatGrid g) (c : Nat) : g.side c = 1 := by
  unfold side; rw [hf.1, Nat.zero_sub]

theorem flat_n (hf : FlatGrid g) (d : Fin 3) : g.n d = g.len d := by
  unfold Cfg.n; rw [hf.1, Nat.pow_zero, Nat.mul_one]

theorem flat_cell (hw : g.WF) (hf : FlatGrid g) {c : Nat} (hv : g.Valid c) :
    g.idx c 0 < g.len 0 ∧ g.idx c 1 < g.len 1 ∧ g.idx c 2 = 0 ∧ c = squareCell g (g.idx c 0) (g.idx c 1) := by
  have h0 := idx_inGrid hw hv 0
  have h1 := idx_inGrid hw hv 1
  have h2 := idx_inGrid hw hv 2
  rw [flat_n hf] at h0 h1 h2
  rw [hf.2.2.1] at h2
  have h2' : g.idx c 2 = 0 := by omega
  refine ⟨h0, h1, h2', ?_⟩
  have := cellAt_idx hv
  unfold cellAt at this
  rw [flat_lvl hf hv, hf.1, h2'] at this
  unfold squareCell
  simp only [Nat.sub_self, Nat.pow_zero, Nat.div_one, Nat.mul_one, Nat.zero_mul, Nat.add_zero, base] at this
  omega

theorem square_unique {a x y x' y' : Nat} (hx : x < a) (hx' : x' < a) (h : x + y * a = x' + y' * a) : x = x' ∧ y = y' := by
  have h1 : (x + y * a) % a = x := by rw [Nat.add_mul_mod_self_right, Nat.mod_eq_of_lt hx]
  have h2 : (x' + y' * a) % a = x' := by rw [Nat.add_mul_mod_self_right, Nat.mod_eq_of_lt hx']
  have e : x = x' := by rw [← h1, h, h2]
  refine ⟨e, ?_⟩
  have : y * a = y' * a := by omega
  exact Nat.eq_of_mul_eq_mul_right (by omega) this

theorem flat_idx (hw : g.WF) (hf : FlatGrid g) {x y : Nat} (hx : x < g.len 0) (hv : g.Valid (squareCell g x y)) :
    g.idx (squareCell g x y) 0 = x ∧ g.idx (squareCell g x y) 1 = y := by
  obtain ⟨h0, -, -, h3⟩ := flat_cell hw hf hv
  unfold squareCell at h3 h0 ⊢
  obtain ⟨e1, e2⟩ := square_unique (y := y) (y' := g.idx (1 + x + y * g.len 0) 1) hx h0 (by omega)
  exact ⟨e1.symm, e2.symm⟩

theorem sum_ones {α : Type} (p : α → Bool) (l : List α) (f : α → Nat) (h : ∀ a ∈ l, f a = if p a = true then 1 else 0) :
    (l.map f).sum = l.countP p := by
  induction l with
  | nil => rfl
  | cons a l ih =>
    rw [List.map_cons, List.sum_cons, List.countP_cons, ih fun b hb => h b (List.mem_cons_of_mem _ hb), h a (List.mem_cons_self ..)]
    omega

theorem hoodOf_one (hf : FlatGrid g) : hoodOf g = [v3 (-1) (-1) (-1), v3 0 (-1) (-1), v3 1 (-1) (-1), v3 (-1) 0 (-1), v3 0 0 (-1), v3 1 0 (-1),
    v3 (-1) 1 (-1), v3 0 1 (-1), v3 1 1 (-1), v3 (-1) (-1) 0, v3 0 (-1) 0, v3 1 (-1) 0, v3 (-1) 0 0, v3 1 0 0, v3 (-1) 1 0, v3 0 1 0, v3 1 1 0,
    v3 (-1) (-1) 1, v3 0 (-1) 1, v3 1 (-1) 1, v3 (-1) 0 1, v3 0 0 1, v3 1 0 1, v3 (-1) 1 1, v3 0 1 1, v3 1 1 1] := by
  unfold hoodOf
  rw [hf.2.1]
  rfl

theorem flat_hood (hf : FlatGrid g) (P : Int → Int → Bool) :
    (hoodOf g).countP (fun o => decide (o 2 = 0) && P (o 0) (o 1)) = around.countP fun o => P o.1 o.2 := by
  rw [hoodOf_one hf]
  rfl

/-- What one offset adds to the count of live neighbors. -/
theorem flat_item (hw : g.WF) (hf : FlatGrid g) {E : Nat → Bool} (ht : ∀ b, E b = true → g.Valid b) {c : Nat} (hc : g.Valid c) {o : V3 Int}
    {l : List (Nat × V3 Int)} (h : IsItem g E c o l) {u : Nat → Option Nat}
    (hu : ∀ b, E b = true → (0 < (u b).getD 0 ↔ B (g.idx b 0) (g.idx b 1) = true)) :
    l.countP (fun a => decide (0 < (u a.1).getD 0)) =
      if (decide (o 2 = 0) && squareOf g B (g.idx c 0 + o 0) (g.idx c 1 + o 1)) = true then 1 else 0 := by
  have hi2 := (flat_cell hw hf hc).2.2.1
  have hcor : ∀ d, corner g c o d = g.idx c d + o d := fun d => by
    unfold corner; rw [flat_side hf]; omega
  have hin : g.InCover (corner g c o) ↔ o 2 = 0 ∧ (g.periodic 0 || decide (0 ≤ (g.idx c 0 : Int) + o 0 ∧ (g.idx c 0 : Int) + o 0 < g.len 0)) = true ∧
      (g.periodic 1 || decide (0 ≤ (g.idx c 1 : Int) + o 1 ∧ (g.idx c 1 : Int) + o 1 < g.len 1)) = true := by
    unfold InCover
    rw [forall_fin3, hcor, hcor, hcor, flat_n hf, flat_n hf, flat_n hf, hf.2.2.1, hf.2.2.2, hi2]
    simp only [Bool.or_eq_true, decide_eq_true_eq, Bool.false_eq_true, false_or]
    constructor
    · rintro ⟨a, b, c⟩; exact ⟨by omega, a, b⟩
    · rintro ⟨a, b, c⟩; exact ⟨b, c, by omega⟩
  cases h with
  | outside h =>
    rw [List.countP_nil, if_neg]
    intro hh
    rw [hin] at h
    unfold squareOf at hh
    simp only [Bool.and_eq_true, decide_eq_true_eq] at hh
    exact h ⟨hh.1, hh.2.1.1, hh.2.1.2⟩
  | @covers b off h1 h2 h3 h4 h5 =>
    have hi := hin.1 h1
    have hoff : ∀ d, off d = o d := fun d => by
      rcases item_range (IsItem.covers h1 h2 h3 h4 h5) (List.mem_singleton.2 rfl) d with ⟨-, r⟩ | ⟨r, -⟩
      · rw [flat_side hf, flat_side hf] at r; omega
      · rw [flat_side hf, flat_side hf] at r; omega
    have hb := flat_cell hw hf (ht b h2)
    have hm : ∀ d : Fin 3, g.idx b d < g.len d → ((g.idx c d + o d) % (g.len d : Int)).toNat = g.idx b d := fun d hlt => by
      obtain ⟨⟨q, hq⟩, -⟩ := h4 d
      rw [flat_n hf] at hq
      dsimp only at hq
      rw [hoff] at hq
      have : (g.idx c d : Int) + o d = g.idx b d + g.len d * q := by omega
      rw [this, Int.add_mul_emod_self_left, Int.emod_eq_of_lt (by omega) (by omega)]
      omega
    have e : (decide (o 2 = 0) && squareOf g B (g.idx c 0 + o 0) (g.idx c 1 + o 1)) = B (g.idx b 0) (g.idx b 1) := by
      unfold squareOf
      rw [hi.2.1, hi.2.2, decide_eq_true hi.1, hm 0 hb.1, hm 1 hb.2.1]
      rfl
    rw [e, List.countP_singleton]
    by_cases hB : B (g.idx b 0) (g.idx b 1) = true
    · rw [if_pos hB, if_pos (decide_eq_true ((hu b h2).2 hB))]
    · rw [if_neg hB, if_neg (fun h => hB ((hu b h2).1 (of_decide_eq_true h)))]
  | eight h1 h2 h3 => rw [flat_side hf] at h2; omega

/-- The number of live neighbors of a cell is the number of live squares around its square. -/
theorem flat_count (hw : g.WF) (hf : FlatGrid g) (hi : Inv g w s) (hH : ∀ i, hoodFor g (s i) id = some (hoodOf g)) (i : Fin n) {c : Nat}
    (hc : exist w c = true) {u : Nat → Option Nat} (hu : ∀ b, exist w b = true → (0 < (u b).getD 0 ↔ B (g.idx b 0) (g.idx b 1) = true)) :
    liveCount c (((getNeighborsOf g (s i) c id).getD []).map fun a => (a, u a.1)) = aliveAround g B (g.idx c 0) (g.idx c 1) := by
  obtain ⟨f, f1, f2, -⟩ := hi.neighborsOf hw (hH i) hc
  rw [f1]
  show List.countP _ (((hoodOf g).flatMap f).map _) = _
  rw [List.countP_map, List.countP_flatMap]
  unfold aliveAround
  rw [← flat_hood hf fun a b => squareOf g B (g.idx c 0 + a) (g.idx c 1 + b)]
  exact sum_ones _ _ _ fun o ho => flat_item hw hf hi.sys.tiled.valid (hi.sys.tiled.valid c hc) (f2 o ho) hu

theorem flat_field (hw : g.WF) (hf : FlatGrid g) (hi : Inv g w s) (hn : 0 < n) (hH : ∀ i, hoodFor g (s i) id = some (hoodOf g))
    {u : Nat → Option Nat} (hs : ∀ c, (u c).isSome = exist w c)
    (hu : ∀ c, exist w c = true → (0 < (u c).getD 0 ↔ B (g.idx c 0) (g.idx c 1) = true)) (r : Nat) {c : Nat} (hc : exist w c = true) :
    0 < (turnField g (hoodOf g) (sweepOf dflt liveCount lifeRule) u r c).getD 0 ↔ conwayAfter g B r (g.idx c 0) (g.idx c 1) = true := by
  induction r generalizing c with
  | zero => exact hu c hc
  | succ r ih =>
    obtain ⟨h1, h2⟩ := turnField_next hw hi hH (f := sweepOf dflt liveCount lifeRule) hs r
    have h3 := h1 c
    rw [hc] at h3
    obtain ⟨d, hd⟩ := Option.isSome_iff_exists.1 h3
    rw [h2 ⟨0, hn⟩ c d hc hd, sweepOf, flat_count hw hf hi hH _ hc fun b hb => ih hb]
    have hd' := ih hc
    rw [hd] at hd'
    show 0 < lifeRule c d _ ↔ conway g (conwayAfter g B r) _ _ = true
    unfold lifeRule conway
    simp only [Bool.or_eq_true, Bool.and_eq_true, decide_eq_true_eq]
    have hd' : 0 < d ↔ conwayAfter g B r (g.idx c 0) (g.idx c 1) = true := hd'
    rw [← hd']
    split
    · omega
    · split <;> omega

theorem PlayedOn.field (hw : g.WF) (hf : FlatGrid g) (hi : Inv g w s) (hn : 0 < n) (hp : PlayedOn g s B) {u : Nat → Option Nat} (hu : Holds s u) :
    (∀ c, (u c).isSome = exist w c) ∧ ∀ c, exist w c = true → (0 < (u c).getD 0 ↔ B (g.idx c 0) (g.idx c 1) = true) := by
  have h1 : ∀ c, (u c).isSome = exist w c := fun c => by
    have := congrFun (isSome_eq_exist hu ⟨0, hn⟩) c
    rwa [hi.sys.owner] at this
  refine ⟨h1, fun c hc => ?_⟩
  have h2 := h1 c
  rw [hc] at h2
  obtain ⟨d, hd⟩ := Option.isSome_iff_exists.1 h2
  obtain ⟨j, hj⟩ := exist_iff.1 hc
  obtain ⟨e0, e1, -, e3⟩ := flat_cell hw hf (hi.sys.tiled.valid c hc)
  have hj' : (s j).owner c = some j := by rw [hi.sys.owner]; exact hj
  have ha := ((hu j c).1 j hj').1
  rw [hd] at ha ⊢
  exact hp j _ _ d e0 e1 (by rw [← e3]; exact hj') (by rw [← e3]; exact ha)

/-! ## The property -/

/-- C131: every square of the board is a cell, and the number of live neighbors of the cell is the number of live squares among the eight squares
around the square. -/
theorem C131_counts (hw : g.WF) (hn : 0 < n) (hf : FlatGrid g) (h : Reachable g dflt maxTag s) (hp : PlayedOn g s B) {x y : Nat} (hx : x < g.len 0)
    (hy : y < g.len 1) (i : Fin n) :
    ∃ l, getNeighborsOf g (s i) (squareCell g x y) defaultId = some l ∧
      ∀ v : Nat → Option Nat, (∀ b j, (s i).owner b = some j → v b = access (s j) b) →
        liveCount (squareCell g x y) (l.map fun a => (a, v a.1)) = aliveAround g B x y := by
  obtain ⟨w, hi⟩ := h.inv hw hn
  obtain ⟨u, hu⟩ := hi.holds
  obtain ⟨h1, h2⟩ := hp.field hw hf hi hn hu
  have hin : g.InGrid (v3 x y 0) := by
    intro d
    revert d
    rw [forall_fin3, flat_n hf, flat_n hf, flat_n hf, hf.2.2.1]
    exact ⟨hx, hy, Nat.one_pos⟩
  obtain ⟨b, hb, hm⟩ := hi.sys.tiled.cover _ hin
  obtain ⟨e0, e1, -, e3⟩ := flat_cell hw hf (hi.sys.tiled.valid b hb)
  have m0 := hm 0
  have m1 := hm 1
  rw [flat_side hf] at m0 m1
  have m0 : g.idx b 0 ≤ x ∧ x < g.idx b 0 + 1 := m0
  have m1 : g.idx b 1 ≤ y ∧ y < g.idx b 1 + 1 := m1
  have e : squareCell g x y = b := by
    rw [e3, (by omega : g.idx b 0 = x), (by omega : g.idx b 1 = y)]
  rw [e]
  have hH : ∀ i, hoodFor g (s i) defaultId = some (hoodOf g) := fun i => rfl
  obtain ⟨f, f1, -, -⟩ := hi.neighborsOf hw (hH i) hb
  refine ⟨_, f1, fun v hv => ?_⟩
  have := flat_count (u := v) hw hf hi hH i hb (B := B) fun c hc => by
    obtain ⟨j, hj⟩ := exist_iff.1 hc
    have hj' : (s i).owner c = some j := by rw [hi.sys.owner]; exact hj
    rw [hv c j hj', ((hu i c).1 j hj').1]
    exact h2 c hc
  rw [f1] at this
  rw [(by omega : g.idx b 0 = x), (by omega : g.idx b 1 = y)] at this
  exact this

/-- Neighbors of cells are listed once. -/
theorem flat_nodup (hf : FlatGrid g) {E : Nat → Bool} {c : Nat} {f : V3 Int → List (Nat × V3 Int)} (h : ∀ o ∈ hoodOf g, IsItem g E c o (f o)) :
    ((hoodOf g).flatMap f).Nodup := by
  have hoff : ∀ o ∈ hoodOf g, ∀ a ∈ f o, a.2 = o := fun o ho a ha => by
    funext d
    rcases item_range (h o ho) (show (a.1, a.2) ∈ f o from ha) d with ⟨-, r⟩ | ⟨r, -⟩
    · rw [flat_side hf, flat_side hf] at r; omega
    · rw [flat_side hf, flat_side hf] at r; omega
  have hone : ∀ o ∈ hoodOf g, (f o).Nodup := fun o ho => by
    have := h o ho
    generalize f o = l at this
    cases this with
    | outside => exact List.nodup_nil
    | covers => simp
    | eight h1 h2 h3 => rw [flat_side hf] at h2; omega
  have key : ∀ H : List (V3 Int), H.Nodup → (∀ o ∈ H, o ∈ hoodOf g) → (H.flatMap f).Nodup := by
    intro H
    induction H with
    | nil => intro _ _; exact List.nodup_nil
    | cons o H ih =>
      intro h1 h2
      rw [List.nodup_cons] at h1
      rw [List.flatMap_cons, List.nodup_append]
      refine ⟨hone o (h2 o (List.mem_cons_self ..)), ih h1.2 fun a ha => h2 a (List.mem_cons_of_mem _ ha), fun a ha b hb e => ?_⟩
      subst e
      obtain ⟨o', ho', hb⟩ := List.mem_flatMap.1 hb
      have e1 := hoff o (h2 o (List.mem_cons_self ..)) a ha
      have e2 := hoff o' (h2 o' (List.mem_cons_of_mem _ ho')) a hb
      rw [e1] at e2
      exact h1.1 (e2 ▸ ho')
  exact key _ (by rw [hoodOf_one hf]; decide) fun _ h => h

/-- C131: the same number of live neighbors is counted in loops over the neighbors that iterators have, for cells of the process. -/
theorem C131_iterator (hw : g.WF) (hf : FlatGrid g) (h : Reachable g dflt maxTag s) (hp : PlayedOn g s B) (i : Fin n) :
    ∃ k, updatePointers g i (s i) defaultId = .ok k ∧ ∀ c ∈ range k.cells k.all, ∀ x y, x < g.len 0 → y < g.len 1 → c.id = squareCell g x y →
      ∀ v : Nat → Option Nat, (∀ b j, (s i).owner b = some j → v b = access (s j) b) →
        liveCount c.id ((range k.nbrs c.of).map fun a => (a, v a.1)) = aliveAround g B x y := by
  have hn : 0 < n := by have := i.2; omega
  obtain ⟨k, k1, -, -, -, -, -, k2⟩ := C38_ranges (id := defaultId) hw h i rfl
  refine ⟨k, k1, fun c hc x y hx hy e v hv => ?_⟩
  obtain ⟨⟨h1, h2⟩, -, -⟩ := (k2 c hc).1
  obtain ⟨l, l1, l2⟩ := C131_counts hw hn hf h hp hx hy i
  rw [e] at h2 ⊢
  rw [← l2 v hv]
  obtain ⟨w, hi⟩ := h.inv hw hn
  have hex : exist w (squareCell g x y) = true := by
    unfold getNeighborsOf at l1
    rw [hi.sys.owner] at l1
    cases hx : exist w (squareCell g x y) with
    | true => rfl
    | false => rw [hx] at l1; cases l1
  obtain ⟨f, f1, f2, -⟩ := hi.neighborsOf (i := i) (id := defaultId) hw rfl hex
  rw [f1] at l1
  have l1' := Option.some.inj l1
  subst l1'
  refine List.Perm.countP_eq _ (List.Perm.map _ ((List.perm_ext_iff_of_nodup h1 (flat_nodup hf f2)).2 fun a => ?_))
  rw [h2 a]
  constructor
  · rintro ⟨l, q1, q2⟩
    rw [f1] at q1
    cases q1
    exact q2
  · intro ha
    exact ⟨_, f1, ha⟩

/-- C131, examples/game_of_life.cpp: whatever the partition and however processes and messages proceed, when a process has finished `T` turns
its cells are alive exactly where the board of Conway's game of life is after `T` turns. -/
theorem C131_overlap (hw : g.WF) (hf : FlatGrid g) (h : Reachable g dflt maxTag s) (hk : ∀ i, updatePointers g i (s i) defaultId = .ok (k i))
    (hp : PlayedOn g s B) (hr : Overlaps g s defaultId (hoodOf g) k single dflt liveCount lifeRule T x) {i : Fin n} (hi : x.todo i = [])
    {a b : Nat} (ha : a < g.len 0) (hc : (s i).owner (squareCell g a b) = some i) :
    0 < x.a.data i (squareCell g a b) ↔ conwayAfter g B T a b = true := by
  have hn : 0 < n := by have := i.2; omega
  have hH : ∀ i, hoodFor g (s i) defaultId = some (hoodOf g) := fun i => rfl
  obtain ⟨w, hI⟩ := h.inv hw hn
  obtain ⟨u, hu⟩ := hI.holds
  obtain ⟨h1, h2⟩ := hp.field hw hf hI hn hu
  have hG := hr.inv hw h hH hk hu
  have hO := loopOf_ok (single := single) (count := liveCount) (rule := lifeRule) hw h hH hk hu
  have hd := ((hG.2 i).counts.2.2 hi).2 _ (decide_eq_true hc) (hO.all i _)
  have hc' : exist w (squareCell g a b) = true := by rw [hI.sys.owner] at hc; exact exist_of hc
  have := flat_field (dflt := dflt) hw hf hI hn hH h1 h2 T hc'
  rw [← hd, (flat_idx hw hf ha (hI.sys.tiled.valid _ hc')).1, (flat_idx hw hf ha (hI.sys.tiled.valid _ hc')).2] at this
  exact this

/-- C131, examples/simple_game_of_life.cpp: the same without overlap of calculation and communication. -/
theorem C131_simple {t : Sys n Nat W} (hw : g.WF) (hn : 0 < n) (hf : FlatGrid g) (h : Idle g dflt maxTag s) (hp : PlayedOn g s B)
    (ht : Simulates g dflt maxTag (List.replicate T (.sweep defaultId (hoodOf g) (sweepOf dflt liveCount lifeRule))) s t) :
    PlayedOn g t (conwayAfter g B T) := by
  have hH : ∀ i, hoodFor g (s i) defaultId = some (hoodOf g) := fun i => rfl
  obtain ⟨w, hI⟩ := h.reachable.inv hw hn
  obtain ⟨u, hu⟩ := hI.holds
  obtain ⟨h1, h2⟩ := hp.field hw hf hI hn hu
  have hT := (ht.holds hw hn h hu).2
  rw [foldl_turns] at hT
  intro i a b d ha hb hc hd
  have e := ((hT i _).1 i hc).1
  rw [hd] at e
  have hc' : exist w (squareCell g a b) = true := by
    have e1 := ((hT i _).2).1 (exist_of hc)
    rw [← (turnField_next hw hI hH (f := sweepOf dflt liveCount lifeRule) h1 T).1, Option.isSome_iff_ne_none]
    exact e1
  have := flat_field (dflt := dflt) hw hf hI hn hH h1 h2 T hc'
  rw [← e, (flat_idx hw hf ha (hI.sys.tiled.valid _ hc')).1, (flat_idx hw hf ha (hI.sys.tiled.valid _ hc')).2] at this
  exact this

/-- C131: any board can be played: if every process sets `is_alive` of its cells from a board then that is the board of the game. -/
theorem C131_set {t : Sys n Nat W} (hw : g.WF) (hn : 0 < n) (h : Idle g dflt maxTag s)
    (ht : Simulates g dflt maxTag [.sweep defaultId (hoodOf g) (setBoard g B)] s t) : Idle g dflt maxTag t ∧ PlayedOn g t B := by
  have hH : ∀ i, hoodFor g (s i) defaultId = some (hoodOf g) := fun i => rfl
  obtain ⟨w, hI⟩ := h.reachable.inv hw hn
  obtain ⟨u, hu⟩ := hI.holds
  have h1 : ∀ c, (u c).isSome = exist w c := fun c => by
    have := congrFun (isSome_eq_exist hu ⟨0, hn⟩) c
    rwa [hI.sys.owner] at this
  obtain ⟨ht1, hT⟩ := ht.holds hw hn h hu
  have hT : Holds t (turnField g (hoodOf g) (setBoard g B) u 1) := hT
  refine ⟨ht1, fun i a b d ha hb hc hd => ?_⟩
  have e := ((hT i _).1 i hc).1
  have e1 := ((hT i _).2).1 (exist_of hc)
  have hc' : exist w (squareCell g a b) = true := by
    rw [← (turnField_next hw hI hH (f := setBoard g B) h1 1).1, Option.isSome_iff_ne_none]
    exact e1
  have h3 := h1 (squareCell g a b)
  rw [hc'] at h3
  obtain ⟨v, hv⟩ := Option.isSome_iff_exists.1 h3
  rw [hd, (turnField_next hw hI hH (f := setBoard g B) h1 0).2 ⟨0, hn⟩ _ v hc' hv] at e
  have e := Option.some.inj e
  rw [e]
  unfold setBoard squareCell
  rw [show 1 + a + b * g.len 0 - 1 = a + b * g.len 0 by omega, Nat.add_mul_mod_self_right, Nat.mod_eq_of_lt ha,
    Nat.add_mul_div_right _ _ (by omega), Nat.div_eq_of_lt ha, Nat.zero_add]
  split
  · next hB => exact ⟨fun _ => hB, fun _ => Nat.one_pos⟩
  · next hB => exact ⟨fun h => absurd h (Nat.lt_irrefl 0), fun h => absurd h hB⟩

/-! ## The board of examples/simple_game_of_life.cpp -/

/-- The grid of examples/simple_game_of_life.cpp:58-70. -/
def lifeG : Cfg := { len := v3 10 10 1, maxLvl := 0, periodic := v3 false false false, hood := 1 }

theorem life_wf : lifeG.WF := by unfold Cfg.WF; rw [forall_fin3]; decide

theorem life_flat : FlatGrid lifeG := by refine ⟨rfl, rfl, rfl, rfl⟩

/-- Cells 54, 55 and 56 are alive (examples/simple_game_of_life.cpp:83). -/
def rowBoard (x y : Nat) : Bool := decide (squareCell lifeG x y = 54 ∨ squareCell lifeG x y = 55 ∨ squareCell lifeG x y = 56)

/-- Cells 45, 55 and 65 are alive. -/
def columnBoard (x y : Nat) : Bool := decide (squareCell lifeG x y = 45 ∨ squareCell lifeG x y = 55 ∨ squareCell lifeG x y = 65)

theorem conway_congr {B B' : Nat → Nat → Bool} (h : ∀ x y, x < g.len 0 → y < g.len 1 → B x y = B' x y) {x y : Nat} (hx : x < g.len 0)
    (hy : y < g.len 1) : conway g B x y = conway g B' x y := by
  have e : aliveAround g B x y = aliveAround g B' x y := by
    unfold aliveAround
    congr 1
    funext o
    unfold squareOf
    rw [h]
    · have := Int.emod_lt_of_pos ((x : Int) + o.1) (show (0 : Int) < g.len 0 by omega)
      have := Int.emod_nonneg ((x : Int) + o.1) (show (g.len 0 : Int) ≠ 0 by omega)
      omega
    · have := Int.emod_lt_of_pos ((y : Int) + o.2) (show (0 : Int) < g.len 1 by omega)
      have := Int.emod_nonneg ((y : Int) + o.2) (show (g.len 1 : Int) ≠ 0 by omega)
      omega
  unfold conway
  rw [e, h x y hx hy]

theorem row_next : ∀ x, x < 10 → ∀ y, y < 10 → conway lifeG rowBoard x y = columnBoard x y := by decide +kernel

theorem column_next : ∀ x, x < 10 → ∀ y, y < 10 → conway lifeG columnBoard x y = rowBoard x y := by decide +kernel

theorem row_after (T : Nat) : ∀ x y, x < 10 → y < 10 → conwayAfter lifeG rowBoard T x y = if T % 2 = 0 then rowBoard x y else columnBoard x y := by
  induction T with
  | zero => intro x y _ _; rfl
  | succ T ih =>
    intro x y hx hy
    show conway lifeG (conwayAfter lifeG rowBoard T) x y = _
    by_cases hT : T % 2 = 0
    · rw [if_neg (by omega), ← row_next x hx y hy]
      exact conway_congr (g := lifeG) (fun a b ha hb => by rw [ih a b ha hb, if_pos hT]) hx hy
    · rw [if_pos (by omega), ← column_next x hx y hy]
      exact conway_congr (g := lifeG) (fun a b ha hb => by rw [ih a b ha hb, if_neg hT]) hx hy

/-- C131: the verification in examples/simple_game_of_life.cpp:122-158 never fails, on any number of processes and after any number of turns:
`T` is `turn + 1`. -/
theorem C131_verified {s0 t : Sys n Nat W} (hn : 0 < n) (h : Idle lifeG dflt maxTag s0)
    (hs : Simulates lifeG dflt maxTag [.sweep defaultId (hoodOf lifeG) (setBoard lifeG rowBoard)] s0 s)
    (ht : Simulates lifeG dflt maxTag (List.replicate T (.sweep defaultId (hoodOf lifeG) (sweepOf dflt liveCount lifeRule))) s t) {i : Fin n} {d : Nat} :
    ((t i).owner 55 = some i → access (t i) 55 = some d → d ≠ 0) ∧
    (∀ c, c = 54 ∨ c = 56 → (t i).owner c = some i → access (t i) c = some d → (d ≠ 0 ↔ T % 2 = 0)) ∧
    ∀ c, c = 45 ∨ c = 65 → (t i).owner c = some i → access (t i) c = some d → (d = 0 ↔ T % 2 = 0) := by
  obtain ⟨h1, h2⟩ := C131_set life_wf hn h hs
  have hp := C131_simple life_wf hn life_flat h1 h2 ht
  have key : ∀ x y, x < 10 → y < 10 → (t i).owner (squareCell lifeG x y) = some i → access (t i) (squareCell lifeG x y) = some d →
      (0 < d ↔ (if T % 2 = 0 then rowBoard x y else columnBoard x y) = true) := fun x y hx hy e1 e2 => by
    rw [← row_after T x y hx hy]
    exact hp i x y d hx hy e1 e2
  refine ⟨fun e1 e2 => ?_, ?_, ?_⟩
  · have := (key 4 5 (by decide) (by decide) e1 e2).2 (by split <;> decide)
    omega
  · rintro c (rfl | rfl) e1 e2
    · have := key 3 5 (by decide) (by decide) e1 e2
      rw [show rowBoard 3 5 = true by decide, show columnBoard 3 5 = false by decide] at this
      split at this <;> simp at this <;> omega
    · have := key 5 5 (by decide) (by decide) e1 e2
      rw [show rowBoard 5 5 = true by decide, show columnBoard 5 5 = false by decide] at this
      split at this <;> simp at this <;> omega
  · rintro c (rfl | rfl) e1 e2
    · have := key 4 4 (by decide) (by decide) e1 e2
      rw [show rowBoard 4 4 = false by decide, show columnBoard 4 4 = true by decide] at this
      split at this <;> simp at this <;> omega
    · have := key 4 6 (by decide) (by decide) e1 e2
      rw [show rowBoard 4 6 = false by decide, show columnBoard 4 6 = true by decide] at this
      split at this <;> simp at this <;> omega

/-- The example on two processes, for any number of turns, with both loops. -/
theorem life_played (T : Nat) : ∃ (s0 s t : Sys 2 Nat Nat) (k : Fin 2 → Cache) (x : Game 2 Nat Nat), Idle lifeG 0 100 s0 ∧
    Simulates lifeG 0 100 [.sweep defaultId (hoodOf lifeG) (setBoard lifeG rowBoard)] s0 s ∧ Idle lifeG 0 100 s ∧ PlayedOn lifeG s rowBoard ∧
    Simulates lifeG 0 100 (List.replicate T (.sweep defaultId (hoodOf lifeG) (sweepOf 0 liveCount lifeRule))) s t ∧
    (∀ i, updatePointers lifeG i (s i) defaultId = .ok (k i)) ∧ Overlaps lifeG s defaultId (hoodOf lifeG) k true 0 liveCount lifeRule T x ∧
    (∀ i, x.todo i = []) ∧ ∃ i, (s i).owner 55 = some i := by
  have hlast : lifeG.last = 100 := by decide
  obtain ⟨s0, h0, -⟩ := createGrid_spec (n := 2) (W := Nat) (maxTag := 100) life_wf (by decide) (0 : Nat)
    (fitsTags_mono (by rw [hlast]; exact Nat.le_refl _) (fitsTags_last (createLevel0_tiled life_wf (by decide)).valid))
  obtain ⟨a, -, -⟩ := C115_initialize life_wf h0 h0
  obtain ⟨s, b, -⟩ := C115_possible_all life_wf (by decide) (by rw [hlast]; exact Nat.le_refl _) a
    [.sweep defaultId (hoodOf lifeG) (setBoard lifeG rowBoard)] (fun id H f e => by
      have := List.mem_singleton.1 e
      injection this with e1 e2 _
      exact ⟨e1, e2⟩)
  obtain ⟨c, d⟩ := C131_set life_wf (by decide) a b
  obtain ⟨t, e, -⟩ := C115_possible_all life_wf (by decide) (by rw [hlast]; exact Nat.le_refl _) c
    (List.replicate T (.sweep defaultId (hoodOf lifeG) (sweepOf 0 liveCount lifeRule))) (fun id H f e => by
      have := List.eq_of_mem_replicate e
      injection this with e1 e2 _
      exact ⟨e1, e2⟩)
  have hH : ∀ i, hoodFor lifeG (s i) defaultId = some (hoodOf lifeG) := fun i => rfl
  obtain ⟨k, hk⟩ := iterators life_wf c.reachable hH
  obtain ⟨x, hx, -, hf⟩ := C116_finishes (single := true) (count := liveCount) (rule := lifeRule) (T := T) life_wf (by decide) c.reachable hH hk
    ⟨fun _ _ => 0, .refl _⟩
  refine ⟨s0, s, t, k, x, a, b, c, d, e, hk, hx, hf, ?_⟩
  obtain ⟨w, hi⟩ := c.reachable.inv life_wf (by decide)
  obtain ⟨l, hl, -⟩ := C131_counts life_wf (by decide) life_flat c.reachable d (x := 4) (y := 5) (by decide) (by decide) 0
  have : exist (s 0).owner 55 = true := by
    unfold getNeighborsOf at hl
    cases hx : exist (s 0).owner 55 with
    | true => rfl
    | false => rw [show squareCell lifeG 4 5 = 55 by decide, hx] at hl; cases hl
  obtain ⟨j, hj⟩ := exist_iff.1 this
  refine ⟨j, ?_⟩
  rw [hi.sys.owner] at hj ⊢
  exact hj

/-- Hypotheses of `C131_counts`, `C131_iterator` and `C131_overlap` are met, with a cell that is alive. -/
example : ∃ (s : Sys 2 Nat Nat) (k : Fin 2 → Cache) (x : Game 2 Nat Nat) (i : Fin 2), lifeG.WF ∧ FlatGrid lifeG ∧ Reachable lifeG 0 100 s ∧
    (∀ i, updatePointers lifeG i (s i) defaultId = .ok (k i)) ∧ PlayedOn lifeG s rowBoard ∧
    Overlaps lifeG s defaultId (hoodOf lifeG) k true 0 liveCount lifeRule 100 x ∧ x.todo i = [] ∧
    (s i).owner (squareCell lifeG 4 5) = some i ∧ conwayAfter lifeG rowBoard 100 4 5 = true := by
  obtain ⟨s0, s, t, k, x, -, -, c, d, -, e, f, h, i, hi⟩ := life_played 100
  exact ⟨s, k, x, i, life_wf, life_flat, c.reachable, e, d, f, h i, hi, by rw [row_after 100 4 5 (by decide) (by decide)]; decide⟩

/-- Hypotheses of `C131_set`, `C131_simple` and `C131_verified` are met. -/
example : ∃ s0 s t : Sys 2 Nat Nat, lifeG.WF ∧ FlatGrid lifeG ∧ Idle lifeG 0 100 s0 ∧
    Simulates lifeG 0 100 [.sweep defaultId (hoodOf lifeG) (setBoard lifeG rowBoard)] s0 s ∧ Idle lifeG 0 100 s ∧ PlayedOn lifeG s rowBoard ∧
    Simulates lifeG 0 100 (List.replicate 100 (.sweep defaultId (hoodOf lifeG) (sweepOf 0 liveCount lifeRule))) s t := by
  obtain ⟨s0, s, t, k, x, a, b, c, d, e, -⟩ := life_played 100
  exact ⟨s0, s, t, life_wf, life_flat, a, b, c, d, e⟩

end Dccrg
