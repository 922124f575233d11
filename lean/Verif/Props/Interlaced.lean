import Verif.Props.Life
/-!
# C132: games of life in neighborhoods of users
-/
namespace Dccrg
open Cfg

/-! ## Specification -/

/-- A grid of one layer of cells that cannot be refined. -/
def Layer (g : Cfg) : Prop := g.maxLvl = 0 ∧ g.len 2 = 1

/-- How many of the squares at offsets `H` from a square are alive. -/
def gameAround (g : Cfg) (H : List (V3 Int)) (B : Nat → Nat → Bool) (x y : Nat) : Nat := H.countP fun o => squareOf g B (x + o 0) (y + o 1)

/-- The rules of the game of life with other neighborhoods. -/
def gameTurn (g : Cfg) (H : List (V3 Int)) (B : Nat → Nat → Bool) (x y : Nat) : Bool :=
  decide (gameAround g H B x y = 3) || (decide (gameAround g H B x y = 2) && B x y)

/-- The board after `T` turns. -/
def gameAfter (g : Cfg) (H : List (V3 Int)) (B : Nat → Nat → Bool) : Nat → Nat → Nat → Bool
  | 0 => B
  | T + 1 => gameTurn g H (gameAfter g H B T)

/-- Data of cells is one for live squares and zero for others. -/
def Marked {n : Nat} {W : Type} (g : Cfg) (s : Sys n Nat W) (B : Nat → Nat → Bool) : Prop :=
  ∀ i x y d, x < g.len 0 → y < g.len 1 → (s i).owner (squareCell g x y) = some i → access (s i) (squareCell g x y) = some d →
    d = if B x y = true then 1 else 0

/-- One of four boards of which every second square is used in both dimensions. -/
def partOf (B : Nat → Nat → Bool) (p q a b : Nat) : Bool := B (2 * a + p) (2 * b + q)

/-- Turns of tests/user_neighborhood/game_of_life.cpp:212-332: load is balanced, remote neighbors are updated, cells are calculated. -/
def movedTurns (T : Nat) (id : Int) (H : List (V3 Int)) (dflt : Nat) : List (SimStage Nat) :=
  (List.replicate T [.move, .sweep id H (sweepOf dflt countOnes lifeRule)]).flatten

/-! ## Proofs -/

variable {n : Nat} {W : Type} {g : Cfg} {w : Owner n} {s t : Sys n Nat W} {dflt : Nat} {maxTag : Nat} {id : Int} {T : Nat} {B : Nat → Nat → Bool}
  {H : List (V3 Int)}

theorem layer_side (hf : Layer g) (c : Nat) : g.side c = 1 := by
  unfold side; rw [hf.1, Nat.zero_sub]

theorem layer_n (hf : Layer g) (d : Fin 3) : g.n d = g.len d := by
  unfold Cfg.n; rw [hf.1, Nat.pow_zero, Nat.mul_one]

theorem layer_cell (hw : g.WF) (hf : Layer g) {c : Nat} (hv : g.Valid c) :
    g.idx c 0 < g.len 0 ∧ g.idx c 1 < g.len 1 ∧ g.idx c 2 = 0 ∧ c = squareCell g (g.idx c 0) (g.idx c 1) := by
  have h0 := idx_inGrid hw hv 0
  have h1 := idx_inGrid hw hv 1
  have h2 := idx_inGrid hw hv 2
  rw [layer_n hf] at h0 h1 h2
  rw [hf.2] at h2
  have h2' : g.idx c 2 = 0 := by omega
  refine ⟨h0, h1, h2', ?_⟩
  have hl : g.lvl c = 0 := by have := lvl_le hv; have := hf.1; omega
  have := cellAt_idx hv
  unfold cellAt at this
  rw [hl, hf.1, h2'] at this
  unfold squareCell
  simp only [Nat.sub_self, Nat.pow_zero, Nat.div_one, Nat.mul_one, Nat.zero_mul, Nat.add_zero, base] at this
  omega

theorem layer_idx (hw : g.WF) (hf : Layer g) {x y : Nat} (hx : x < g.len 0) (hv : g.Valid (squareCell g x y)) :
    g.idx (squareCell g x y) 0 = x ∧ g.idx (squareCell g x y) 1 = y := by
  obtain ⟨h0, -, -, h3⟩ := layer_cell hw hf hv
  unfold squareCell at h3 h0 ⊢
  obtain ⟨e1, e2⟩ := square_unique (y := y) (y' := g.idx (1 + x + y * g.len 0) 1) hx h0 (by omega)
  exact ⟨e1.symm, e2.symm⟩

/-- Neighbors of cells are listed once. -/
theorem layer_nodup (hf : Layer g) {E : Nat → Bool} {c : Nat} {f : V3 Int → List (Nat × V3 Int)} (hd : H.Nodup)
    (h : ∀ o ∈ H, IsItem g E c o (f o)) : (H.flatMap f).Nodup := by
  induction H with
  | nil => exact List.nodup_nil
  | cons o H ih =>
    have hoff : ∀ o' ∈ o :: H, ∀ a ∈ f o', a.2 = o' := fun o' ho a ha => by
      funext d
      rcases item_range (h o' ho) (show (a.1, a.2) ∈ f o' from ha) d with ⟨-, r⟩ | ⟨r, -⟩
      · rw [layer_side hf, layer_side hf] at r; omega
      · rw [layer_side hf, layer_side hf] at r; omega
    rw [List.nodup_cons] at hd
    rw [List.flatMap_cons, List.nodup_append]
    refine ⟨?_, ih hd.2 fun a ha => h a (List.mem_cons_of_mem _ ha), fun a ha b hb e => ?_⟩
    · have := h o (List.mem_cons_self ..)
      generalize f o = l at this
      cases this with
      | outside => exact List.nodup_nil
      | covers => simp
      | eight h1 h2 h3 => rw [layer_side hf] at h2; omega
    · subst e
      obtain ⟨o', ho', hb⟩ := List.mem_flatMap.1 hb
      have e1 := hoff o (List.mem_cons_self ..) a ha
      have e2 := hoff o' (List.mem_cons_of_mem _ ho') a hb
      rw [e1] at e2
      exact hd.1 (e2 ▸ ho')

/-- What one offset adds to the count of live neighbors. -/
theorem layer_item (hw : g.WF) (hf : Layer g) {E : Nat → Bool} (ht : ∀ b, E b = true → g.Valid b) {c : Nat} (hc : g.Valid c) {o : V3 Int}
    (ho : o 2 = 0) {l : List (Nat × V3 Int)} (h : IsItem g E c o l) {u : Nat → Option Nat}
    (hu : ∀ b, E b = true → (u b = some 1 ↔ B (g.idx b 0) (g.idx b 1) = true)) :
    l.countP (fun a => decide (u a.1 = some 1)) = if squareOf g B (g.idx c 0 + o 0) (g.idx c 1 + o 1) = true then 1 else 0 := by
  have hi2 := (layer_cell hw hf hc).2.2.1
  have hcor : ∀ d, corner g c o d = g.idx c d + o d := fun d => by
    unfold corner; rw [layer_side hf]; omega
  have hin : g.InCover (corner g c o) ↔ (g.periodic 0 || decide (0 ≤ (g.idx c 0 : Int) + o 0 ∧ (g.idx c 0 : Int) + o 0 < g.len 0)) = true ∧
      (g.periodic 1 || decide (0 ≤ (g.idx c 1 : Int) + o 1 ∧ (g.idx c 1 : Int) + o 1 < g.len 1)) = true := by
    unfold InCover
    rw [forall_fin3, hcor, hcor, hcor, layer_n hf, layer_n hf, layer_n hf, hf.2, hi2, ho]
    simp only [Bool.or_eq_true, decide_eq_true_eq]
    constructor
    · rintro ⟨a, b, c⟩; exact ⟨a, b⟩
    · rintro ⟨a, b⟩; exact ⟨a, b, Or.inr (by omega)⟩
  cases h with
  | outside h =>
    rw [List.countP_nil, if_neg]
    intro hh
    rw [hin] at h
    unfold squareOf at hh
    simp only [Bool.and_eq_true] at hh
    exact h ⟨hh.1.1, hh.1.2⟩
  | @covers b off h1 h2 h3 h4 h5 =>
    have hi := hin.1 h1
    have hoff : ∀ d, off d = o d := fun d => by
      rcases item_range (IsItem.covers h1 h2 h3 h4 h5) (List.mem_singleton.2 rfl) d with ⟨-, r⟩ | ⟨r, -⟩
      · rw [layer_side hf, layer_side hf] at r; omega
      · rw [layer_side hf, layer_side hf] at r; omega
    have hb := layer_cell hw hf (ht b h2)
    have hm : ∀ d : Fin 3, g.idx b d < g.len d → ((g.idx c d + o d) % (g.len d : Int)).toNat = g.idx b d := fun d hlt => by
      obtain ⟨⟨q, hq⟩, -⟩ := h4 d
      rw [layer_n hf] at hq
      dsimp only at hq
      rw [hoff] at hq
      have : (g.idx c d : Int) + o d = g.idx b d + g.len d * q := by omega
      rw [this, Int.add_mul_emod_self_left, Int.emod_eq_of_lt (by omega) (by omega)]
      omega
    have e : squareOf g B (g.idx c 0 + o 0) (g.idx c 1 + o 1) = B (g.idx b 0) (g.idx b 1) := by
      unfold squareOf
      rw [hi.1, hi.2, hm 0 hb.1, hm 1 hb.2.1]
      rfl
    rw [e, List.countP_singleton]
    by_cases hB : B (g.idx b 0) (g.idx b 1) = true
    · rw [if_pos hB, if_pos (decide_eq_true ((hu b h2).2 hB))]
    · rw [if_neg hB, if_neg (fun h => hB ((hu b h2).1 (of_decide_eq_true h)))]
  | eight h1 h2 h3 => rw [layer_side hf] at h2; omega

theorem layer_count (hw : g.WF) (hf : Layer g) (hi : Inv g w s) (hz : ∀ o ∈ H, o 2 = 0) {i : Fin n} (hH : hoodFor g (s i) id = some H) {c : Nat}
    (hc : exist w c = true) {u : Nat → Option Nat} (hu : ∀ b, exist w b = true → (u b = some 1 ↔ B (g.idx b 0) (g.idx b 1) = true)) :
    countOnes c (((getNeighborsOf g (s i) c id).getD []).map fun a => (a, u a.1)) = gameAround g H B (g.idx c 0) (g.idx c 1) := by
  obtain ⟨f, f1, f2, -⟩ := hi.neighborsOf hw hH hc
  rw [f1]
  show List.countP _ ((H.flatMap f).map _) = _
  rw [List.countP_map, List.countP_flatMap]
  exact sum_ones _ _ _ fun o ho => layer_item hw hf hi.sys.tiled.valid (hi.sys.tiled.valid c hc) (hz o ho) (f2 o ho) hu

theorem layer_field (hw : g.WF) (hf : Layer g) (hi : Inv g w s) (hn : 0 < n) (hz : ∀ o ∈ H, o 2 = 0) (hH : ∀ i, hoodFor g (s i) id = some H)
    {u : Nat → Option Nat} (hs : ∀ c, (u c).isSome = exist w c)
    (hu : ∀ c, exist w c = true → u c = some (if B (g.idx c 0) (g.idx c 1) = true then 1 else 0)) (r : Nat) {c : Nat} (hc : exist w c = true) :
    turnField g H (sweepOf dflt countOnes lifeRule) u r c = some (if gameAfter g H B r (g.idx c 0) (g.idx c 1) = true then 1 else 0) := by
  induction r generalizing c with
  | zero => exact hu c hc
  | succ r ih =>
    obtain ⟨h1, h2⟩ := turnField_next hw hi hH (f := sweepOf dflt countOnes lifeRule) hs r
    rw [h2 ⟨0, hn⟩ c _ hc (ih hc), sweepOf, layer_count (B := gameAfter g H B r) hw hf hi hz (hH _) hc fun b hb => by rw [ih hb]; split <;> simp_all]
    show some (lifeRule c _ _) = some (if gameTurn g H (gameAfter g H B r) _ _ = true then 1 else 0)
    unfold lifeRule gameTurn
    simp only [Option.getD_some]
    by_cases h3 : gameAround g H (gameAfter g H B r) (g.idx c 0) (g.idx c 1) = 3
    · rw [if_pos h3, decide_eq_true h3]; rfl
    · rw [if_neg h3, decide_eq_false h3]
      by_cases h2 : gameAround g H (gameAfter g H B r) (g.idx c 0) (g.idx c 1) = 2
      · rw [if_neg (fun h => h h2), decide_eq_true h2]; simp
      · rw [if_pos h2, decide_eq_false h2]; rfl

theorem foldl_moved {H : List (V3 Int)} (u : Nat → Option Nat) (T : Nat) :
    (movedTurns T id H dflt).foldl (fun u x => x.field g u) u = turnField g H (sweepOf dflt countOnes lifeRule) u T := by
  induction T generalizing u with
  | zero => rfl
  | succ T ih =>
    show List.foldl _ u ([SimStage.move, SimStage.sweep id H (sweepOf dflt countOnes lifeRule)] ++ movedTurns T id H dflt) = _
    rw [List.foldl_append, ih]
    exact turnField_shift T

theorem Marked.field (hw : g.WF) (hf : Layer g) (hi : Inv g w s) (hn : 0 < n) (hp : Marked g s B) {u : Nat → Option Nat} (hu : Holds s u) :
    (∀ c, (u c).isSome = exist w c) ∧ ∀ c, exist w c = true → u c = some (if B (g.idx c 0) (g.idx c 1) = true then 1 else 0) := by
  have h1 : ∀ c, (u c).isSome = exist w c := fun c => by
    have := congrFun (isSome_eq_exist hu ⟨0, hn⟩) c
    rwa [hi.sys.owner] at this
  refine ⟨h1, fun c hc => ?_⟩
  have h2 := h1 c
  rw [hc] at h2
  obtain ⟨d, hd⟩ := Option.isSome_iff_exists.1 h2
  obtain ⟨j, hj⟩ := exist_iff.1 hc
  obtain ⟨e0, e1, -, e3⟩ := layer_cell hw hf (hi.sys.tiled.valid c hc)
  have hj' : (s j).owner c = some j := by rw [hi.sys.owner]; exact hj
  have ha := ((hu j c).1 j hj').1
  rw [hd] at ha ⊢
  rw [hp j _ _ d e0 e1 (by rw [← e3]; exact hj') (by rw [← e3]; exact ha)]

/-! ## The property -/

theorem Marked.after (hw : g.WF) (hn : 0 < n) (hf : Layer g) (hI : Inv g w s) (hz : ∀ o ∈ H, o 2 = 0)
    (hH : ∀ i, hoodFor g (s i) id = some H) (hp : Marked g s B) {u : Nat → Option Nat} (hu : Holds s u)
    (hT : Holds t (turnField g H (sweepOf dflt countOnes lifeRule) u T)) : Marked g t (gameAfter g H B T) := by
  obtain ⟨h1, h2⟩ := hp.field hw hf hI hn hu
  intro i a b d ha hb hc hd
  have e := ((hT i _).1 i hc).1
  have hc' : exist w (squareCell g a b) = true := by
    have e1 := ((hT i _).2).1 (exist_of hc)
    rw [← (turnField_next hw hI hH (f := sweepOf dflt countOnes lifeRule) h1 T).1, Option.isSome_iff_ne_none]
    exact e1
  rw [hd, layer_field hw hf hI hn hz hH h1 h2 T hc', (layer_idx hw hf ha (hI.sys.tiled.valid _ hc')).1,
    (layer_idx hw hf ha (hI.sys.tiled.valid _ hc')).2] at e
  exact Option.some.inj e

/-- C132: with any neighborhood in the layer, after any number of turns between which load is balanced in any way, data of cells is that of the game
with squares at the offsets of the neighborhood. -/
theorem C132_game (hw : g.WF) (hn : 0 < n) (hf : Layer g) (h : Idle g dflt maxTag s) (hz : ∀ o ∈ H, o 2 = 0)
    (hH : ∀ i, hoodFor g (s i) id = some H) (hp : Marked g s B) (ht : Simulates g dflt maxTag (movedTurns T id H dflt) s t) :
    Marked g t (gameAfter g H B T) := by
  obtain ⟨w, hI⟩ := h.reachable.inv hw hn
  obtain ⟨u, hu⟩ := hI.holds
  have hT := (ht.holds hw hn h hu).2
  rw [foldl_moved] at hT
  exact hp.after hw hn hf hI hz hH hu hT

theorem twice_mod {z : Int} {m p : Nat} (hm : 0 < m) (hp : p < 2) : ((2 * z + p) % ((2 * m : Nat) : Int)).toNat = 2 * (z % (m : Int)).toNat + p := by
  have h1 := Int.emod_lt_of_pos z (show (0 : Int) < m by omega)
  have h2 := Int.emod_nonneg z (show (m : Int) ≠ 0 by omega)
  have h3 := Int.emod_add_mul_ediv z m
  have e : 2 * z + p = (2 * (z % (m : Int)) + p) + ((2 * m : Nat) : Int) * (z / m) := by
    rw [Int.natCast_mul, Int.mul_assoc]
    omega
  rw [e, Int.add_mul_emod_self_left, Int.emod_eq_of_lt (by omega) (by omega)]
  omega

/-- Squares at twice the offset are squares of the same part of the board. -/
theorem square_part {g' : Cfg} (h0 : g.len 0 = 2 * g'.len 0) (h1 : g.len 1 = 2 * g'.len 1) (hp : g'.periodic = g.periodic) {p q : Nat} (hp2 : p < 2)
    (hq2 : q < 2) (l0 : 0 < g'.len 0) (l1 : 0 < g'.len 1) (x y : Int) :
    squareOf g B (2 * x + p) (2 * y + q) = squareOf g' (partOf B p q) x y := by
  have e0 : decide (0 ≤ 2 * x + (p : Int) ∧ 2 * x + (p : Int) < (2 * g'.len 0 : Nat)) = decide (0 ≤ x ∧ x < (g'.len 0 : Int)) :=
    decide_eq_decide.2 (by omega)
  have e1 : decide (0 ≤ 2 * y + (q : Int) ∧ 2 * y + (q : Int) < (2 * g'.len 1 : Nat)) = decide (0 ≤ y ∧ y < (g'.len 1 : Int)) :=
    decide_eq_decide.2 (by omega)
  unfold squareOf partOf
  rw [h0, h1, hp, twice_mod l0 hp2, twice_mod l1 hq2, e0, e1]

theorem spaced_around (P : Int → Int → Bool) : spacedHood.countP (fun o => P (o 0) (o 1)) = around.countP fun o => P (2 * o.1) (2 * o.2) := by
  have e : (spacedHood.map fun o => (o 0, o 1)).Perm (around.map fun o => (2 * o.1, 2 * o.2)) := by decide
  have := e.countP_eq fun o => P o.1 o.2
  rw [List.countP_map, List.countP_map] at this
  exact this

theorem gameAfter_part {g' : Cfg} (h0 : g.len 0 = 2 * g'.len 0) (h1 : g.len 1 = 2 * g'.len 1) (hp : g'.periodic = g.periodic) {p q : Nat} (hp2 : p < 2)
    (hq2 : q < 2) (l0 : 0 < g'.len 0) (l1 : 0 < g'.len 1) (T : Nat) :
    partOf (gameAfter g spacedHood B T) p q = conwayAfter g' (partOf B p q) T := by
  induction T with
  | zero => rfl
  | succ T ih =>
    funext a b
    show gameTurn g spacedHood (gameAfter g spacedHood B T) (2 * a + p) (2 * b + q) = conway g' (conwayAfter g' (partOf B p q) T) a b
    have e : gameAround g spacedHood (gameAfter g spacedHood B T) (2 * a + p) (2 * b + q) = aliveAround g' (conwayAfter g' (partOf B p q) T) a b := by
      unfold gameAround aliveAround
      rw [spaced_around fun i j => squareOf g (gameAfter g spacedHood B T) ((2 * a + p : Nat) + i) ((2 * b + q : Nat) + j)]
      congr 1
      funext o
      rw [← ih, ← square_part h0 h1 hp hp2 hq2 l0 l1]
      congr 1 <;> omega
    unfold gameTurn conway
    rw [e, ← ih]
    rfl

/-- C132, tests/user_neighborhood/game_of_life.cpp: four games are played at the same time, each of them is Conway's game of life on a board of half
the length, and they don't affect each other. -/
theorem C132_interlaced {g' : Cfg} (hw : g.WF) (hn : 0 < n) (hf : Layer g) (h : Idle g dflt maxTag s) (hH : ∀ i, hoodFor g (s i) id = some spacedHood)
    (h0 : g.len 0 = 2 * g'.len 0) (h1 : g.len 1 = 2 * g'.len 1) (hp : g'.periodic = g.periodic) (hm : Marked g s B)
    (ht : Simulates g dflt maxTag (movedTurns T id spacedHood dflt) s t) {i : Fin n} {a b p q d : Nat} (ha : a < g'.len 0) (hb : b < g'.len 1)
    (hp2 : p < 2) (hq2 : q < 2) (hc : (t i).owner (squareCell g (2 * a + p) (2 * b + q)) = some i)
    (hd : access (t i) (squareCell g (2 * a + p) (2 * b + q)) = some d) :
    d = if conwayAfter g' (fun a b => B (2 * a + p) (2 * b + q)) T a b = true then 1 else 0 := by
  have := C132_game hw hn hf h (by intro o ho; revert o; decide) hH hm ht i _ _ d (by omega) (by omega) hc hd
  rw [this]
  have e := congrFun (congrFun (gameAfter_part (B := B) h0 h1 hp hp2 hq2 (by omega) (by omega) T) a) b
  have e : gameAfter g spacedHood B T (2 * a + p) (2 * b + q) = _ := e
  rw [e]
  rfl

/-- C132: loops over neighbors that iterators have count the same neighbors. -/
theorem C132_iterator (hw : g.WF) (hf : Layer g) (h : Reachable g dflt maxTag s) (i : Fin n) (hH : hoodFor g (s i) id = some H) (hd : H.Nodup) :
    ∃ k, updatePointers g i (s i) id = .ok k ∧ ∀ c ∈ range k.cells k.all, ∃ l, getNeighborsOf g (s i) c.id id = some l ∧
      (range k.nbrs c.of).Perm l ∧ ∀ v : Nat → Option Nat,
        countOnes c.id ((range k.nbrs c.of).map fun a => (a, v a.1)) = countOnes c.id (l.map fun a => (a, v a.1)) := by
  have hn : 0 < n := by have := i.2; omega
  obtain ⟨k, k1, -, -, -, -, k3, k2⟩ := C38_ranges (id := id) hw h i (by rw [hH]; rfl)
  refine ⟨k, k1, fun c hc => ?_⟩
  obtain ⟨⟨h1, h2⟩, -, -⟩ := (k2 c hc).1
  obtain ⟨w, hi⟩ := h.inv hw hn
  have hex : exist w c.id = true := by
    have := (k3.2 c.id).1 (List.mem_map.2 ⟨c, hc, rfl⟩)
    rw [hi.sys.owner] at this
    rcases this with e | ⟨⟨q, e, -⟩, -⟩
    · exact exist_of e
    · rw [hi.sys.owner] at e; exact exist_of e
  obtain ⟨f, f1, f2, -⟩ := hi.neighborsOf (i := i) hw hH hex
  have hp : (range k.nbrs c.of).Perm (H.flatMap f) := by
    refine (List.perm_ext_iff_of_nodup h1 (layer_nodup hf hd f2)).2 fun a => ?_
    rw [h2 a]
    constructor
    · rintro ⟨l, q1, q2⟩
      rw [f1] at q1
      cases q1
      exact q2
    · intro ha
      exact ⟨_, f1, ha⟩
  exact ⟨_, f1, hp, fun v => List.Perm.countP_eq _ (List.Perm.map _ hp)⟩

/-! ## The grid of the test -/

/-- The grid of tests/user_neighborhood/game_of_life.cpp:154-161. -/
def boardG : Cfg := { len := v3 18 18 1, maxLvl := 0, periodic := v3 true true true, hood := 2 }

/-- The board of each of the four games. -/
def partG : Cfg := { len := v3 9 9 1, maxLvl := 0, periodic := v3 true true true, hood := 1 }

theorem board_wf : boardG.WF := by unfold Cfg.WF; rw [forall_fin3]; decide

theorem board_layer : Layer boardG := ⟨rfl, rfl⟩

/-! ## The verification in the test -/

/-- Boards of 36 turns of the test, one bit for every square. -/
def turnMasks : List Nat := [
  0x2900a95000c002a0020540500028001040000000500000280000000280000000000000,
  0x204002800824002c40824028500580028101040000000500000280000000280000000000000,
  0x2800a95000c002a0020440500028501040000000500000280000000280000000000000,
  0x204002800824002900824029400580028501040000000500000280000000280000000000000,
  0x2800a95000c002a0021000500029501040000000500000280000000280000000000000,
  0x204002800824002800824029100580029401040000400500000280000000280000000000000,
  0x2800a950008002a0021000500029101040001400500000280000000280000000000000,
  0x20400280082400280082402840058002d001040001400500000280000000280000000000000,
  0x2800a950008002a002100050002c001040005400500000280000000280000000000000,
  0x20400280082400280082402800058002c401040005000500001280000000280000000000000,
  0x2800a950008002a002000050002c001040004400500005280000000280000000000000,
  0x204002800824002800824028000580029001040014000500005280000000280000000000000,
  0x2800a950008002a002000050002c001040010000500015280000000280000000000000,
  0x204002800824002800824028000580028001040011000500014280000004280000000000000,
  0x2800a950008002a0020000500028001040010000500011280000014280000000000000,
  0x204002800824002800824028000580028001040004000500050280000014280000000000000,
  0x2800a950008002a0020000500028001040010000500040280000054280000000000000,
  0x204002800824002800824028000580028001040000000500044280000050280000010000000,
  0x2800a950008002a0020000500028001040000000500040280000044280000050000000,
  0x204002800824002800824028000580028001040000000500010280000140280000050000000,
  0x2800a950008002a0020000500028001040000000500040280000100280000150000000,
  0x40000204002800824002800824028000580028001040000000500000280000110280000140000000,
  0x140000000002800a950008002a0020000500028001040000000500000280000100280000110000000,
  0x140000204002800824002800824028000580028001040000000500000280000040280000500000000,
  0x540000000002800a950008002a0020000500028001040000000500000280000100280000400000000,
  0x500000204102800824002800824028000580028001040000000500000280000000280000440000000,
  0x440000000502800a950008002a0020000500028001040000000500000280000000280000400000000,
  0x400040204502800824002800824028000580028001040000000500000280000000280000100000000,
  0x40000502840a950008002a0020000500028001040000000500000280000000280000400000000,
  0x100040204402840824402800824028000580028001040000000500000280000000280000000000000,
  0x40000102840a954008402a0020000500028001040000000500000280000000280000000000000,
  0x400000204002940824402840824028000580028001040000000500000280000000280000000000000,
  0x40000002900a954009402a0020000500028001040000000500000280000000280000000000000,
  0x204402900824002940824028040580028001040000000500000280000000280000000000000,
  0x2900a954009002a0020140500028001040000000500000280000000280000000000000,
  0x204002840824002d00824028140580028001040000000500000280000000280000000000000]


def maskBoard (j x y : Nat) : Bool := ((turnMasks[j]?).getD 0).testBit (x + 18 * y)

theorem gameTurn_congr {B B' : Nat → Nat → Bool} (h : ∀ x y, x < g.len 0 → y < g.len 1 → B x y = B' x y) {x y : Nat} (hx : x < g.len 0)
    (hy : y < g.len 1) : gameTurn g H B x y = gameTurn g H B' x y := by
  have e : gameAround g H B x y = gameAround g H B' x y := by
    unfold gameAround
    congr 1
    funext o
    unfold squareOf
    rw [h]
    · have := Int.emod_lt_of_pos ((x : Int) + o 0) (show (0 : Int) < g.len 0 by omega)
      have := Int.emod_nonneg ((x : Int) + o 0) (show (g.len 0 : Int) ≠ 0 by omega)
      omega
    · have := Int.emod_lt_of_pos ((y : Int) + o 1) (show (0 : Int) < g.len 1 by omega)
      have := Int.emod_nonneg ((y : Int) + o 1) (show (g.len 1 : Int) ≠ 0 by omega)
      omega
  unfold gameTurn
  rw [e, h x y hx hy]

theorem mask_next : ∀ j, j < 36 → ∀ x, x < 18 → ∀ y, y < 18 →
    gameTurn boardG spacedHood (maskBoard j) x y = maskBoard ((j + 1) % 36) x y := by decide +kernel

theorem mask_after (T : Nat) : ∀ x y, x < 18 → y < 18 → gameAfter boardG spacedHood (maskBoard 0) T x y = maskBoard (T % 36) x y := by
  induction T with
  | zero => intro x y _ _; rfl
  | succ T ih =>
    intro x y hx hy
    show gameTurn boardG spacedHood (gameAfter boardG spacedHood (maskBoard 0) T) x y = _
    rw [show (T + 1) % 36 = (T % 36 + 1) % 36 by omega, ← mask_next (T % 36) (by omega) x hx y hy]
    exact gameTurn_congr (g := boardG) (fun a b ha hb => ih a b ha hb) hx hy

theorem mask_live : ∀ k, k < 9 → ∀ x, x < 18 → ∀ y, y < 18 →
    maskBoard (4 * k) x y = decide (squareCell boardG x y ∈ getLiveCells 18 (4 * k)) := by decide +kernel

theorem wrap_period (k : Nat) (a b : Int) (ha : 0 ≤ a) :
    wrapSquare 18 (a + 2 * (k : Int)) (b - 2 * (k : Int)) = wrapSquare 18 (a + 2 * ((k % 9 : Nat) : Int)) (b - 2 * ((k % 9 : Nat) : Int)) := by
  unfold wrapSquare
  rw [Int.tmod_eq_emod_of_nonneg (by omega), Int.tmod_eq_emod_of_nonneg (by omega)]
  exact Prod.ext (by dsimp only; omega) (by dsimp only; omega)

theorem live_period (k : Nat) : getLiveCells 18 (4 * k) = getLiveCells 18 (4 * (k % 9)) := by
  unfold getLiveCells
  simp only [show 4 * k / 4 = k by omega, show 4 * (k % 9) / 4 = k % 9 by omega, List.map_cons, List.map_nil]
  rw [wrap_period k 3 15 (by decide), wrap_period k 5 13 (by decide), wrap_period k 1 11 (by decide), wrap_period k 3 11 (by decide),
    wrap_period k 5 11 (by decide)]

theorem Simulates.append_holds {l : List (SimStage Nat)} {u : Nat → Option Nat} (hw : g.WF) (hn : 0 < n) (h : Idle g dflt maxTag s)
    (hu : Holds s u) (hp : Simulates g dflt maxTag (l ++ [.move]) s t) : Holds t (l.foldl (fun u x => x.field g u) u) := by
  have := (hp.holds hw hn h hu).2
  rw [List.foldl_append] at this
  exact this

/-- C132: the verification in tests/user_neighborhood/game_of_life.cpp:218-241, after load has been balanced on time step `4 k`, never fails, on any
number of processes and also after the 36 time steps of the test. -/
theorem C132_verified {k : Nat} (hn : 0 < n) (h : Idle boardG dflt maxTag s) (hH : ∀ i, hoodFor boardG (s i) id = some spacedHood)
    (hs : ∀ i c d, (s i).owner c = some i → access (s i) c = some d → d = if c ∈ getLiveCells 18 0 then 1 else 0)
    (ht : Simulates boardG dflt maxTag (movedTurns (4 * k) id spacedHood dflt ++ [.move]) s t) {i : Fin n} {c d : Nat}
    (hc : (t i).owner c = some i) (hd : access (t i) c = some d) :
    d ≠ 0 ↔ c ∈ getLiveCells 18 (4 * k) := by
  obtain ⟨w, hI⟩ := h.reachable.inv board_wf hn
  obtain ⟨u, hu⟩ := hI.holds
  have hm : Marked boardG s (maskBoard 0) := fun j x y e hx hy h1 h2 => by
    rw [hs j _ e h1 h2, mask_live 0 (by decide) x hx y hy]
    simp
  have hT := ht.append_holds board_wf hn h hu
  rw [foldl_moved] at hT
  have hp := hm.after board_wf hn board_layer hI (by intro o ho; revert o; decide) hH hu hT
  have hv : boardG.Valid c := by
    obtain ⟨v, hJ⟩ := (ht.holds board_wf hn h hu).1.reachable.inv board_wf hn
    rw [hJ.sys.owner] at hc
    exact hJ.sys.tiled.valid c (exist_of hc)
  obtain ⟨c0, c1, -, c3⟩ := layer_cell board_wf board_layer hv
  have := hp i _ _ d c0 c1 (by rw [← c3]; exact hc) (by rw [← c3]; exact hd)
  rw [this, mask_after _ _ _ c0 c1, show 4 * k % 36 = 4 * (k % 9) by omega, mask_live (k % 9) (by omega) _ c0 _ c1, ← c3, live_period k]
  by_cases hm : c ∈ getLiveCells 18 (4 * (k % 9)) <;> simp [hm]

theorem mark_cells (hw : g.WF) (hn : 0 < n) (h : Idle g dflt maxTag s) (L : List Nat) : ∃ t : Sys n Nat W, Idle g dflt maxTag t ∧
    (∀ i, (t i).owner = (s i).owner ∧ (t i).hoods = (s i).hoods) ∧
    ∀ i c, (s i).owner c = some i → access (t i) c = if c ∈ L then some 1 else access (s i) c := by
  induction L with
  | nil => exact ⟨s, h, fun i => ⟨rfl, rfl⟩, fun i c _ => by rw [if_neg (by simp)]⟩
  | cons c L ih =>
    obtain ⟨t, t1, t2, t3⟩ := ih
    obtain ⟨w, hi⟩ := t1.reachable.inv hw hn
    cases hc : w c with
    | none =>
      refine ⟨t, t1, t2, fun i b hb => ?_⟩
      rw [t3 i b hb]
      have : b ≠ c := by
        rintro rfl
        rw [← (t2 i).1, hi.sys.owner, hc] at hb
        cases hb
      simp [this]
    | some j =>
      have hd : ((t j).data c).isSome = true := Option.isSome_iff_ne_none.2 (hi.access_own hc).2
      have hwr : write (t j) c 1 = { t j with data := fun x => if x = c then some 1 else (t j).data x } := by
        unfold write; rw [if_pos hd]
      have h2 : step g dflt maxTag t (.write j c 1) = .ok (t.set j (write (t j) c 1)) := rfl
      rw [hwr] at h2
      obtain ⟨k, k1, k2⟩ := t1
      refine ⟨_, ⟨_, .call (.write j c 1) k1 trivial h2, fun b => ⟨?_, ?_, ?_, ?_⟩⟩, fun i => ?_, fun i b hb => ?_⟩
      · rintro (e | ⟨i, e, -⟩)
        · exact (k2 b).1 e
        · cases e
      · rintro (e | ⟨i, e, -⟩)
        · exact (k2 b).2.1 e
        · cases e
      · rintro (e | ⟨i, e, -⟩)
        · exact (k2 b).2.2.1 e
        · cases e
      · rintro (e | ⟨i, e, -⟩)
        · exact (k2 b).2.2.2 e
        · cases e
      · unfold Sys.set
        by_cases hij : i = j
        · subst hij; rw [if_pos rfl]; exact t2 i
        · rw [if_neg hij]; exact t2 i
      · unfold Sys.set
        have e := t3 i b hb
        by_cases hij : i = j
        · subst hij
          rw [if_pos rfl]
          by_cases hbc : b = c
          · subst hbc
            unfold access
            simp
          · have : access { t i with data := fun x => if x = c then some 1 else (t i).data x } b = access (t i) b := by
              unfold access
              simp only [if_neg hbc]
            rw [this, e]
            simp [hbc]
        · rw [if_neg hij, e]
          have : b ≠ c := by
            rintro rfl
            rw [← (t2 i).1, hi.sys.owner, hc] at hb
            exact hij (Option.some.inj hb).symm
          simp [this]

theorem write_hoods (p : Proc n Nat W) (c v : Nat) : (write p c v).hoods = p.hoods := by
  unfold write
  repeat' split
  all_goals rfl

theorem writes_hoods {ops : List (Op n Nat W)} (h : ∀ op ∈ ops, ∃ i c v, op = .write i c v) (ht : Ops g dflt maxTag s ops t) (i : Fin n) :
    (t i).hoods = (s i).hoods := by
  induction ht with
  | nil => rfl
  | @cons s s1 s2 op ops ho h1 h2 ih =>
    rw [ih fun op hop => h op (List.mem_cons_of_mem _ hop)]
    obtain ⟨j, c, v, rfl⟩ := h op (List.mem_cons_self ..)
    have h1 : Out.ok (s.set j (write (s j) c v)) = Out.ok s1 := h1
    injection h1 with h1
    rw [← h1]
    unfold Sys.set
    by_cases hij : i = j
    · subst hij; rw [if_pos rfl, write_hoods]
    · rw [if_neg hij]

theorem Performs.sweep_hoods {f : Nat → Option Nat → List ((Nat × V3 Int) × Option Nat) → Nat} (hw : g.WF) (h : Reachable g dflt maxTag s)
    (hp : Performs g dflt maxTag (.sweep id H f) s t) (i : Fin n) : (t i).hoods = (s i).hoods := by
  cases hp with
  | @sweep _ _ _ _ s1 _ ops hH h1 h2 h3 =>
    rw [writes_hoods (fun op hop => by obtain ⟨i, c, -, e⟩ := (h2 op).1 hop; exact ⟨i, c, _, e⟩) h3]
    obtain ⟨res, hr, e⟩ := Out.bind_inv h1
    injection e with e
    rw [← e]
    show (res i).2.hoods = _
    rw [(C33_rest hw h hr i).1]

/-- C132: the game goes on for any number of turns. -/
theorem C132_possible (hw : g.WF) (hn : 0 < n) (hm : g.last ≤ maxTag) (h : Idle g dflt maxTag s) (hH : ∀ i, hoodFor g (s i) id = some H) (T : Nat) :
    ∃ t, Simulates g dflt maxTag (movedTurns T id H dflt ++ [.move]) s t := by
  induction T generalizing s with
  | zero => exact ⟨s, .cons (.move (.refl _)) (.nil _)⟩
  | succ T ih =>
    obtain ⟨s1, h1, h2⟩ := C115_possible hw hn hm h (.sweep id H (sweepOf dflt countOnes lifeRule)) (fun id H f e i => by
      have q := SimStage.sweep.inj e; rw [← q.1, ← q.2.1]; exact hH i)
    obtain ⟨t, ht⟩ := ih h2 fun i => by
      have := hH i
      unfold hoodFor at this ⊢
      rw [h1.sweep_hoods hw h.reachable]
      exact this
    exact ⟨t, .cons (.move (.refl _)) (.cons h1 ht)⟩

/-- The start of the test on two processes. -/
theorem board_start (L : List Nat) : ∃ s : Sys 2 Nat Nat, Idle boardG 0 324 s ∧ (∀ i, hoodFor boardG (s i) 1 = some spacedHood) ∧
    (∀ i c d, (s i).owner c = some i → access (s i) c = some d → d = if c ∈ L then 1 else 0) ∧ (s 1).owner 222 = some 1 := by
  have hlast : boardG.last = 324 := by decide
  obtain ⟨s0, h0, hx, hs⟩ := createGrid_spec (n := 2) (W := Nat) (maxTag := 324) board_wf (by decide) (0 : Nat)
    (fitsTags_mono (by rw [hlast]; exact Nat.le_refl _) (fitsTags_last (createLevel0_tiled board_wf (by decide)).valid))
  have hr0 : Reachable boardG 0 324 s0 := .init h0
  obtain ⟨w, hi⟩ := hr0.inv board_wf (by decide)
  obtain ⟨s1, h1⟩ := step_ok board_wf (by decide) 0 hi (by rw [hlast]; exact Nat.le_refl _) (.addHood 1 spacedHood) trivial trivial
  obtain ⟨r, r1, r2⟩ := Out.bind_inv h1
  have r2 : (fun i => (r i).2) = s1 := by injection r2
  have hadd : ∀ i, s1 i = { s0 i with hoods := (s1 i).hoods } ∧ hoodFor boardG (s1 i) 1 = some spacedHood := fun i => by
    obtain ⟨a1, a2, a3⟩ := C40_add (b := (r i).1) (p' := (r i).2) board_wf hr0 (Out.collect_inv r1 i)
    have ht : (r i).1 = true := a1.2 ⟨by unfold hoodFor; rw [if_neg (by decide), (hs i).2.1]; rfl, by unfold ItemAllowed; intro o ho; revert o; decide⟩
    rw [← r2]
    exact ⟨(a3 ht).1, (a3 ht).2.1⟩
  have hd1 : ∀ i c, (s1 i).data c = if (createLevel0 2 boardG.total).2 c = some i then some 0 else none := fun i c => by
    rw [(hadd i).1]; exact (hs i).2.2.1 c
  have hw1 : ∀ i, (s1 i).owner = (createLevel0 2 boardG.total).2 := fun i => by
    rw [(hadd i).1]; exact hx.owner i
  have hid : Idle boardG 0 324 s1 := by
    refine ⟨_, .call (.addHood 1 spacedHood) (.init h0) trivial h1, fun c => ⟨?_, ?_, ?_, ?_⟩⟩ <;>
      · rintro (h | ⟨i, e, -⟩)
        · exact h
        · cases e
  obtain ⟨t, t1, t2, t3⟩ := mark_cells board_wf (by decide) hid L
  refine ⟨t, t1, fun i => ?_, fun i c d hc hd => ?_, ?_⟩
  · have := (hadd i).2
    unfold hoodFor at this ⊢
    rw [(t2 i).2]
    exact this
  · rw [(t2 i).1] at hc
    rw [t3 i c hc] at hd
    split at hd
    · next hl => rw [if_pos hl]; exact (Option.some.inj hd).symm
    · next hl =>
      rw [if_neg hl]
      rw [hw1] at hc
      unfold access at hd
      simp only [hd1, if_pos hc] at hd
      exact (Option.some.inj hd).symm
  · rw [(t2 1).1, hw1]
    decide +kernel

/-- Hypotheses of `C132_possible` and `C132_verified` are met on two processes: the end of the test. -/
example : ∃ s t : Sys 2 Nat Nat, Idle boardG 0 324 s ∧ boardG.last ≤ 324 ∧ (∀ i, hoodFor boardG (s i) 1 = some spacedHood) ∧
    (∀ i c d, (s i).owner c = some i → access (s i) c = some d → d = if c ∈ getLiveCells 18 0 then 1 else 0) ∧ (s 1).owner 222 = some 1 ∧
    222 ∈ getLiveCells 18 0 ∧ Simulates boardG 0 324 (movedTurns (4 * 9) 1 spacedHood 0 ++ [.move]) s t := by
  obtain ⟨s, a, b, c, d⟩ := board_start (getLiveCells 18 0)
  obtain ⟨t, ht⟩ := C132_possible board_wf (by decide) (by decide) a b (4 * 9)
  exact ⟨s, t, a, by decide, b, c, d, by decide, ht⟩

/-- Hypotheses of `C132_game`, `C132_interlaced` and `C132_iterator` are met. -/
example : ∃ s t : Sys 2 Nat Nat, boardG.WF ∧ Layer boardG ∧ Idle boardG 0 324 s ∧ Reachable boardG 0 324 s ∧
    (∀ i, hoodFor boardG (s i) 1 = some spacedHood) ∧ spacedHood.Nodup ∧ (∀ o ∈ spacedHood, o 2 = 0) ∧
    Marked boardG s (maskBoard 0) ∧ Simulates boardG 0 324 (movedTurns 1 1 spacedHood 0) s t ∧ boardG.len 0 = 2 * partG.len 0 ∧
    boardG.len 1 = 2 * partG.len 1 ∧ partG.periodic = boardG.periodic := by
  obtain ⟨s, a, b, c, -⟩ := board_start (getLiveCells 18 0)
  obtain ⟨t, ht, -⟩ := C115_possible board_wf (by decide) (maxTag := 324) (by decide) a
    (.sweep 1 spacedHood (sweepOf 0 countOnes lifeRule)) (fun id H f e i => by have q := SimStage.sweep.inj e; rw [← q.1, ← q.2.1]; exact b i)
  refine ⟨s, t, board_wf, board_layer, a, a.reachable, b, by decide, by decide, fun j x y e hx hy h1 h2 => ?_,
    .cons (.move (.refl _)) (.cons ht (.nil _)), rfl, rfl, rfl⟩
  rw [c j _ e h1 h2, mask_live 0 (by decide) x hx y hy]
  simp

end Dccrg
