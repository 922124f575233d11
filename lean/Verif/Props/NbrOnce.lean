import Verif.Props.Iter
import Verif.DebugSpec
/-!
# C130: how many times a cell is in lists of neighbors
-/
namespace Dccrg
open Cfg
variable {n : Nat} {D W : Type} {g : Cfg} {w : Owner n} {s : Sys n D W} {dflt : D} {maxTag : Nat} {id : Int}

/-! ## Proofs -/

theorem hoodOf_abs {o : V3 Int} (h : o ∈ hoodOf g) (d : Fin 3) : -(max g.hood 1 : Nat) ≤ o d ∧ o d ≤ (max g.hood 1 : Nat) := by
  by_cases h0 : g.hood = 0
  · rw [hoodOf_zero h0, faces_mem] at h
    obtain ⟨e, pos, rfl⟩ := h
    have : -1 ≤ unitItem e pos d ∧ unitItem e pos d ≤ 1 := by
      unfold unitItem setD
      split
      · cases pos <;> decide
      · show -1 ≤ (0 : Int) ∧ (0 : Int) ≤ 1; decide
    omega
  · have h := ((mem_hoodOf h0).1 h).1 d
    omega

/-- Where a cell that is reported for an item can be. -/
theorem item_range {E : Nat → Bool} {c b : Nat} {o z : V3 Int} {l : List (Nat × V3 Int)} (h : IsItem g E c o l) (hb : (b, z) ∈ l) (d : Fin 3) :
    (g.side c ≤ g.side b ∧ z d ≤ o d * g.side c ∧ o d * g.side c + g.side c ≤ z d + g.side b) ∨
    (g.side c = 2 * g.side b ∧ o d * g.side c ≤ z d ∧ z d ≤ o d * g.side c + g.side b) := by
  have hs : 0 < g.side c := Nat.pow_pos (by omega)
  cases h with
  | outside => cases hb
  | covers h1 h2 h3 h4 h5 =>
    rw [List.mem_singleton] at hb
    cases hb
    left
    have k1 := (h5 (fun d => (g.idx c d : Int) + o d * g.side c) fun e => by dsimp only; omega) d
    have k2 := (h5 (fun d => (g.idx c d : Int) + o d * g.side c + (g.side c - 1)) fun e => by dsimp only; omega) d
    dsimp only at k1 k2
    omega
  | eight h1 h2 h3 =>
    rename_i k t
    obtain ⟨v, v1, v2⟩ := List.mem_map.1 hb
    cases v2
    right
    have hv := octants_le v1 d
    have e := (h3 v v1).2.1
    rw [e]
    refine ⟨h2, ?_, ?_⟩
    · dsimp only
      have : (0 : Int) ≤ v d * t := by rw [← Int.natCast_mul]; omega
      omega
    · dsimp only
      have : ((v d : Nat) : Int) * t ≤ t := by
        rcases (by omega : v d = 0 ∨ v d = 1) with e | e <;> rw [e] <;> omega
      omega

theorem far_apart {h sc sb m : Nat} {a b x y : Int} (ha : -(h : Int) ≤ a ∧ a ≤ h) (hb : -(h : Int) ≤ b ∧ b ≤ h) (hm : (2 * h + 1) * sc ≤ m)
    (hs : sb = sc ∨ sb = 2 * sc) (hd : sb ∣ m) (h0 : 0 < sc) (hx : x ≤ a * sc ∧ a * sc + sc ≤ x + sb) (hy : y ≤ b * sc ∧ b * sc + sc ≤ y + sb) :
    x - y < m := by
  have h1 : a * sc ≤ (h : Int) * sc := Int.mul_le_mul_of_nonneg_right ha.2 (by omega)
  have h2 : -((h : Int) * sc) ≤ b * sc := by rw [← Int.neg_mul]; exact Int.mul_le_mul_of_nonneg_right hb.1 (by omega)
  have e : (2 * h + 1) * sc = 2 * (h * sc) + sc := by rw [Nat.add_mul, Nat.one_mul, Nat.mul_assoc]
  rw [e] at hm
  have e' : ((h * sc : Nat) : Int) = (h : Int) * sc := Int.natCast_mul h sc
  rw [← e'] at h1 h2
  rcases hs with hs | hs
  · omega
  · obtain ⟨k, hk⟩ := hd
    have : h + 1 ≤ k := by
      apply Classical.byContradiction
      intro hlt
      have : sb * k ≤ sb * h := Nat.mul_le_mul_left _ (by omega)
      have e2 : sb * h = 2 * (h * sc) := by rw [hs, Nat.mul_assoc, Nat.mul_comm sc]
      omega
    have h3 : sb * (h + 1) ≤ sb * k := Nat.mul_le_mul_left _ this
    have e2 : sb * (h + 1) = 2 * (h * sc) + 2 * sc := by rw [hs, Nat.mul_add, Nat.mul_assoc, Nat.mul_comm sc]; omega
    omega

theorem near_apart {h sc sb m : Nat} {a b x y : Int} (ha : -(h : Int) ≤ a ∧ a ≤ h) (hb : -(h : Int) ≤ b ∧ b ≤ h) (hm : (2 * h + 1) * sc ≤ m)
    (hs : sc = 2 * sb) (h0 : 0 < sc) (hx : a * sc ≤ x ∧ x ≤ a * sc + sb) (hy : b * sc ≤ y ∧ y ≤ b * sc + sb) : x - y < m := by
  have h1 : a * sc ≤ (h : Int) * sc := Int.mul_le_mul_of_nonneg_right ha.2 (by omega)
  have h2 : -((h : Int) * sc) ≤ b * sc := by rw [← Int.neg_mul]; exact Int.mul_le_mul_of_nonneg_right hb.1 (by omega)
  have e : (2 * h + 1) * sc = 2 * (h * sc) + sc := by rw [Nat.add_mul, Nat.one_mul, Nat.mul_assoc]
  rw [e] at hm
  have e' : ((h * sc : Nat) : Int) = (h : Int) * sc := Int.natCast_mul h sc
  rw [← e'] at h1 h2
  omega

theorem eq_of_near {m : Nat} {x y : Int} (hd : (m : Int) ∣ x - y) (h1 : x - y < m) (h2 : y - x < m) : x = y := by
  obtain ⟨k, hk⟩ := hd
  have : k = 0 := by
    apply Classical.byContradiction
    intro hk0
    rcases (by omega : 1 ≤ k ∨ k ≤ -1) with h | h
    · have := Int.mul_le_mul_of_nonneg_left h (show (0 : Int) ≤ m by omega)
      omega
    · have := Int.mul_le_mul_of_nonneg_left h (show (0 : Int) ≤ m by omega)
      omega
  subst this
  omega

/-- C130: if a periodic grid is not shorter than the neighborhood of a cell then every neighbor of the cell is at one offset from the cell, and the
cell is not its own neighbor. -/
theorem C130_once (hw : g.WF) (hn : 0 < n) (h : Reachable g dflt maxTag s) {i : Fin n} {c : Nat} {l : List (Nat × V3 Int)}
    (hl : getNeighborsOf g (s i) c id = some l) (hlong : ∀ d, g.periodic d = true → 2 * max g.hood 1 + 1 ≤ g.len d * 2 ^ g.lvl c) :
    (∀ b z z', (b, z) ∈ l → (b, z') ∈ l → z = z') ∧ ∀ z, (c, z) ∉ l := by
  obtain ⟨w, hi⟩ := h.inv hw hn
  have hex : exist w c = true := by
    unfold getNeighborsOf at hl
    rw [hi.sys.owner] at hl
    cases hx : exist w c with
    | true => rfl
    | false => rw [hx] at hl; cases hl
  have hH : ∃ H, hoodFor g (s i) id = some H := by
    unfold getNeighborsOf at hl
    rw [hi.sys.owner, if_pos hex] at hl
    cases hx : hoodFor g (s i) id with
    | some H => exact ⟨H, rfl⟩
    | none => rw [hx] at hl; cases hl
  obtain ⟨H, hH⟩ := hH
  have hsub := hoodFor_sub hi hH
  have hbal := (balanced_iff hw hi.sys.tiled).1 hi.sys.balanced
  obtain ⟨f, f1, f2, f3, f4⟩ := C15_neighbors_of hw hi.sys.tiled hbal hex hsub
  have e : l = H.flatMap f := by
    unfold getNeighborsOf at hl
    rw [hi.sys.owner, if_pos hex, hH] at hl
    simp only [f1] at hl
    exact (Option.some.inj hl).symm
  subst e
  have hv := hi.sys.tiled.valid c hex
  have hs0 : 0 < g.side c := Nat.pow_pos (by omega)
  have hlen : ∀ d, g.periodic d = true → (2 * max g.hood 1 + 1) * g.side c ≤ g.n d := by
    intro d hd
    rw [n_eq (lvl_le hv) d, side]
    exact Nat.mul_le_mul_right _ (hlong d hd)
  have hsize : ∀ b z, (b, z) ∈ H.flatMap f → g.Valid b ∧ g.side b ≤ 2 * g.side c := by
    intro b z hb
    obtain ⟨k1, o, ho, hm⟩ := (f4 b).1 ⟨z, hb⟩
    refine ⟨hi.sys.tiled.valid b k1, ?_⟩
    have := (hbal c b hex k1 o (hsub o ho) hm).1
    rw [side, side, Nat.mul_comm, ← Nat.pow_succ]
    exact Nat.pow_le_pow_right (by omega) (by omega)
  have hsame : ∀ b, g.side c ≤ g.side b → g.side b ≤ 2 * g.side c → g.side b = g.side c ∨ g.side b = 2 * g.side c := by
    intro b h1 h2
    have := side_dvd_of_le h1
    obtain ⟨k, hk⟩ := Int.natCast_dvd_natCast.1 this
    rw [hk] at h1 h2 ⊢
    rcases (by
      have : k ≤ 2 := Nat.le_of_mul_le_mul_left (by rw [Nat.mul_comm (g.side c) 2]; exact h2) hs0
      have : k ≠ 0 := by rintro rfl; omega
      omega : k = 1 ∨ k = 2) with rfl | rfl <;> omega
  have honce : ∀ b z z', (b, z) ∈ H.flatMap f → (b, z') ∈ H.flatMap f → z = z' := by
    intro b z z' h1 h2
    funext d
    have k1 := f3 b z h1 d
    have k2 := f3 b z' h2 d
    dsimp only at k1 k2
    cases hp : g.periodic d with
    | false =>
      have := k1.2 hp
      have := k2.2 hp
      omega
    | true =>
      obtain ⟨hvb, hsb⟩ := hsize b z h1
      have hdv : g.side b ∣ g.n d := Int.natCast_dvd_natCast.1 (side_dvd_n hvb d)
      have hdiv : (g.n d : Int) ∣ z d - z' d := by
        have := Int.dvd_sub k1.1 k2.1
        have e : (g.idx c d : Int) + z d - g.idx b d - (g.idx c d + z' d - g.idx b d) = z d - z' d := by omega
        rwa [e] at this
      obtain ⟨o, ho, m1⟩ := List.mem_flatMap.1 h1
      obtain ⟨o', ho', m2⟩ := List.mem_flatMap.1 h2
      have a1 := hoodOf_abs (hsub o ho) d
      have a2 := hoodOf_abs (hsub o' ho') d
      rcases item_range (f2 o ho) m1 d with ⟨r1, r2⟩ | ⟨r1, r2⟩ <;> rcases item_range (f2 o' ho') m2 d with ⟨q1, q2⟩ | ⟨q1, q2⟩
      · exact eq_of_near hdiv (far_apart a1 a2 (hlen d hp) (hsame b r1 hsb) hdv hs0 r2 q2)
          (far_apart a2 a1 (hlen d hp) (hsame b r1 hsb) hdv hs0 q2 r2)
      · omega
      · omega
      · exact eq_of_near hdiv (near_apart a1 a2 (hlen d hp) r1 hs0 r2 q2) (near_apart a2 a1 (hlen d hp) r1 hs0 q2 r2)
  refine ⟨honce, fun z hz => ?_⟩
  obtain ⟨o, ho, m1⟩ := List.mem_flatMap.1 hz
  obtain ⟨d, hd⟩ := hoodOf_ne (hsub o ho)
  have k1 := f3 c z hz d
  dsimp only at k1
  have hr : z d = o d * g.side c := by
    rcases item_range (f2 o ho) m1 d with ⟨_, r2⟩ | ⟨r1, _⟩ <;> omega
  have hz0 : z d = 0 := by
    cases hp : g.periodic d with
    | false =>
      have := k1.2 hp
      omega
    | true =>
      have a1 := hoodOf_abs (hsub o ho) d
      have hdiv : (g.n d : Int) ∣ z d - 0 := by
        have e : (g.idx c d : Int) + z d - g.idx c d = z d - 0 := by omega
        rw [← e]
        exact k1.1
      have a2 : -((max g.hood 1 : Nat) : Int) ≤ 0 ∧ (0 : Int) ≤ (max g.hood 1 : Nat) := by omega
      have hdv : g.side c ∣ g.n d := Int.natCast_dvd_natCast.1 (side_dvd_n hv d)
      have q0 : (0 : Int) ≤ 0 * g.side c ∧ 0 * (g.side c : Int) + g.side c ≤ 0 + g.side c := by omega
      have r0 : z d ≤ o d * g.side c ∧ o d * g.side c + g.side c ≤ z d + g.side c := by omega
      exact eq_of_near hdiv (far_apart a1 a2 (hlen d hp) (.inl rfl) hdv hs0 r0 q0) (far_apart a2 a1 (hlen d hp) (.inl rfl) hdv hs0 q0 r0)
  rw [hr] at hz0
  rcases Int.mul_eq_zero.1 hz0 with h0 | h0
  · exact hd h0
  · omega

/-- C130: loops over neighbors of a cell in iterators then have every neighbor once, and not the cell itself. -/
theorem C130_iterator (hw : g.WF) (hn : 0 < n) (h : Reachable g dflt maxTag s) (i : Fin n) (hid : (hoodFor g (s i) id).isSome = true) :
    ∃ k, updatePointers g i (s i) id = .ok k ∧ ∀ x ∈ range k.cells k.all,
      (∀ d, g.periodic d = true → 2 * max g.hood 1 + 1 ≤ g.len d * 2 ^ g.lvl x.id) →
      ((range k.nbrs x.of).map (·.1)).Nodup ∧ x.id ∉ (range k.nbrs x.of).map (·.1) := by
  obtain ⟨k, k1, -, -, -, -, -, k2⟩ := C38_ranges (id := id) hw h i hid
  refine ⟨k, k1, fun x hx hlong => ?_⟩
  obtain ⟨⟨h1, h2⟩, -, -⟩ := (k2 x hx).1
  constructor
  · refine List.pairwise_map.2 (h1.imp_of_mem fun {a b} ha hb hab e => hab ?_)
    obtain ⟨l, l1, l2⟩ := (h2 a).1 ha
    obtain ⟨l', l1', l2'⟩ := (h2 b).1 hb
    rw [l1] at l1'
    cases l1'
    have := (C130_once hw hn h l1 hlong).1 a.1 a.2 b.2 l2 (by rw [e]; exact l2')
    exact Prod.ext e this
  · intro hm
    obtain ⟨a, a1, a2⟩ := List.mem_map.1 hm
    obtain ⟨l, l1, l2⟩ := (h2 a).1 a1
    exact (C130_once hw hn h l1 hlong).2 a.2 (by rw [← a2]; exact l2)

/-! ## Demo -/

def Out.okAnd {α : Type} (f : α → Bool) : Out α → Bool
  | .ok a => f a
  | _ => false

theorem Out.okAnd_ok {α : Type} {f : α → Bool} {o : Out α} (h : Out.okAnd f o = true) : ∃ a, o = .ok a ∧ f a = true := by
  cases o with
  | ok a => exact ⟨a, rfl, h⟩
  | throws => cases h
  | hangs => cases h
  | undef => cases h

/-- Two cells in a row, periodic. -/
def twoG : Cfg := { len := v3 2 1 1, maxLvl := 0, periodic := v3 true false false, hood := 1 }

theorem two_wf : twoG.WF := by unfold Cfg.WF; rw [forall_fin3]; decide

/-- Three cells in a row, periodic. -/
def threeG : Cfg := { len := v3 3 1 1, maxLvl := 0, periodic := v3 true false false, hood := 1 }

theorem three_wf : threeG.WF := by unfold Cfg.WF; rw [forall_fin3]; decide

/-- C130: the length of the grid matters: with one cell less the same neighbor is at two offsets. -/
theorem C130_short_false : ∃ (s : Sys 2 Nat Nat) (l : List (Nat × V3 Int)), Reachable twoG 0 2 s ∧ getNeighborsOf twoG (s 0) 1 defaultId = some l ∧
    (2, v3 1 0 0) ∈ l ∧ (2, v3 (-1) 0 0) ∈ l := by
  obtain ⟨s, h1, hx, -⟩ := createGrid_spec (n := 2) (W := Nat) (maxTag := 2) two_wf (by decide) (0 : Nat)
    (fitsTags_mono (by decide) (fitsTags_last (createLevel0_tiled two_wf (by decide)).valid))
  have htot : twoG.total = 2 := by decide
  rw [htot] at hx
  have hl : Out.okAnd (fun l => l == [(2, v3 (-1) 0 0), (2, v3 1 0 0)]) (findNeighborsOf twoG (exist (createLevel0 2 2).2) 1 (hoodOf twoG)) = true := by
    decide +kernel
  obtain ⟨l, l1, l2⟩ := Out.okAnd_ok hl
  have l2 := eq_of_beq l2
  subst l2
  refine ⟨s, [(2, v3 (-1) 0 0), (2, v3 1 0 0)], .init h1, ?_, by simp, by simp⟩
  unfold getNeighborsOf
  rw [hx.owner, if_pos (by decide), show hoodFor twoG (s 0) defaultId = some (hoodOf twoG) from if_pos rfl]
  simp only [l1]

/-- A cell that has neighbors on both sides, one of them across the boundary of the grid and both on other processes. -/
example : ∃ (s : Sys 3 Nat Nat) (l : List (Nat × V3 Int)), Reachable threeG 0 3 s ∧ getNeighborsOf threeG (s 0) 1 defaultId = some l ∧
    (∀ d, threeG.periodic d = true → 2 * max threeG.hood 1 + 1 ≤ threeG.len d * 2 ^ threeG.lvl 1) ∧ l = [(3, v3 (-1) 0 0), (2, v3 1 0 0)] := by
  obtain ⟨s, h1, hx, -⟩ := createGrid_spec (n := 3) (W := Nat) (maxTag := 3) three_wf (by decide) (0 : Nat)
    (fitsTags_mono (by decide) (fitsTags_last (createLevel0_tiled three_wf (by decide)).valid))
  have htot : threeG.total = 3 := by decide
  rw [htot] at hx
  have hl : Out.okAnd (fun l => l == [(3, v3 (-1) 0 0), (2, v3 1 0 0)]) (findNeighborsOf threeG (exist (createLevel0 3 3).2) 1 (hoodOf threeG)) = true := by
    decide +kernel
  obtain ⟨l, l1, l2⟩ := Out.okAnd_ok hl
  have l2 := eq_of_beq l2
  subst l2
  refine ⟨s, _, .init h1, ?_, ?_, rfl⟩
  · unfold getNeighborsOf
    rw [hx.owner, if_pos (by decide), show hoodFor threeG (s 0) defaultId = some (hoodOf threeG) from if_pos rfl]
    simp only [l1]
  · rw [forall_fin3]
    decide

end Dccrg
