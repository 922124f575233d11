import Verif.Props.NbrCount
/-!
# C133: how many neighbors cells have when all cells have the same size
-/
namespace Dccrg
open Cfg
variable {n : Nat} {D W : Type} {g : Cfg} {w : Owner n} {s : Sys n D W} {dflt : D} {maxTag : Nat} {id : Int} {H : List (V3 Int)} {L : Nat}

/-! ## Specification -/

/-- All cells have refinement level `L`. -/
def AllAt (g : Cfg) (s : Sys n D W) (L : Nat) : Prop := ∀ i c, (s i).owner c ≠ none → g.lvl c = L

/-- There are cells of the size of cell `c` at offset `o`. -/
def InsideBy (g : Cfg) (c : Nat) (o : V3 Int) : Prop :=
  ∀ d, g.periodic d = true ∨ (0 ≤ (g.idx c d : Int) + o d * g.side c ∧ (g.idx c d : Int) + o d * g.side c < g.n d)

instance (g : Cfg) (c : Nat) (o : V3 Int) : Decidable (InsideBy g c o) := inferInstanceAs (Decidable (∀ _, _))

/-! ## Proofs -/

theorem AllAt.all (hi : Inv g w s) (h : AllAt g s L) (i : Fin n) {c : Nat} (hc : exist w c = true) : g.lvl c = L := by
  obtain ⟨j, hj⟩ := exist_iff.1 hc
  exact h i c (by rw [hi.sys.owner, hj]; simp)

theorem same_side {a b : Nat} (h : g.lvl a = g.lvl b) : g.side a = g.side b := by
  unfold side; rw [h]

theorem same_item (hw : g.WF) {E : Nat → Bool} (ht : ∀ b, E b = true → g.Valid b ∧ g.lvl b = L) {c : Nat} (hc : g.lvl c = L) {o : V3 Int}
    {l : List (Nat × V3 Int)} (h : IsItem g E c o l) :
    l.map (·.2) = (if InsideBy g c o then [fun d => o d * g.side c] else []) ∧
      ∀ a ∈ l, ∀ d, (g.idx a.1 d : Int) = (g.idx c d + a.2 d) % (g.n d : Int) := by
  have hin : g.InCover (corner g c o) ↔ InsideBy g c o := Iff.rfl
  have hs0 : 0 < g.side c := Nat.pow_pos (by omega)
  cases h with
  | outside h => rw [if_neg (fun x => h (hin.2 x))]; exact ⟨rfl, fun a ha => by cases ha⟩
  | @covers b off h1 h2 h3 h4 h5 =>
    have hside : g.side b = g.side c := same_side (by rw [(ht b h2).2, hc])
    have e : off = fun d => o d * g.side c := by
      funext d
      rcases item_range (IsItem.covers h1 h2 h3 h4 h5) (List.mem_singleton.2 rfl) d with ⟨-, r⟩ | ⟨r, -⟩
      · rw [hside] at r; omega
      · rw [hside] at r; omega
    rw [if_pos (hin.1 h1)]
    refine ⟨by rw [List.map_singleton, e], fun a ha d => ?_⟩
    rw [List.mem_singleton] at ha
    subst ha
    obtain ⟨⟨q, hq⟩, -⟩ := h4 d
    have hlt := idx_inGrid hw (ht b h2).1 d
    dsimp only at hq ⊢
    have : (g.idx c d : Int) + off d = g.idx b d + g.n d * q := by omega
    rw [this, Int.add_mul_emod_self_left, Int.emod_eq_of_lt (by omega) (by omega)]
  | @eight kk t h1 h2 h3 =>
    obtain ⟨a1, a2, -⟩ := h3 (v3 0 0 0) (by decide)
    rw [same_side (show g.lvl (kk (v3 0 0 0)) = g.lvl c by rw [(ht _ a1).2, hc])] at a2
    omega

theorem map_flatMap_filter_map {α β γ : Type} (f : α → List β) (p : β → γ) (q : α → γ) (P : α → Prop) [DecidablePred P] (L : List α)
    (h : ∀ o ∈ L, (f o).map p = if P o then [q o] else []) : (L.flatMap f).map p = (L.filter fun o => decide (P o)).map q := by
  induction L with
  | nil => rfl
  | cons o L ih =>
    rw [List.flatMap_cons, List.map_append, h o (List.mem_cons_self ..), ih fun a ha => h a (List.mem_cons_of_mem _ ha), List.filter_cons]
    by_cases hp : P o
    · rw [if_pos hp, if_pos (decide_eq_true hp)]; rfl
    · rw [if_neg hp, if_neg (by simp [hp])]; rfl

/-- C133: if all cells have the same size then the list of neighbors of a cell has one cell for every offset in the neighborhood that is inside of the
grid, in the same order, and it is the cell at that offset. -/
theorem C133_same_of (hw : g.WF) (h : Reachable g dflt maxTag s) (h0 : AllAt g s L) {i : Fin n} (hH : hoodFor g (s i) id = some H) {c : Nat}
    (hc : (s i).owner c ≠ none) : ∃ l, getNeighborsOf g (s i) c id = some l ∧
      l.map (·.2) = (H.filter fun o => decide (InsideBy g c o)).map (fun (o : V3 Int) (d : Fin 3) => o d * (g.side c : Int)) ∧
      ∀ a ∈ l, ∀ d, (g.idx a.1 d : Int) = (g.idx c d + a.2 d) % (g.n d : Int) := by
  obtain ⟨w, hi⟩ := h.inv hw (by have := i.2; omega)
  have hcL := h0 i c hc
  have h0 := fun c hc => h0.all hi i (c := c) hc
  rw [hi.sys.owner] at hc
  have hex : exist w c = true := by
    obtain ⟨j, hj⟩ := Option.ne_none_iff_exists'.1 hc
    exact exist_of hj
  obtain ⟨f, f1, f2, -⟩ := hi.neighborsOf hw hH hex
  have hit := fun o ho => same_item hw (fun b hb => ⟨hi.sys.tiled.valid b hb, h0 b hb⟩) hcL (f2 o ho)
  refine ⟨_, f1, map_flatMap_filter_map f _ _ _ H fun o ho => (hit o ho).1, fun a ha => ?_⟩
  obtain ⟨o, ho, ha⟩ := List.mem_flatMap.1 ha
  exact (hit o ho).2 a ha

theorem same_meets (hw : g.WF) (hp : ∀ d, g.periodic d = true) {b c : Nat} (hb : g.Valid b) (hc : g.Valid c) (hl : g.lvl b = g.lvl c) {o : V3 Int} :
    Meets g b o c ↔ ∀ d, (g.n d : Int) ∣ (g.idx b d + o d * g.side c) - g.idx c d := by
  have hside : g.side b = g.side c := same_side hl
  have hs0 : 0 < g.side c := Nat.pow_pos (by omega)
  constructor
  · rintro ⟨q, q1, -, q3⟩ d
    have a1 := q1 d
    have a2 := q3 d
    dsimp only at a1
    rw [hside] at a1
    have a3 := wrap_cast hw q d
    have a4 := Int.mul_ediv_add_emod (q d) (g.n d)
    have d1 : (g.side c : Int) ∣ g.idx b d := by rw [← hside]; exact Int.natCast_dvd_natCast.2 (side_dvd_idx hw hb d)
    have d2 : (g.side c : Int) ∣ g.idx c d := Int.natCast_dvd_natCast.2 (side_dvd_idx hw hc d)
    have d3 : (g.side c : Int) ∣ (g.n d : Int) * (q d / (g.n d : Int)) :=
      Int.dvd_trans (Int.natCast_dvd_natCast.2 (by rw [n_eq (lvl_le hc) d]; exact Nat.dvd_mul_left ..)) (Int.dvd_mul_right ..)
    have := eq_of_near (m := g.side c) (x := g.idx b d + o d * g.side c) (y := (g.n d : Int) * (q d / (g.n d : Int)) + g.idx c d)
      (Int.dvd_sub (Int.dvd_add d1 (Int.dvd_mul_left ..)) (Int.dvd_add d3 d2)) (by omega) (by omega)
    rw [this, Int.add_sub_cancel]
    exact Int.dvd_mul_right ..
  · intro hd
    refine ⟨fun d => g.idx b d + o d * g.side c, fun d => ?_, fun d => Or.inl (hp d), ?_⟩
    · dsimp only; rw [hside]; omega
    · rw [wrap_eq hw (idx_inGrid hw hc) fun d => hd d]
      intro d; omega

theorem same_eq {a b : Nat} (ha : g.Valid a) (hb : g.Valid b) (hl : g.lvl a = g.lvl b) (h : ∀ d, g.idx a d = g.idx b d) : a = b := by
  have e2 : g.idx a = g.idx b := funext h
  rw [← cellAt_idx ha, ← cellAt_idx hb, hl, e2]

/-- C133: a cell is also neighbor of as many cells as there are offsets, if the grid is not shorter than the neighborhood. -/
theorem C133_same_to (hw : g.WF) (hp : ∀ d, g.periodic d = true) (h : Reachable g dflt maxTag s) (h0 : AllAt g s L)
    (hlong : ∀ d, 2 * max g.hood 1 + 1 ≤ g.len d * 2 ^ L) {i : Fin n} (hH : hoodFor g (s i) id = some H) (hd : H.Nodup) {c : Nat}
    (hc : (s i).owner c ≠ none) : ∃ r, getNeighborsTo g (s i) c id = some r ∧ (r.map (·.1)).Nodup ∧ r.length = H.length := by
  obtain ⟨w, hi⟩ := h.inv hw (by have := i.2; omega)
  have hcL := h0 i c hc
  have h0 := fun c hc => h0.all hi i (c := c) hc
  rw [hi.sys.owner] at hc
  have hex : exist w c = true := by
    obtain ⟨j, hj⟩ := Option.ne_none_iff_exists'.1 hc
    exact exist_of hj
  have hv := hi.sys.tiled.valid
  have hs0 : 0 < g.side c := Nat.pow_pos (by omega)
  have hsub := hoodFor_sub hi hH
  have hdn : ∀ d, g.side c ∣ g.n d := fun d => by rw [n_eq (lvl_le (hv c hex)) d]; exact Nat.dvd_mul_left ..
  have hlen : ∀ d, (2 * max g.hood 1 + 1) * g.side c ≤ g.n d := fun d => by
    rw [n_eq (lvl_le (hv c hex)) d, hcL, side, hcL]
    exact Nat.mul_le_mul_right _ (hlong d)
  obtain ⟨r, r1, r2, r3⟩ := hi.neighborsTo hw hH hex
  have hmeets : ∀ b o, exist w b = true → (Meets g b o c ↔ ∀ d, (g.n d : Int) ∣ (g.idx b d + o d * g.side c) - g.idx c d) := fun b o hb =>
    same_meets hw hp (hv b hb) (hv c hex) (by rw [h0 b hb, hcL])
  have hcell : ∀ o : V3 Int, ∃ b, exist w b = true ∧ Meets g b o c := fun o => by
    obtain ⟨b, b1, b2⟩ := hi.sys.tiled.cover _ (wrap_inGrid hw fun d => g.idx c d - o d * g.side c)
    refine ⟨b, b1, (hmeets b o b1).2 fun d => ?_⟩
    have hside : g.side b = g.side c := same_side (by rw [h0 b b1, hcL])
    have a2 := b2 d
    rw [hside] at a2
    have a3 := wrap_cast hw (fun d => (g.idx c d : Int) - o d * g.side c) d
    have d0 : (g.side c : Int) ∣ (g.n d : Int) := Int.natCast_dvd_natCast.2 (hdn d)
    have d1 : (g.side c : Int) ∣ g.idx b d := by rw [← hside]; exact Int.natCast_dvd_natCast.2 (side_dvd_idx hw (hv b b1) d)
    have d2 : (g.side c : Int) ∣ g.idx c d := Int.natCast_dvd_natCast.2 (side_dvd_idx hw (hv c hex) d)
    have d3 : (g.side c : Int) ∣ (g.idx c d - o d * g.side c) % (g.n d : Int) := by
      have := Int.mul_ediv_add_emod ((g.idx c d : Int) - o d * g.side c) (g.n d)
      have e : ((g.idx c d : Int) - o d * g.side c) % (g.n d : Int) =
        (g.idx c d - o d * g.side c) - (g.n d : Int) * ((g.idx c d - o d * g.side c) / (g.n d : Int)) := by omega
      rw [e]
      exact Int.dvd_sub (Int.dvd_sub d2 (Int.dvd_mul_left ..)) (Int.dvd_trans d0 (Int.dvd_mul_right ..))
    have e : (g.idx b d : Int) = (g.idx c d - o d * g.side c) % (g.n d : Int) :=
      eq_of_near (m := g.side c) (Int.dvd_sub d1 d3) (by omega) (by omega)
    have : (g.idx b d : Int) + o d * g.side c - g.idx c d = -((g.idx c d - o d * g.side c) - (g.idx c d - o d * g.side c) % (g.n d : Int)) := by omega
    rw [this]
    exact Int.dvd_neg.2 Int.dvd_self_sub_emod
  obtain ⟨F, hf⟩ : ∃ F : V3 Int → Nat, ∀ o, exist w (F o) = true ∧ Meets g (F o) o c :=
    ⟨fun o => Classical.choose (hcell o), fun o => Classical.choose_spec (hcell o)⟩
  have hperm : r.Perm (H.map F) := by
    refine (List.perm_ext_iff_of_nodup r2 ?_).2 fun b => ?_
    · rw [List.Nodup, List.pairwise_map]
      refine List.Pairwise.imp_of_mem (fun {a b} ha hb hne e => hne ?_) hd
      funext d
      have m1 := (hmeets _ _ (hf a).1).1 (hf a).2 d
      have m2 := (hmeets _ _ (hf b).1).1 (hf b).2 d
      rw [e] at m1
      have a1 := hoodOf_abs (hsub a ha) d
      have b1 := hoodOf_abs (hsub b hb) d
      have := Int.dvd_sub m1 m2
      have e1 : a d * (g.side c : Int) = b d * (g.side c : Int) := by
        refine eq_of_near (m := g.n d) ?_ (far_apart a1 b1 (hlen d) (Or.inl rfl) (hdn d) hs0 (by omega) (by omega))
          (far_apart b1 a1 (hlen d) (Or.inl rfl) (hdn d) hs0 (by omega) (by omega))
        have e : a d * (g.side c : Int) - b d * (g.side c : Int) =
          (g.idx (F b) d + a d * g.side c - g.idx c d) - (g.idx (F b) d + b d * g.side c - g.idx c d) := by omega
        rw [e]; exact this
      exact Int.eq_of_mul_eq_mul_right (by omega) e1
    · rw [r3, List.mem_map]
      constructor
      · rintro ⟨b1, o, ho, b2⟩
        refine ⟨o, ho, same_eq (hv _ (hf o).1) (hv _ b1) (by rw [h0 _ (hf o).1, h0 _ b1]) fun d => ?_⟩
        have m1 := (hmeets _ _ (hf o).1).1 (hf o).2 d
        have m2 := (hmeets _ _ b1).1 b2 d
        have l1 := idx_inGrid hw (hv _ (hf o).1) d
        have l2 := idx_inGrid hw (hv _ b1) d
        have := Int.dvd_sub m1 m2
        have := eq_of_near (x := g.idx (F o) d) (y := g.idx b d) (m := g.n d) (by
          have e : (g.idx (F o) d : Int) - g.idx b d =
            (g.idx (F o) d + o d * g.side c - g.idx c d) - (g.idx b d + o d * g.side c - g.idx c d) := by omega
          rw [e]; exact this) (by omega) (by omega)
        omega
      · rintro ⟨o, ho, rfl⟩
        exact ⟨(hf o).1, o, ho, (hf o).2⟩
  refine ⟨_, r1, ?_, ?_⟩
  · rw [List.map_map]
    have : ((fun x : Nat × V3 Int => x.1) ∘ fun b : Nat => (b, fun _ => (0 : Int))) = fun b => b := rfl
    rw [this, List.map_id']
    exact r2
  · rw [List.length_map, hperm.length_eq, List.length_map]

/-- C133: the same for every cell in the list that iterators use. -/
theorem C133_same_iterator (hw : g.WF) (hp : ∀ d, g.periodic d = true) (hlong : ∀ d, 2 * max g.hood 1 + 1 ≤ g.len d * 2 ^ L)
    (h : Reachable g dflt maxTag s) (h0 : AllAt g s L) {i : Fin n} (hH : hoodFor g (s i) id = some H) (hd : H.Nodup) :
    ∃ k, updatePointers g i (s i) id = .ok k ∧ ∀ c ∈ range k.cells k.all,
      (range k.nbrs c.of).length = H.length ∧ (range k.nbrs c.to).length = H.length := by
  have hn : 0 < n := by have := i.2; omega
  obtain ⟨k, k1, -, -, -, -, k3, k2⟩ := C38_ranges (id := id) hw h i (by rw [hH]; rfl)
  refine ⟨k, k1, fun c hc => ?_⟩
  obtain ⟨⟨o1, o2⟩, ⟨t1, t2⟩, -⟩ := (k2 c hc).1
  have hex : (s i).owner c.id ≠ none := by
    rcases (k3.2 c.id).1 (List.mem_map.2 ⟨c, hc, rfl⟩) with e | ⟨⟨q, e, -⟩, -⟩
    · rw [e]; simp
    · rw [e]; simp
  obtain ⟨l, l1, l2, -⟩ := C133_same_of hw h h0 hH hex
  rw [List.filter_eq_self.2 fun o _ => decide_eq_true (show InsideBy g c.id o from fun d => Or.inl (hp d))] at l2
  obtain ⟨once, -⟩ := C130_once hw hn h l1 fun d _ => by rw [h0 i c.id hex]; exact hlong d
  obtain ⟨r, r1, r2, r3⟩ := C133_same_to hw hp h h0 hlong hH hd hex
  have hl : l.Nodup := by
    have hs : (0 : Int) < g.side c.id := Int.natCast_pos.2 (Nat.pow_pos (by omega))
    have hd : (H.map fun (o : V3 Int) (d : Fin 3) => o d * (g.side c.id : Int)).Nodup := by
      rw [List.Nodup, List.pairwise_map]
      exact List.Pairwise.imp (fun hne e => hne (funext fun d => Int.eq_of_mul_eq_mul_right (by omega) (congrFun e d))) hd
    rw [← l2, List.Nodup, List.pairwise_map] at hd
    exact hd.imp fun hne e => hne (by rw [e])
  refine ⟨?_, ?_⟩
  · have e := congrArg List.length l2
    rw [List.length_map, List.length_map] at e
    rw [← e]
    refine List.Perm.length_eq ((List.perm_ext_iff_of_nodup o1 hl).2 fun a => ?_)
    rw [o2 a]
    constructor
    · rintro ⟨l', q1, q2⟩
      rw [l1] at q1
      cases q1
      exact q2
    · intro ha
      exact ⟨_, l1, ha⟩
  · rw [← r3, ← List.length_map (f := (·.1)) (as := range k.nbrs c.to), ← List.length_map (f := (·.1)) (as := r)]
    refine List.Perm.length_eq ((List.perm_ext_iff_of_nodup (nodup_fst t1 fun b z z' hz hz' => ?_) r2).2 fun b => ?_)
    · rcases ((t2 _).1 hz).2 with ⟨l', q1, q2⟩ | ⟨q1, q2⟩ <;> rcases ((t2 _).1 hz').2 with ⟨l'', p1, p2⟩ | ⟨p1, p2⟩
      · rw [l1] at q1 p1
        cases q1
        cases p1
        exact once b z z' q2 p2
      · exact absurd ⟨l', z, q1, q2⟩ p1
      · exact absurd ⟨l'', z', p1, p2⟩ q1
      · exact q2.trans p2.symm
    · rw [List.mem_map, List.mem_map]
      constructor
      · rintro ⟨a, ha, rfl⟩
        obtain ⟨⟨r', z, p1, p2⟩, -⟩ := (t2 a).1 ha
        rw [r1] at p1
        cases p1
        exact ⟨_, p2, rfl⟩
      · rintro ⟨a, ha, rfl⟩
        have hto : NbrTo g (s i) id c.id a.1 := ⟨r, a.2, r1, ha⟩
        by_cases hof : NbrOf g (s i) id c.id a.1
        · obtain ⟨l', z, p1, p2⟩ := hof
          exact ⟨(a.1, z), (t2 _).2 ⟨hto, Or.inl ⟨l', p1, p2⟩⟩, rfl⟩
        · exact ⟨(a.1, fun _ => 0), (t2 _).2 ⟨hto, Or.inr ⟨hof, rfl⟩⟩, rfl⟩

/-! ## Witness -/

/-- A grid that can be refined, with cells of two indices. -/
def sameG : Cfg := { len := v3 3 4 3, maxLvl := 1, periodic := v3 true true true, hood := 1 }

theorem sameG_wf : sameG.WF := by unfold Cfg.WF; rw [forall_fin3]; decide

/-- Hypotheses of `C133_same_of` and `C133_same_to` are met, and cells have 26 neighbors. -/
example : ∃ s : Sys 2 Nat Nat, Reachable sameG 0 324 s ∧ AllAt sameG s 0 ∧ 0 < sameG.maxLvl ∧ (∀ d, sameG.periodic d = true) ∧
    (∀ d, 2 * max sameG.hood 1 + 1 ≤ sameG.len d * 2 ^ 0) ∧ (s 0).owner 1 ≠ none ∧
    (∃ l, getNeighborsOf sameG (s 0) 1 defaultId = some l ∧ l.length = 26) ∧ ∃ r, getNeighborsTo sameG (s 0) 1 defaultId = some r ∧ r.length = 26 := by
  have hlast : sameG.last = 324 := by decide
  obtain ⟨s, h0, hx, -⟩ := createGrid_spec (n := 2) (W := Nat) (maxTag := 324) sameG_wf (by decide) (0 : Nat)
    (fitsTags_mono (by rw [hlast]; exact Nat.le_refl _) (fitsTags_last (createLevel0_tiled sameG_wf (by decide)).valid))
  have hr : Reachable sameG 0 324 s := .init h0
  have hp : ∀ d, sameG.periodic d = true := by rw [forall_fin3]; decide
  have hl : ∀ d, 2 * max sameG.hood 1 + 1 ≤ sameG.len d * 2 ^ 0 := by rw [forall_fin3]; decide
  have hc : (s 0).owner 1 ≠ none := by rw [hx.owner]; decide
  have ha : AllAt sameG s 0 := fun i c hc => by
    rw [hx.owner] at hc
    obtain ⟨j, hj⟩ := Option.ne_none_iff_exists'.1 hc
    have := (createLevel0_exist (by decide)).1 (exist_of hj)
    exact (lvl_level0 this.1 this.2).2
  have hlen : (hoodOf sameG).length = 26 := hoodOf_length sameG
  obtain ⟨l, l1, l2, -⟩ := C133_same_of (id := defaultId) (H := hoodOf sameG) sameG_wf hr ha (i := 0) (if_pos rfl) hc
  obtain ⟨r, r1, -, r2⟩ := C133_same_to (id := defaultId) (H := hoodOf sameG) sameG_wf hp hr ha hl (i := 0) (if_pos rfl) (hoodOf_nodup sameG) hc
  refine ⟨s, hr, ha, by decide, hp, hl, hc, ⟨l, l1, ?_⟩, r, r1, by rw [r2, hlen]⟩
  have e := congrArg List.length l2
  rw [List.length_map, List.length_map, List.filter_eq_self.2 fun o _ => decide_eq_true (show InsideBy sameG 1 o from fun d => Or.inl (hp d)), hlen] at e
  exact e

end Dccrg
