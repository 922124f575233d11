import Verif.Props.NbrOnce
/-!
# C133: how many neighbors cells have in grids that can't be refined
-/
namespace Dccrg
open Cfg
variable {n : Nat} {D W : Type} {g : Cfg} {w : Owner n} {s : Sys n D W} {dflt : D} {maxTag : Nat} {id : Int} {H : List (V3 Int)}

/-! ## Specification -/

/-- There is a cell at offset `o` from cell `c`. -/
def InsideAt (g : Cfg) (c : Nat) (o : V3 Int) : Prop :=
  ∀ d, g.periodic d = true ∨ (0 ≤ (g.idx c d : Int) + o d ∧ (g.idx c d : Int) + o d < g.len d)

instance (g : Cfg) (c : Nat) (o : V3 Int) : Decidable (InsideAt g c o) := inferInstanceAs (Decidable (∀ _, _))

/-! ## Proofs -/

theorem plain_side (h0 : g.maxLvl = 0) (c : Nat) : g.side c = 1 := by
  unfold side; rw [h0, Nat.zero_sub]

theorem plain_n (h0 : g.maxLvl = 0) (d : Fin 3) : g.n d = g.len d := by
  unfold Cfg.n; rw [h0, Nat.pow_zero, Nat.mul_one]

theorem plain_eq (h0 : g.maxLvl = 0) {a b : Nat} (ha : g.Valid a) (hb : g.Valid b) (h : ∀ d, g.idx a d = g.idx b d) : a = b := by
  have e1 : g.lvl a = g.lvl b := by have := lvl_le ha; have := lvl_le hb; omega
  have e2 : g.idx a = g.idx b := funext h
  rw [← cellAt_idx ha, ← cellAt_idx hb, e1, e2]

theorem plain_item (hw : g.WF) (h0 : g.maxLvl = 0) {E : Nat → Bool} (ht : ∀ b, E b = true → g.Valid b) {c : Nat} {o : V3 Int}
    {l : List (Nat × V3 Int)} (h : IsItem g E c o l) :
    l.map (·.2) = (if InsideAt g c o then [o] else []) ∧ ∀ a ∈ l, ∀ d, (g.idx a.1 d : Int) = (g.idx c d + a.2 d) % (g.len d : Int) := by
  have hcor : ∀ d, corner g c o d = g.idx c d + o d := fun d => by
    unfold corner; rw [plain_side h0]; omega
  have hin : g.InCover (corner g c o) ↔ InsideAt g c o := by
    unfold InCover InsideAt
    simp only [hcor, plain_n h0]
  have hoff : ∀ a ∈ l, a.2 = o := fun a ha => by
    funext d
    rcases item_range h (show (a.1, a.2) ∈ l from ha) d with ⟨-, r⟩ | ⟨r, -⟩
    · rw [plain_side h0, plain_side h0] at r; omega
    · rw [plain_side h0, plain_side h0] at r; omega
  cases h with
  | outside h => rw [if_neg (fun x => h (hin.2 x))]; exact ⟨rfl, fun a ha => by cases ha⟩
  | @covers b off h1 h2 h3 h4 h5 =>
    have e := hoff _ (List.mem_singleton.2 rfl)
    rw [if_pos (hin.1 h1)]
    refine ⟨by rw [List.map_singleton, e], fun a ha d => ?_⟩
    rw [List.mem_singleton] at ha
    subst ha
    obtain ⟨⟨q, hq⟩, -⟩ := h4 d
    have hlt := idx_inGrid hw (ht b h2) d
    rw [plain_n h0] at hq hlt
    dsimp only at hq ⊢
    have : (g.idx c d : Int) + off d = g.idx b d + g.len d * q := by omega
    rw [this, Int.add_mul_emod_self_left, Int.emod_eq_of_lt (by omega) (by omega)]
  | eight h1 h2 h3 => rw [plain_side h0] at h2; omega

theorem map_flatMap_filter {α β : Type} (f : α → List β) (p : β → α) (P : α → Prop) [DecidablePred P] (L : List α)
    (h : ∀ o ∈ L, (f o).map p = if P o then [o] else []) : (L.flatMap f).map p = L.filter fun o => decide (P o) := by
  induction L with
  | nil => rfl
  | cons o L ih =>
    rw [List.flatMap_cons, List.map_append, h o (List.mem_cons_self ..), ih fun a ha => h a (List.mem_cons_of_mem _ ha), List.filter_cons]
    by_cases hp : P o
    · rw [if_pos hp, if_pos (decide_eq_true hp)]; rfl
    · rw [if_neg hp, if_neg (by simp [hp])]; rfl

/-- C133: the list of neighbors of a cell has one cell for every offset in the neighborhood that is inside of the grid, in the same order, and it is the
cell at that offset. -/
theorem C133_of (hw : g.WF) (h0 : g.maxLvl = 0) (h : Reachable g dflt maxTag s) {i : Fin n} (hH : hoodFor g (s i) id = some H) {c : Nat}
    (hc : (s i).owner c ≠ none) : ∃ l, getNeighborsOf g (s i) c id = some l ∧ l.map (·.2) = H.filter (fun o => decide (InsideAt g c o)) ∧
      ∀ a ∈ l, ∀ d, (g.idx a.1 d : Int) = (g.idx c d + a.2 d) % (g.len d : Int) := by
  obtain ⟨w, hi⟩ := h.inv hw (by have := i.2; omega)
  rw [hi.sys.owner] at hc
  have hex : exist w c = true := by
    obtain ⟨j, hj⟩ := Option.ne_none_iff_exists'.1 hc
    exact exist_of hj
  obtain ⟨f, f1, f2, -⟩ := hi.neighborsOf hw hH hex
  have hit := fun o ho => plain_item hw h0 hi.sys.tiled.valid (f2 o ho)
  refine ⟨_, f1, map_flatMap_filter f _ _ H fun o ho => (hit o ho).1, fun a ha => ?_⟩
  obtain ⟨o, ho, ha⟩ := List.mem_flatMap.1 ha
  exact (hit o ho).2 a ha

/-- C133: without boundaries there are as many neighbors as offsets. -/
theorem C133_count (hw : g.WF) (h0 : g.maxLvl = 0) (hp : ∀ d, g.periodic d = true) (h : Reachable g dflt maxTag s) {i : Fin n}
    (hH : hoodFor g (s i) id = some H) {c : Nat} (hc : (s i).owner c ≠ none) :
    ∃ l, getNeighborsOf g (s i) c id = some l ∧ l.length = H.length := by
  obtain ⟨l, l1, l2, -⟩ := C133_of hw h0 h hH hc
  refine ⟨l, l1, ?_⟩
  rw [← List.length_map (f := (·.2)) (as := l), l2, List.filter_eq_self.2 fun o _ => decide_eq_true (show InsideAt g c o from fun d => Or.inl (hp d))]

theorem plain_meets (hw : g.WF) (h0 : g.maxLvl = 0) (hp : ∀ d, g.periodic d = true) {b c : Nat} (hc : g.Valid c) {o : V3 Int} :
    Meets g b o c ↔ ∀ d, (g.len d : Int) ∣ (g.idx b d + o d) - g.idx c d := by
  constructor
  · rintro ⟨q, q1, -, q3⟩ d
    have a1 := q1 d
    have a2 := q3 d
    rw [plain_side h0] at a2
    dsimp only at a1
    rw [plain_side h0] at a1
    have a3 := wrap_cast hw q d
    rw [plain_n h0] at a3
    have e : (g.idx b d : Int) + o d = q d := by omega
    have e' : (g.idx c d : Int) = q d % (g.len d : Int) := by omega
    rw [e, e']
    exact Int.dvd_self_sub_emod
  · intro hd
    refine ⟨fun d => g.idx b d + o d, fun d => ?_, fun d => Or.inl (hp d), ?_⟩
    · dsimp only; rw [plain_side h0]; omega
    · rw [wrap_eq hw (idx_inGrid hw hc) fun d => by rw [plain_n h0]; exact hd d]
      intro d; rw [plain_side h0]; omega

/-- C133: a cell is also neighbor of as many cells as there are offsets, if the grid is not shorter than the neighborhood. -/
theorem C133_to (hw : g.WF) (h0 : g.maxLvl = 0) (hp : ∀ d, g.periodic d = true) (hlong : ∀ d, 2 * max g.hood 1 + 1 ≤ g.len d)
    (h : Reachable g dflt maxTag s) {i : Fin n} (hH : hoodFor g (s i) id = some H) (hd : H.Nodup) {c : Nat} (hc : (s i).owner c ≠ none) :
    ∃ r, getNeighborsTo g (s i) c id = some r ∧ (r.map (·.1)).Nodup ∧ r.length = H.length := by
  obtain ⟨w, hi⟩ := h.inv hw (by have := i.2; omega)
  rw [hi.sys.owner] at hc
  have hex : exist w c = true := by
    obtain ⟨j, hj⟩ := Option.ne_none_iff_exists'.1 hc
    exact exist_of hj
  have hv := hi.sys.tiled.valid
  have hsub := hoodFor_sub hi hH
  obtain ⟨r, r1, r2, r3⟩ := hi.neighborsTo hw hH hex
  have hcell : ∀ o : V3 Int, ∃ b, exist w b = true ∧ Meets g b o c := fun o => by
    obtain ⟨b, b1, b2⟩ := hi.sys.tiled.cover _ (wrap_inGrid hw fun d => g.idx c d - o d)
    refine ⟨b, b1, (plain_meets hw h0 hp (hv c hex)).2 fun d => ?_⟩
    have a2 := b2 d
    rw [plain_side h0] at a2
    have a3 := wrap_cast hw (fun d => (g.idx c d : Int) - o d) d
    rw [plain_n h0] at a3
    have e : (g.idx b d : Int) = (g.idx c d - o d) % (g.len d : Int) := by omega
    have : (g.idx b d : Int) + o d - g.idx c d = -((g.idx c d - o d) - (g.idx c d - o d) % (g.len d : Int)) := by omega
    rw [this]
    exact Int.dvd_neg.2 Int.dvd_self_sub_emod
  obtain ⟨F, hf⟩ : ∃ F : V3 Int → Nat, ∀ o, exist w (F o) = true ∧ Meets g (F o) o c :=
    ⟨fun o => Classical.choose (hcell o), fun o => Classical.choose_spec (hcell o)⟩
  have hperm : r.Perm (H.map F) := by
    refine (List.perm_ext_iff_of_nodup r2 ?_).2 fun b => ?_
    · rw [List.Nodup, List.pairwise_map]
      refine List.Pairwise.imp_of_mem (fun {a b} ha hb hne e => hne ?_) hd
      funext d
      have m1 := (plain_meets hw h0 hp (hv c hex)).1 (hf a).2 d
      have m2 := (plain_meets hw h0 hp (hv c hex)).1 (hf b).2 d
      rw [e] at m1
      have a1 := hoodOf_abs (hsub a ha) d
      have b1 := hoodOf_abs (hsub b hb) d
      have l1 := hlong d
      have := Int.dvd_sub m1 m2
      refine eq_of_near (m := g.len d) ?_ (by omega) (by omega)
      have e : a d - b d = (g.idx (F b) d + a d - g.idx c d) - (g.idx (F b) d + b d - g.idx c d) := by omega
      rw [e]; exact this
    · rw [r3, List.mem_map]
      constructor
      · rintro ⟨b1, o, ho, b2⟩
        refine ⟨o, ho, plain_eq h0 (hv _ (hf o).1) (hv _ b1) fun d => ?_⟩
        have m1 := (plain_meets hw h0 hp (hv c hex)).1 (hf o).2 d
        have m2 := (plain_meets hw h0 hp (hv c hex)).1 b2 d
        have l1 := idx_inGrid hw (hv _ (hf o).1) d
        have l2 := idx_inGrid hw (hv _ b1) d
        rw [plain_n h0] at l1 l2
        have := Int.dvd_sub m1 m2
        have := eq_of_near (x := g.idx (F o) d) (y := g.idx b d) (m := g.len d) (by
          have e : (g.idx (F o) d : Int) - g.idx b d = (g.idx (F o) d + o d - g.idx c d) - (g.idx b d + o d - g.idx c d) := by omega
          rw [e]; exact this) (by omega) (by omega)
        omega
      · rintro ⟨o, ho, rfl⟩
        exact ⟨(hf o).1, o, ho, (hf o).2⟩
  refine ⟨_, r1, ?_, ?_⟩
  · rw [List.map_map]
    have : ((fun x : Nat × V3 Int => x.1) ∘ fun b : Nat => (b, fun _ => (0 : Int))) = fun b => b := rfl
    rw [this, List.map_id']
    exact r2
  · rw [List.length_map, hperm.length_eq, List.length_map]

theorem nodup_fst {l : List (Nat × V3 Int)} (hl : l.Nodup) (h : ∀ b z z', (b, z) ∈ l → (b, z') ∈ l → z = z') : (l.map (·.1)).Nodup := by
  rw [List.Nodup, List.pairwise_map]
  exact List.Pairwise.imp_of_mem (fun {a b} ha hb hne e => hne (Prod.ext e (h a.1 _ _ ha (by rw [e]; exact hb)))) hl

/-- C133, tests/user_neighborhood/neighbor_list_length.cpp: the number of neighbors_of and of neighbors_to of every cell in iterators is the number of
offsets in the neighborhood. -/
theorem C133_iterator (hw : g.WF) (h0 : g.maxLvl = 0) (hp : ∀ d, g.periodic d = true) (hlong : ∀ d, 2 * max g.hood 1 + 1 ≤ g.len d)
    (h : Reachable g dflt maxTag s) {i : Fin n} (hH : hoodFor g (s i) id = some H) (hd : H.Nodup) :
    ∃ k, updatePointers g i (s i) id = .ok k ∧ ∀ c ∈ range k.cells k.all,
      (range k.nbrs c.of).length = H.length ∧ (range k.nbrs c.to).length = H.length := by
  have hn : 0 < n := by have := i.2; omega
  obtain ⟨k, k1, -, -, -, -, k3, k2⟩ := C38_ranges (id := id) hw h i (by rw [hH]; rfl)
  refine ⟨k, k1, fun c hc => ?_⟩
  obtain ⟨⟨o1, o2⟩, ⟨t1, t2⟩, -⟩ := (k2 c hc).1
  have hex : (s i).owner c.id ≠ none := by
    rcases (k3.2 c.id).1 (List.mem_map.2 ⟨c, hc, rfl⟩) with e | ⟨⟨q, e, -⟩, -⟩
    · rw [e]; simp
    · rw [e]; simp
  obtain ⟨l, l1, l2, -⟩ := C133_of hw h0 h hH hex
  rw [List.filter_eq_self.2 fun o _ => decide_eq_true (show InsideAt g c.id o from fun d => Or.inl (hp d))] at l2
  obtain ⟨once, -⟩ := C130_once hw hn h l1 fun d _ => Nat.le_trans (hlong d) (Nat.le_mul_of_pos_right _ (Nat.pow_pos (by omega)))
  obtain ⟨r, r1, r2, r3⟩ := C133_to hw h0 hp hlong h hH hd hex
  have hl : l.Nodup := by
    rw [← l2, List.Nodup, List.pairwise_map] at hd
    exact hd.imp fun hne e => hne (by rw [e])
  refine ⟨?_, ?_⟩
  · rw [← l2, List.length_map]
    refine List.Perm.length_eq ((List.perm_ext_iff_of_nodup o1 hl).2 fun a => ?_)
    rw [o2 a]
    constructor
    · rintro ⟨l', q1, q2⟩
      rw [l1] at q1
      cases q1
      exact q2
    · intro ha
      exact ⟨_, l1, ha⟩
  · rw [← r3, ← List.length_map (f := (·.1)) (as := range k.nbrs c.to), ← List.length_map (f := (·.1)) (as := r)]
    refine List.Perm.length_eq ((List.perm_ext_iff_of_nodup (nodup_fst t1 fun b z z' hz hz' => ?_) r2).2 fun b => ?_)
    · rcases ((t2 _).1 hz).2 with ⟨l', q1, q2⟩ | ⟨q1, q2⟩ <;> rcases ((t2 _).1 hz').2 with ⟨l'', p1, p2⟩ | ⟨p1, p2⟩
      · rw [l1] at q1 p1
        cases q1
        cases p1
        exact once b z z' q2 p2
      · exact absurd ⟨l', z, q1, q2⟩ p1
      · exact absurd ⟨l'', z', p1, p2⟩ q1
      · exact q2.trans p2.symm
    · rw [List.mem_map, List.mem_map]
      constructor
      · rintro ⟨a, ha, rfl⟩
        obtain ⟨⟨r', z, p1, p2⟩, -⟩ := (t2 a).1 ha
        rw [r1] at p1
        cases p1
        exact ⟨_, p2, rfl⟩
      · rintro ⟨a, ha, rfl⟩
        have hto : NbrTo g (s i) id c.id a.1 := ⟨r, a.2, r1, ha⟩
        by_cases hof : NbrOf g (s i) id c.id a.1
        · obtain ⟨l', z, p1, p2⟩ := hof
          exact ⟨(a.1, z), (t2 _).2 ⟨hto, Or.inl ⟨l', p1, p2⟩⟩, rfl⟩
        · exact ⟨(a.1, fun _ => 0), (t2 _).2 ⟨hto, Or.inr ⟨hof, rfl⟩⟩, rfl⟩

theorem irange_nodup (h : Nat) : (irange h).Nodup := by
  unfold irange
  rw [List.Nodup, List.pairwise_map]
  exact List.nodup_range.imp fun hne e => hne (by omega)

theorem hoodOf_nodup (g : Cfg) : (hoodOf g).Nodup := by
  unfold hoodOf
  split
  · decide
  · rw [List.Nodup, List.pairwise_flatMap]
    have hmem : ∀ {z y : Int} {v : V3 Int}, v ∈ ((irange g.hood).filterMap fun x => if x = 0 ∧ y = 0 ∧ z = 0 then none else some (v3 x y z)) →
        v 1 = y ∧ v 2 = z := fun {z y v} hv => by
      obtain ⟨x, -, hx⟩ := List.mem_filterMap.1 hv
      split at hx
      · cases hx
      · cases hx; exact ⟨rfl, rfl⟩
    refine ⟨fun z _ => ?_, (irange_nodup _).imp fun hne v hv v' hv' e => hne ?_⟩
    · rw [List.pairwise_flatMap]
      refine ⟨fun y _ => ?_, (irange_nodup _).imp fun hne v hv v' hv' e => hne ?_⟩
      · rw [List.pairwise_filterMap]
        refine (irange_nodup _).imp fun hne v hv v' hv' e => hne ?_
        split at hv
        · cases hv
        · split at hv'
          · cases hv'
          · have e1 := Option.some.inj hv
            have e2 := Option.some.inj hv'
            rw [← e1, ← e2] at e
            exact congrFun e 0
      · rw [← (hmem hv).1, ← (hmem hv').1, e]
    · obtain ⟨y, -, hy⟩ := List.mem_flatMap.1 hv
      obtain ⟨y', -, hy'⟩ := List.mem_flatMap.1 hv'
      rw [← (hmem hy).2, ← (hmem hy').2, e]

theorem sum_one_less {L : List Int} {f : Int → Nat} {m : Nat} (hd : L.Nodup) (h1 : ∀ x ∈ L, x ≠ 0 → f x = m) :
    (0 ∉ L → (L.map f).sum = L.length * m) ∧ (0 ∈ L → f 0 + 1 = m → (L.map f).sum + 1 = L.length * m) := by
  induction L with
  | nil => exact ⟨fun _ => by simp, fun h => by cases h⟩
  | cons x L ih =>
    rw [List.nodup_cons] at hd
    obtain ⟨i1, i2⟩ := ih hd.2 fun y hy => h1 y (List.mem_cons_of_mem _ hy)
    rw [List.map_cons, List.sum_cons, List.length_cons, Nat.add_mul, Nat.one_mul]
    refine ⟨fun h0 => ?_, fun h0 e => ?_⟩
    · rw [List.mem_cons, not_or] at h0
      rw [h1 x (List.mem_cons_self ..) (Ne.symm h0.1), i1 h0.2]
      omega
    · by_cases hx : x = 0
      · subst hx
        rw [i1 hd.1]
        omega
      · have := i2 ((List.mem_cons.1 h0).resolve_left (Ne.symm hx)) e
        rw [h1 x (List.mem_cons_self ..) hx]
        omega

theorem sum_same {α : Type} (L : List α) (m : Nat) : (L.map fun _ => m).sum = L.length * m := by
  induction L with
  | nil => simp
  | cons x L ih => rw [List.map_cons, List.sum_cons, ih, List.length_cons, Nat.add_mul, Nat.one_mul, Nat.add_comm]

theorem length_filterMap_sum {α β : Type} (f : α → Option β) (L : List α) :
    (L.filterMap f).length = (L.map fun x => if (f x).isSome then 1 else 0).sum := by
  induction L with
  | nil => rfl
  | cons x L ih =>
    rw [List.map_cons, List.sum_cons, ← ih, List.filterMap_cons]
    cases f x with
    | none => simp
    | some y => simp; omega

theorem hoodOf_length (g : Cfg) : (hoodOf g).length = if g.hood = 0 then 6 else (2 * g.hood + 1) ^ 3 - 1 := by
  unfold hoodOf
  split
  · rfl
  · have hL : (irange g.hood).length = 2 * g.hood + 1 := by simp [irange]
    have h0 : (0 : Int) ∈ irange g.hood := by rw [mem_irange]; omega
    have hd := irange_nodup g.hood
    generalize irange g.hood = L at hL h0 hd
    have hx : ∀ z y : Int, (y = 0 ∧ z = 0 → (L.filterMap fun x => if x = 0 ∧ y = 0 ∧ z = 0 then none else some (v3 x y z)).length + 1 = L.length) ∧
        (¬ (y = 0 ∧ z = 0) → (L.filterMap fun x => if x = 0 ∧ y = 0 ∧ z = 0 then none else some (v3 x y z)).length = L.length) := fun z y => by
      rw [length_filterMap_sum]
      refine ⟨fun h => ?_, fun h => ?_⟩
      · have := (sum_one_less (m := 1) (f := fun x => if (if x = 0 ∧ y = 0 ∧ z = 0 then none else some (v3 x y z)).isSome then 1 else 0) hd
          fun x _ hx => by simp [hx]).2 h0 (by simp [h])
        rw [this, Nat.mul_one]
      · have : (fun x : Int => if (if x = 0 ∧ y = 0 ∧ z = 0 then none else some (v3 x y z)).isSome then 1 else 0) = fun _ => 1 := by
          funext x
          rw [if_pos (by rw [if_neg fun e => h e.2]; rfl)]
        rw [this, sum_same, Nat.mul_one]
    have hy : ∀ z : Int, (z = 0 → (L.flatMap fun y => L.filterMap fun x => if x = 0 ∧ y = 0 ∧ z = 0 then none else some (v3 x y z)).length + 1 =
        L.length * L.length) ∧
        (z ≠ 0 → (L.flatMap fun y => L.filterMap fun x => if x = 0 ∧ y = 0 ∧ z = 0 then none else some (v3 x y z)).length = L.length * L.length) := fun z => by
      rw [List.length_flatMap]
      refine ⟨fun h => ?_, fun h => ?_⟩
      · exact (sum_one_less hd fun y _ hy => (hx z y).2 fun e => hy e.1).2 h0 ((hx z 0).1 ⟨rfl, h⟩)
      · have : (fun y : Int => (L.filterMap fun x => if x = 0 ∧ y = 0 ∧ z = 0 then none else some (v3 x y z)).length) = fun _ => L.length := by
          funext y
          exact (hx z y).2 fun e => h e.2
        rw [this, sum_same]
    have := (sum_one_less hd fun z _ hz => (hy z).2 hz).2 h0 ((hy 0).1 rfl)
    rw [List.length_flatMap]
    rw [hL] at this
    have e : (2 * g.hood + 1) ^ 3 = (2 * g.hood + 1) * ((2 * g.hood + 1) * (2 * g.hood + 1)) := by
      rw [Nat.pow_succ, Nat.pow_two, Nat.mul_assoc]
    omega

/-- C133: numbers of neighbors in the default neighborhood. -/
theorem C133_default (hw : g.WF) (h0 : g.maxLvl = 0) (hp : ∀ d, g.periodic d = true) (hlong : ∀ d, 2 * max g.hood 1 + 1 ≤ g.len d)
    (h : Reachable g dflt maxTag s) (i : Fin n) : ∃ k, updatePointers g i (s i) defaultId = .ok k ∧ ∀ c ∈ range k.cells k.all,
      (range k.nbrs c.of).length = (if g.hood = 0 then 6 else (2 * g.hood + 1) ^ 3 - 1) ∧
      (range k.nbrs c.to).length = if g.hood = 0 then 6 else (2 * g.hood + 1) ^ 3 - 1 := by
  rw [← hoodOf_length]
  exact C133_iterator hw h0 hp hlong h (if_pos rfl) (hoodOf_nodup g)

/-! ## The grid of the test -/

/-- Grid of tests/user_neighborhood/neighbor_list_length.cpp:64-71. -/
def listG : Cfg := { len := v3 10 10 10, maxLvl := 0, periodic := v3 true true true, hood := 2 }

theorem list_wf : listG.WF := by unfold Cfg.WF; rw [forall_fin3]; decide

/-- The second neighborhood of the test (tests/user_neighborhood/neighbor_list_length.cpp:129-142) on two processes. -/
theorem list_start : ∃ s : Sys 2 Nat Nat, Reachable listG 0 1000 s ∧ (∀ i, hoodFor listG (s i) 2 = some [v3 (-1) (-1) (-1), v3 2 2 2]) ∧
    ∀ i, (s i).owner 1 = some 0 := by
  have hlast : listG.last = 1000 := by decide
  obtain ⟨s0, h0, hx, hs⟩ := createGrid_spec (n := 2) (W := Nat) (maxTag := 1000) list_wf (by decide) (0 : Nat)
    (fitsTags_mono (by rw [hlast]; exact Nat.le_refl _) (fitsTags_last (createLevel0_tiled list_wf (by decide)).valid))
  have hr0 : Reachable listG 0 1000 s0 := .init h0
  obtain ⟨w, hi⟩ := hr0.inv list_wf (by decide)
  obtain ⟨s1, h1⟩ := step_ok list_wf (by decide) 0 hi (by rw [hlast]; exact Nat.le_refl _) (.addHood 2 [v3 (-1) (-1) (-1), v3 2 2 2]) trivial trivial
  obtain ⟨r, r1, r2⟩ := Out.bind_inv h1
  have r2 : (fun i => (r i).2) = s1 := by injection r2
  have hadd : ∀ i, s1 i = { s0 i with hoods := (s1 i).hoods } ∧ hoodFor listG (s1 i) 2 = some [v3 (-1) (-1) (-1), v3 2 2 2] := fun i => by
    obtain ⟨a1, a2, a3⟩ := C40_add (b := (r i).1) (p' := (r i).2) list_wf hr0 (Out.collect_inv r1 i)
    have ht : (r i).1 = true := a1.2 ⟨by unfold hoodFor; rw [if_neg (by decide), (hs i).2.1]; rfl, by unfold ItemAllowed; intro o ho; revert o; decide⟩
    rw [← r2]
    exact ⟨(a3 ht).1, (a3 ht).2.1⟩
  refine ⟨s1, .step (.addHood 2 [v3 (-1) (-1) (-1), v3 2 2 2]) hr0 trivial h1, fun i => (hadd i).2, fun i => ?_⟩
  rw [(hadd i).1]
  show (s0 i).owner 1 = _
  rw [hx.owner i]
  decide +kernel

/-- Hypotheses of theorems above are met, and numbers of neighbors are those that the test expects. -/
example : ∃ s : Sys 2 Nat Nat, Reachable listG 0 1000 s ∧ listG.WF ∧ listG.maxLvl = 0 ∧ (∀ d, listG.periodic d = true) ∧
    (∀ d, 2 * max listG.hood 1 + 1 ≤ listG.len d) ∧ (s 0).owner 1 ≠ none ∧
    (∃ l, getNeighborsOf listG (s 0) 1 2 = some l ∧ l.map (·.2) = [v3 (-1) (-1) (-1), v3 2 2 2]) ∧
    (∃ k, updatePointers listG 0 (s 0) 2 = .ok k ∧ ∀ c ∈ range k.cells k.all, (range k.nbrs c.of).length = 2 ∧ (range k.nbrs c.to).length = 2) ∧
    (∃ k, updatePointers listG 0 (s 0) defaultId = .ok k ∧
      ∀ c ∈ range k.cells k.all, (range k.nbrs c.of).length = 124 ∧ (range k.nbrs c.to).length = 124) := by
  obtain ⟨s, a, b, c⟩ := list_start
  have hp : ∀ d, listG.periodic d = true := by rw [forall_fin3]; decide
  have hl : ∀ d, 2 * max listG.hood 1 + 1 ≤ listG.len d := by rw [forall_fin3]; decide
  obtain ⟨l, l1, l2, -⟩ := C133_of (c := 1) list_wf rfl a (b 0) (by rw [c]; simp)
  exact ⟨s, a, list_wf, rfl, hp, hl, by rw [c]; simp, ⟨l, l1, by rw [l2]; exact List.filter_eq_self.2 fun o _ => decide_eq_true (show InsideAt listG 1 o from fun d => Or.inl (hp d))⟩,
    C133_iterator list_wf rfl hp hl a (b 0) (by decide), C133_default list_wf rfl hp hl a 0⟩

/-- Shorter by one cell in one dimension than in `C133_to`. -/
def shortG : Cfg := { len := v3 2 3 3, maxLvl := 0, periodic := v3 true true true, hood := 1 }

theorem short_wf : shortG.WF := by unfold Cfg.WF; rw [forall_fin3]; decide

/-- C133: the length of the grid matters: with one cell less in one dimension, cells have as many neighbors_of as before but fewer neighbors_to. -/
theorem C133_short_false : ∃ (s : Sys 2 Nat Nat) (l r : List (Nat × V3 Int)), Reachable shortG 0 18 s ∧ getNeighborsOf shortG (s 0) 1 defaultId = some l ∧
    getNeighborsTo shortG (s 0) 1 defaultId = some r ∧ l.length = 26 ∧ r.length < 26 := by
  have hlast : shortG.last = 18 := by decide
  obtain ⟨s, h1, hx, -⟩ := createGrid_spec (n := 2) (W := Nat) (maxTag := 18) short_wf (by decide) (0 : Nat)
    (fitsTags_mono (by rw [hlast]; exact Nat.le_refl _) (fitsTags_last (createLevel0_tiled short_wf (by decide)).valid))
  have hr : Reachable shortG 0 18 s := .init h1
  obtain ⟨w, hi⟩ := hr.inv short_wf (by decide)
  have hH : hoodFor shortG (s 0) defaultId = some (hoodOf shortG) := if_pos rfl
  have ho : (s 0).owner 1 = some 0 := by rw [hx.owner]; decide
  obtain ⟨l, l1, l2⟩ := C133_count (c := 1) short_wf rfl (by rw [forall_fin3]; decide) hr hH (by rw [ho]; simp)
  obtain ⟨r, r1, r2, r3⟩ := hi.neighborsTo (c := 1) short_wf hH (by rw [← hi.sys.owner 0]; exact exist_of ho)
  refine ⟨s, l, _, hr, l1, r1, by rw [l2]; decide, ?_⟩
  have := r2.length_le_of_subset (l₂ := List.range 19) (fun b hb => by
    have := (hi.sys.tiled.valid b ((r3 b).1 hb).1).2
    rw [hlast] at this
    rw [List.mem_range]; omega)
  rw [List.length_range] at this
  rw [List.length_map]
  omega

end Dccrg
