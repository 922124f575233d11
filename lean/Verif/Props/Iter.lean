import Verif.Props.Halo
/-!
# C38: iterators over cells and their neighbors
-/
namespace Dccrg
open Cfg
variable {n : Nat} {D W : Type} {g : Cfg} {w : Owner n} {s s' : Sys n D W} {dflt : D} {maxTag : Nat} {id : Int}

/-! ## Sets of neighbors -/

theorem pair_eq_iff {a b : Nat × V3 Int} : (b.1 == a.1 && decide (∀ d, b.2 d = a.2 d)) = true ↔ b = a := by
  rw [Bool.and_eq_true, beq_iff_eq, decide_eq_true_eq]
  exact ⟨fun h => Prod.ext h.1 (funext h.2), fun h => by rw [h]; exact ⟨rfl, fun _ => rfl⟩⟩

theorem mem_dedupP {x : Nat × V3 Int} {l : List (Nat × V3 Int)} : x ∈ dedupP l ↔ x ∈ l := by
  induction l with
  | nil => simp [dedupP]
  | cons a l ih =>
    unfold dedupP
    split
    · rename_i h
      obtain ⟨b, hb, e⟩ := List.any_eq_true.1 h
      rw [pair_eq_iff] at e
      subst e
      rw [ih, List.mem_cons]
      exact ⟨Or.inr, fun h => h.elim (fun e => e ▸ hb) (fun e => e)⟩
    · rw [List.mem_cons, List.mem_cons, ih]

theorem nodup_dedupP (l : List (Nat × V3 Int)) : (dedupP l).Nodup := by
  induction l with
  | nil => simp [dedupP]
  | cons a l ih =>
    unfold dedupP
    split
    · exact ih
    · rename_i h
      rw [List.nodup_cons]
      refine ⟨fun hm => h ?_, ih⟩
      exact List.any_eq_true.2 ⟨a, mem_dedupP.1 hm, pair_eq_iff.2 rfl⟩

/-- Sets of neighbors of a cell for lists of neighbors without missing cells, offsets in the latter are zero. -/
theorem neighborSets_spec {of to : List (Nat × V3 Int)} (h1 : ∀ x ∈ of, x.1 ≠ 0)
    (h2 : ∀ x ∈ to, x.1 ≠ 0 ∧ x.2 = fun _ => 0) :
    (∀ y, y ∈ (neighborSets of to).1 ↔ y ∈ of ∧ y.1 ∉ to.map (·.1)) ∧
    (∀ y, y ∈ (neighborSets of to).2.1 ↔ y ∈ of ∧ y.1 ∈ to.map (·.1)) ∧
    (∀ y, y ∈ (neighborSets of to).2.2 ↔ y.2 = (fun _ => 0) ∧ y.1 ∈ to.map (·.1) ∧ y.1 ∉ of.map (·.1)) ∧
    (neighborSets of to).1.Nodup ∧ (neighborSets of to).2.1.Nodup ∧ (neighborSets of to).2.2.Nodup := by
  have hof : ∀ y, y ∈ dedupP (of.filter fun b => b.1 != 0) ↔ y ∈ of := fun y => by
    rw [mem_dedupP, List.mem_filter, bne_iff_ne]
    exact ⟨fun h => h.1, fun h => ⟨h, h1 y h⟩⟩
  have hto : ∀ y, y ∈ dedupP (to.filter fun b => b.1 != 0) ↔ y ∈ to := fun y => by
    rw [mem_dedupP, List.mem_filter, bne_iff_ne]
    exact ⟨fun h => h.1, fun h => ⟨h, (h2 y h).1⟩⟩
  have hin : ∀ y : Nat × V3 Int, ((dedupP (to.filter fun b => b.1 != 0)).any
      fun t => t.1 == y.1 && decide (∀ d, t.2 d = 0)) = true ↔ y.1 ∈ to.map (·.1) := by
    intro y
    rw [List.any_eq_true, List.mem_map]
    constructor
    · rintro ⟨t, ht, e⟩
      rw [Bool.and_eq_true, beq_iff_eq] at e
      exact ⟨t, (hto t).1 ht, e.1⟩
    · rintro ⟨t, ht, e⟩
      refine ⟨t, (hto t).2 ht, ?_⟩
      rw [Bool.and_eq_true, beq_iff_eq, decide_eq_true_eq]
      exact ⟨e, fun d => by rw [(h2 t ht).2]⟩
  have hio : ∀ y ∈ to, (decide (∀ d, y.2 d = 0) && (dedupP (of.filter fun b => b.1 != 0)).any
      fun b => b.1 == y.1) = true ↔ y.1 ∈ of.map (·.1) := by
    intro y hy
    rw [Bool.and_eq_true, List.any_eq_true, List.mem_map, decide_eq_true_eq]
    constructor
    · rintro ⟨-, t, ht, e⟩
      exact ⟨t, (hof t).1 ht, beq_iff_eq.1 e⟩
    · rintro ⟨t, ht, e⟩
      exact ⟨fun d => by rw [(h2 y hy).2], t, (hof t).2 ht, beq_iff_eq.2 e⟩
  refine ⟨fun y => ?_, fun y => ?_, fun y => ?_, ?_, ?_, ?_⟩
  · show y ∈ List.filter _ _ ↔ _
    rw [List.mem_filter, hof, ← hin, Bool.not_eq_true', Bool.not_eq_true]
  · show y ∈ List.filter _ _ ↔ _
    rw [List.mem_filter, hof, hin]
  · show y ∈ List.filter _ _ ↔ _
    rw [List.mem_filter, hto]
    constructor
    · rintro ⟨h3, h4⟩
      refine ⟨(h2 y h3).2, List.mem_map.2 ⟨y, h3, rfl⟩, fun h5 => ?_⟩
      rw [Bool.not_eq_true'] at h4
      exact Bool.noConfusion (((hio y h3).2 h5).symm.trans h4)
    · rintro ⟨h3, h4, h5⟩
      obtain ⟨t, ht, e⟩ := List.mem_map.1 h4
      have : t = y := Prod.ext e ((h2 t ht).2.trans h3.symm)
      subst this
      refine ⟨ht, ?_⟩
      rw [Bool.not_eq_true']
      cases hx : (decide (∀ d, t.2 d = 0) && (dedupP (of.filter fun b => b.1 != 0)).any fun b => b.1 == t.1) with
      | false => exact hx
      | true => exact absurd ((hio t ht).1 hx) h5
  · exact List.Pairwise.filter _ (nodup_dedupP _)
  · exact List.Pairwise.filter _ (nodup_dedupP _)
  · exact List.Pairwise.filter _ (nodup_dedupP _)

/-! ## Ranges -/

theorem range_mid {α : Type} (a b c : List α) : range (a ++ b ++ c) (a.length, a.length + b.length) = b := by
  unfold range
  show List.drop a.length (List.take (a.length + b.length) (a ++ b ++ c)) = b
  rw [List.append_assoc, List.take_length_add_append, List.take_left', List.drop_left']
  · rfl
  · rfl

theorem range_at {α : Type} {l a b c : List α} {x y : Nat} (h : l = a ++ b ++ c) (hx : x = a.length)
    (hy : y = a.length + b.length) : range l (x, y) = b := by
  subst h hx hy
  exact range_mid a b c

theorem cellItems_ids (sets : Nat → List (Nat × V3 Int) × List (Nat × V3 Int) × List (Nat × V3 Int)) (cs : List Nat)
    (start : Nat) : (cellItems sets cs start).1.map (·.id) = cs := by
  induction cs generalizing start with
  | nil => rfl
  | cons c cs ih =>
    unfold cellItems
    simp only [List.map_cons, ih]

theorem cellItems_nbrs (sets : Nat → List (Nat × V3 Int) × List (Nat × V3 Int) × List (Nat × V3 Int)) (cs : List Nat)
    (pre : List (Nat × V3 Int)) (x : CellItem) (hx : x ∈ (cellItems sets cs pre.length).1) :
    let nb := pre ++ (cellItems sets cs pre.length).2
    range nb x.of = (sets x.id).1 ++ (sets x.id).2.1 ∧ range nb x.to = (sets x.id).2.1 ++ (sets x.id).2.2 ∧
    range nb x.all = (sets x.id).1 ++ (sets x.id).2.1 ++ (sets x.id).2.2 := by
  induction cs generalizing pre with
  | nil => cases hx
  | cons c cs ih =>
    unfold cellItems at hx ⊢
    simp only at hx ⊢
    generalize e1 : (sets c).1 = a at *
    generalize e2 : (sets c).2.1 = b at *
    generalize e3 : (sets c).2.2 = t at *
    have hl : pre.length + a.length + b.length + t.length = (pre ++ (a ++ b ++ t)).length := by
      simp only [List.length_append]; omega
    rw [hl] at hx ⊢
    rcases List.mem_cons.1 hx with hx | hx
    · subst hx
      simp only [e1, e2, e3]
      refine ⟨range_at (a := pre) (c := t ++ (cellItems sets cs (pre ++ (a ++ b ++ t)).length).2) ?_ rfl ?_,
        range_at (a := pre ++ a) (c := (cellItems sets cs (pre ++ (a ++ b ++ t)).length).2) ?_ ?_ ?_,
        range_at (a := pre) (c := (cellItems sets cs (pre ++ (a ++ b ++ t)).length).2) ?_ rfl ?_⟩ <;>
      simp only [List.append_assoc, List.length_append] <;> omega
    · have := ih (pre ++ (a ++ b ++ t)) hx
      simp only at this
      rw [← List.append_assoc]
      exact this

/-! ## C38 -/

/-- `b` is a neighbor of `c` or `c` is a neighbor of `b`, with given id of neighborhood. -/
def NbrAny (g : Cfg) (p : Proc n D W) (id : Int) (c b : Nat) : Prop := NbrOf g p id c b ∨ NbrTo g p id c b

/-- Local cell with neighbors on other processes. -/
def OnBoundary (g : Cfg) (i : Fin n) (p : Proc n D W) (id : Int) (c : Nat) : Prop :=
  p.owner c = some i ∧ ∃ b j, p.owner b = some j ∧ j ≠ i ∧ NbrAny g p id c b

/-- Cell of another process with a neighbor on this process. -/
def RemoteNbr (g : Cfg) (i : Fin n) (p : Proc n D W) (id : Int) (b : Nat) : Prop :=
  (∃ j, p.owner b = some j ∧ j ≠ i) ∧ ∃ c, p.owner c = some i ∧ NbrAny g p id c b

/-- A range of cells has exactly given cells, each once. -/
def Enumerates (k : Cache) (r : Nat × Nat) (P : Nat → Prop) : Prop :=
  ((range k.cells r).map (·.id)).Nodup ∧ ∀ c, c ∈ (range k.cells r).map (·.id) ↔ P c

/-- Ranges of neighbors of a cell: neighbors_of has items of the list of neighbors of the cell each once,
neighbors_to has the cells in the other list with items of the former list for cells in both,
all neighbors has all of them once. -/
structure NbrRanges (g : Cfg) (p : Proc n D W) (id : Int) (k : Cache) (x : CellItem) : Prop where
  of : (range k.nbrs x.of).Nodup ∧ ∀ y, y ∈ range k.nbrs x.of ↔
    ∃ l, getNeighborsOf g p x.id id = some l ∧ y ∈ l
  to : (range k.nbrs x.to).Nodup ∧ ∀ y, y ∈ range k.nbrs x.to ↔ NbrTo g p id x.id y.1 ∧
    ((∃ l, getNeighborsOf g p x.id id = some l ∧ y ∈ l) ∨ (¬ NbrOf g p id x.id y.1 ∧ y.2 = fun _ => 0))
  all : (range k.nbrs x.all).Nodup ∧ ∀ y, y ∈ range k.nbrs x.all ↔ y ∈ range k.nbrs x.of ∨ y ∈ range k.nbrs x.to

theorem enumerates_at {k : Cache} {x y : Nat} {a b c : List Nat} {P : Nat → Prop}
    (h : k.cells.map (·.id) = a ++ b ++ c) (hx : x = a.length) (hy : y = a.length + b.length) (hn : b.Nodup)
    (hm : ∀ z, z ∈ b ↔ P z) : Enumerates k (x, y) P := by
  have e : (range k.cells (x, y)).map (·.id) = b := by
    have := range_at h hx hy
    unfold range at this ⊢
    rw [List.map_drop, List.map_take]
    exact this
  unfold Enumerates
  rw [e]
  exact ⟨hn, hm⟩

theorem nodup_append_of {α : Type} {a b : List α} (ha : a.Nodup) (hb : b.Nodup) (h : ∀ x ∈ a, x ∉ b) : (a ++ b).Nodup :=
  List.nodup_append.2 ⟨ha, hb, fun x hx y hy e => h x hx (e ▸ hy)⟩

theorem Inv.iter_ranges (hw : g.WF) (hi : Inv g w s) (i : Fin n)
    (hf : Fresh g maxTag i (s i))
    (hid : (hoodFor g (s i) id).isSome = true) :
    ∃ k, updatePointers g i (s i) id = .ok k ∧
      Enumerates k k.inner (fun c => (s i).owner c = some i ∧ ¬ OnBoundary g i (s i) id c) ∧
      Enumerates k k.outer (OnBoundary g i (s i) id) ∧
      Enumerates k k.loc (fun c => (s i).owner c = some i) ∧
      Enumerates k k.remote (RemoteNbr g i (s i) defaultId) ∧
      Enumerates k k.all (fun c => (s i).owner c = some i ∨ RemoteNbr g i (s i) defaultId c) ∧
      (∀ x ∈ range k.cells k.all, NbrRanges g (s i) id k x ∧ (access (s i) x.id).isSome = true ∧
        ((s i).owner x.id = some i → ∀ y ∈ range k.nbrs x.all, (access (s i) y.1).isSome = true)) := by
  obtain ⟨H, hH⟩ := Option.isSome_iff_exists.1 hid
  have hsub := hoodFor_sub hi hH
  have ho := hi.sys.owner i
  have hdef : hoodFor g (s i) defaultId = some (hoodOf g) := if_pos rfl
  -- members of lists
  have mB : ∀ c, c ∈ localBoundaryH g H i (s i).owner (s i).has ↔ OnBoundary g i (s i) id c := by
    intro c
    have := (hi.boundary_outer (id := id) hw i false).2.2 c
    unfold getLocalBoundary at this
    rw [hH] at this
    exact this
  have mR : ∀ c, c ∈ dedup (remoteBoundary g i (s i).owner (s i).has) ↔ RemoteNbr g i (s i) defaultId c := by
    intro c
    exact (hi.boundary_remote (id := defaultId) hw i false).2.2 c
  have mL : ∀ c, (s i).has c = true ↔ w c = some i := hi.sys.placed i
  have mI : ∀ c, c ∈ ids g ∧ (s i).has c = true ↔ (s i).owner c = some i := by
    intro c
    rw [mem_ids, mL, ho]
    exact ⟨fun h => h.2, fun h => ⟨(hi.sys.tiled.valid c (exist_of h)).2, h⟩⟩
  obtain ⟨inner, hin⟩ : ∃ l, l = (ids g).filter fun c => (s i).has c && !(localBoundaryH g H i (s i).owner (s i).has).contains c := ⟨_, rfl⟩
  obtain ⟨outer, hou⟩ : ∃ l, l = (ids g).filter fun c => (s i).has c && (localBoundaryH g H i (s i).owner (s i).has).contains c := ⟨_, rfl⟩
  obtain ⟨remote, hre⟩ : ∃ l, l = dedup (remoteBoundary g i (s i).owner (s i).has) := ⟨_, rfl⟩
  have nI : inner.Nodup := by rw [hin]; exact List.Pairwise.filter _ (ids_nodup g)
  have nO : outer.Nodup := by rw [hou]; exact List.Pairwise.filter _ (ids_nodup g)
  have nR : remote.Nodup := by rw [hre]; exact nodup_dedup _
  have eI : ∀ c, c ∈ inner ↔ (s i).owner c = some i ∧ ¬ OnBoundary g i (s i) id c := by
    intro c
    rw [hin, List.mem_filter, Bool.and_eq_true, Bool.not_eq_true', List.contains_eq_mem, decide_eq_false_iff_not, mB,
      ← and_assoc, mI]
  have eO : ∀ c, c ∈ outer ↔ OnBoundary g i (s i) id c := by
    intro c
    rw [hou, List.mem_filter, Bool.and_eq_true, List.contains_eq_mem, decide_eq_true_eq, mB, ← and_assoc, mI]
    exact ⟨fun h => h.2, fun h => ⟨h.1, h⟩⟩
  have eR : ∀ c, c ∈ remote ↔ RemoteNbr g i (s i) defaultId c := by
    intro c; rw [hre]; exact mR c
  have eL : ∀ c, c ∈ inner ++ outer ↔ (s i).owner c = some i := by
    intro c
    rw [List.mem_append, eI, eO]
    constructor
    · rintro (h | h)
      · exact h.1
      · exact h.1
    · intro h
      by_cases hb : OnBoundary g i (s i) id c
      · exact Or.inr hb
      · exact Or.inl ⟨h, hb⟩
  have nL : (inner ++ outer).Nodup := nodup_append_of nI nO fun x hx hy => ((eI x).1 hx).2 ((eO x).1 hy)
  have nA : (inner ++ outer ++ remote).Nodup := nodup_append_of nL nR fun x hx hy => by
    obtain ⟨⟨j, h1, h2⟩, -⟩ := (eR x).1 hy
    have := (eL x).1 hx
    rw [h1] at this; injection this with this; exact h2 this
  have eA : ∀ c, c ∈ inner ++ outer ++ remote ↔ (s i).owner c = some i ∨ RemoteNbr g i (s i) defaultId c := by
    intro c; rw [List.mem_append, eL, eR]
  have hex : ∀ c ∈ inner ++ outer ++ remote, exist w c = true := by
    intro c hc
    rcases (eA c).1 hc with h | ⟨⟨j, h, -⟩, -⟩
    · rw [ho] at h; exact exist_of h
    · rw [ho] at h; exact exist_of h
  -- data
  have hcopy : ∀ c, RemoteNbr g i (s i) defaultId c → ((s i).remote c).isSome = true := by
    intro c hc
    refine hf.copies c ?_
    have := (mR c).2 hc
    rwa [mem_dedup] at this
  have hacc : ∀ c, (s i).owner c = some i ∨ RemoteNbr g i (s i) defaultId c → (access (s i) c).isSome = true := by
    intro c hc
    unfold access
    rcases hc with hc | hc
    · rw [ho, ← hi.sys.placed i c] at hc
      obtain ⟨v, hv⟩ := Option.isSome_iff_exists.1 hc
      rw [hv]; rfl
    · obtain ⟨v, hv⟩ := Option.isSome_iff_exists.1 (hcopy c hc)
      rw [hv]
      cases (s i).data c <;> rfl
  have hnone1 : ¬ ∃ c ∈ remote, ((s i).remote c).isNone = true := by
    rintro ⟨c, h1, h2⟩
    have := hcopy c ((eR c).1 h1)
    rw [← Option.not_isSome, this] at h2
    cases h2
  have hnone2 : ¬ ∃ c ∈ inner ++ outer ++ remote, c = 0 ∨ (getNeighborsOf g (s i) c id).isNone = true ∨
      (getNeighborsTo g (s i) c id).isNone = true := by
    rintro ⟨c, h1, h2⟩
    have he := hex c h1
    obtain ⟨f, e1, -⟩ := hi.neighborsOf hw hH he
    obtain ⟨r, e2, -⟩ := hi.neighborsTo hw hH he
    rcases h2 with h2 | h2 | h2
    · exact valid_ne_zero (hi.sys.tiled.valid c he) h2
    · rw [e1] at h2; cases h2
    · rw [e2] at h2; cases h2
  obtain ⟨sets, hsets⟩ : ∃ f, f = fun c => neighborSets ((getNeighborsOf g (s i) c id).getD []) ((getNeighborsTo g (s i) c id).getD []) := ⟨_, rfl⟩
  refine ⟨⟨(cellItems sets (inner ++ outer ++ remote) 0).1, (cellItems sets (inner ++ outer ++ remote) 0).2, (0, inner.length),
    (inner.length, inner.length + outer.length), (0, inner.length + outer.length),
    (inner.length + outer.length, inner.length + outer.length + remote.length),
    (0, inner.length + outer.length + remote.length)⟩, ?_, ?_, ?_, ?_, ?_, ?_, ?_⟩
  · unfold updatePointers
    rw [hH]
    simp only [← hin, ← hou, ← hre, ← hsets]
    rw [if_neg hnone1, if_neg hnone2]
  · exact enumerates_at (a := []) (c := outer ++ remote)
      (by rw [cellItems_ids]; simp) rfl (by simp) nI eI
  · exact enumerates_at (a := inner) (c := remote) (by rw [cellItems_ids]) rfl rfl nO eO
  · exact enumerates_at (a := []) (c := remote) (by rw [cellItems_ids]; simp) rfl (by simp) nL eL
  · exact enumerates_at (a := inner ++ outer) (c := []) (by rw [cellItems_ids]; simp) (by simp) (by simp) nR eR
  · exact enumerates_at (a := []) (c := []) (by rw [cellItems_ids]; simp) rfl (by simp; omega) nA eA
  · intro x hx
    have hx : x ∈ (cellItems sets (inner ++ outer ++ remote) 0).1 := by
      unfold range at hx
      exact List.mem_of_mem_take (List.mem_of_mem_drop hx)
    have hxc : x.id ∈ inner ++ outer ++ remote := by
      rw [← cellItems_ids sets (inner ++ outer ++ remote) 0]
      exact List.mem_map.2 ⟨x, hx, rfl⟩
    have he := hex _ hxc
    obtain ⟨f, e1, -, e5⟩ := hi.neighborsOf hw hH he
    obtain ⟨r, e2, -, e6⟩ := hi.neighborsTo hw hH he
    have hz : ∀ b, exist w b = true → b ≠ 0 := fun b hb => valid_ne_zero (hi.sys.tiled.valid b hb)
    generalize hof : H.flatMap f = of at e1 e5
    obtain ⟨r1, r2, r3⟩ := cellItems_nbrs sets (inner ++ outer ++ remote) [] x hx
    have hmt : ∀ b, b ∈ (r.map fun b => (b, (fun _ => 0 : V3 Int))).map (·.1) ↔ NbrTo g (s i) id x.id b := by
      intro b
      rw [hi.nbrTo_iff hw hH he, ← e6, List.map_map]
      simp
    have hmo : ∀ b, b ∈ of.map (·.1) ↔ NbrOf g (s i) id x.id b := by
      intro b
      rw [hi.nbrOf_iff hw hH he, ← e5, List.mem_map]
      constructor
      · rintro ⟨⟨b, off⟩, h1, rfl⟩; exact ⟨off, h1⟩
      · rintro ⟨off, h1⟩; exact ⟨_, h1, rfl⟩
    obtain ⟨s1, s2, s3, s4, s5, s6⟩ := neighborSets_spec (of := of) (to := r.map fun b => (b, fun _ => 0))
      (fun y hy => hz _ ((e5 y.1).1 ⟨y.2, hy⟩).1)
      (fun y hy => by
        obtain ⟨b, hb, rfl⟩ := List.mem_map.1 hy
        exact ⟨hz _ ((e6 b).1 hb).1, rfl⟩)
    have es : sets x.id = neighborSets of (r.map fun b => (b, fun _ => 0)) := by
      rw [hsets]
      simp only [e1, e2, Option.getD_some]
    rw [List.nil_append, List.length_nil, es] at r1 r2 r3
    simp only [hmt, hmo] at s1 s2 s3
    have hof' : ∀ y, (∃ l, getNeighborsOf g (s i) x.id id = some l ∧ y ∈ l) ↔ y ∈ of := by
      intro y
      rw [e1]
      constructor
      · rintro ⟨l, h1, h2⟩; injection h1 with h1; rwa [h1]
      · exact fun h => ⟨_, rfl, h⟩
    have hN : ∀ y ∈ of, NbrOf g (s i) id x.id y.1 := fun y hy => (hmo y.1).1 (List.mem_map.2 ⟨y, hy, rfl⟩)
    have n12 : ∀ y ∈ (neighborSets of (r.map fun b => (b, fun _ => 0))).1, y ∉ (neighborSets of (r.map fun b => (b, fun _ => 0))).2.1 :=
      fun y hy hy' => ((s1 y).1 hy).2 ((s2 y).1 hy').2
    have n23 : ∀ y ∈ (neighborSets of (r.map fun b => (b, fun _ => 0))).2.1, y ∉ (neighborSets of (r.map fun b => (b, fun _ => 0))).2.2 :=
      fun y hy hy' => ((s3 y).1 hy').2.2 (hN y ((s2 y).1 hy).1)
    have n13 : ∀ y ∈ (neighborSets of (r.map fun b => (b, fun _ => 0))).1, y ∉ (neighborSets of (r.map fun b => (b, fun _ => 0))).2.2 :=
      fun y hy hy' => ((s1 y).1 hy).2 ((s3 y).1 hy').2.1
    have hall : ∀ y, y ∈ range (cellItems sets (inner ++ outer ++ remote) 0).2 x.all → NbrAny g (s i) id x.id y.1 := by
      intro y hy
      rw [r3, List.mem_append, List.mem_append, s1, s2, s3] at hy
      rcases hy with (hy | hy) | hy
      · exact Or.inl (hN y hy.1)
      · exact Or.inl (hN y hy.1)
      · exact Or.inr hy.2.1
    refine ⟨⟨⟨?_, fun y => ?_⟩, ⟨?_, fun y => ?_⟩, ⟨?_, fun y => ?_⟩⟩, hacc _ ((eA _).1 hxc), fun hown y hy => ?_⟩
    · rw [r1]; exact nodup_append_of s4 s5 n12
    · rw [r1, List.mem_append, s1, s2, hof', ← and_or_left]
      exact ⟨fun h => h.1, fun h => ⟨h, (Classical.em _).symm⟩⟩
    · rw [r2]; exact nodup_append_of s5 s6 n23
    · rw [r2, List.mem_append, s2, s3, hof']
      constructor
      · rintro (h | h)
        · exact ⟨h.2, Or.inl h.1⟩
        · exact ⟨h.2.1, Or.inr ⟨h.2.2, h.1⟩⟩
      · rintro ⟨h1, h | h⟩
        · exact Or.inl ⟨h, h1⟩
        · exact Or.inr ⟨h.2, h1, h.1⟩
    · rw [r3]
      refine nodup_append_of (nodup_append_of s4 s5 n12) s6 fun y hy => ?_
      rcases List.mem_append.1 hy with hy | hy
      · exact n13 y hy
      · exact n23 y hy
    · rw [r1, r2, r3]
      simp only [List.mem_append]
      constructor
      · rintro ((h | h) | h)
        · exact Or.inl (Or.inl h)
        · exact Or.inl (Or.inr h)
        · exact Or.inr (Or.inr h)
      · rintro ((h | h) | (h | h))
        · exact Or.inl (Or.inl h)
        · exact Or.inl (Or.inr h)
        · exact Or.inl (Or.inr h)
        · exact Or.inr h
    · apply hacc
      have hy := hall y hy
      have hye : exist w y.1 = true ∧ (Linked g H x.id y.1 ∨ Linked g H y.1 x.id) := by
        rcases hy with hy | hy
        · have := (hi.nbrOf_iff hw hH he).1 hy; exact ⟨this.1, Or.inl this.2⟩
        · have := (hi.nbrTo_iff hw hH he).1 hy; exact ⟨this.1, Or.inr this.2⟩
      obtain ⟨j, hj⟩ := exist_iff.1 hye.1
      by_cases hji : j = i
      · left; rw [ho, hj, hji]
      · right
        refine ⟨⟨j, by rw [ho]; exact hj, hji⟩, x.id, hown, ?_⟩
        have mono : ∀ a b, Linked g H a b → Linked g (hoodOf g) a b := by
          rintro a b ⟨o, ho, hr⟩
          exact ⟨o, hsub o ho, hr⟩
        rcases hye.2 with hl | hl
        · exact Or.inl ((hi.nbrOf_iff hw hdef he).2 ⟨hye.1, mono _ _ hl⟩)
        · exact Or.inr ((hi.nbrTo_iff hw hdef he).2 ⟨hye.1, mono _ _ hl⟩)

/-- C38: in every reachable state iterators can be created for every neighborhood that exists. Inner, outer,
local, remote and all ranges have exactly the respective cells once, with data, and ranges of neighbors of all
those cells have exactly their neighbors. All neighbors of local cells have data. -/
theorem C38_ranges (hw : g.WF) (h : Reachable g dflt maxTag s) (i : Fin n)
    (hid : (hoodFor g (s i) id).isSome = true) :
    ∃ k, updatePointers g i (s i) id = .ok k ∧
      Enumerates k k.inner (fun c => (s i).owner c = some i ∧ ¬ OnBoundary g i (s i) id c) ∧
      Enumerates k k.outer (OnBoundary g i (s i) id) ∧
      Enumerates k k.loc (fun c => (s i).owner c = some i) ∧
      Enumerates k k.remote (RemoteNbr g i (s i) defaultId) ∧
      Enumerates k k.all (fun c => (s i).owner c = some i ∨ RemoteNbr g i (s i) defaultId c) ∧
      (∀ x ∈ range k.cells k.all, NbrRanges g (s i) id k x ∧ (access (s i) x.id).isSome = true ∧
        ((s i).owner x.id = some i → ∀ y ∈ range k.nbrs x.all, (access (s i) y.1).isSome = true)) := by
  obtain ⟨w, hi⟩ := h.inv hw (by have := i.2; omega)
  exact hi.iter_ranges hw i (h.fresh hw i) hid

/-- C38: iterators of an unknown neighborhood can not be created. -/
theorem C38_unknown (i : Fin n) (p : Proc n D W) (hid : hoodFor g p id = none) : updatePointers g i p id = .throws := by
  unfold updatePointers
  rw [hid]

/-- The demo: cell 1 is in the range of outer cells of process 0 and has neighbor 2, which is a remote cell. -/
example : ∃ (s : Sys 2 Nat Nat) (k : Cache), Reachable tinyG 0 146 s ∧
    updatePointers tinyG 0 (s 0) defaultId = .ok k ∧
    (∃ x ∈ range k.cells k.outer, x.id = 1 ∧ (∃ y ∈ range k.nbrs x.of, y.1 = 2)) ∧
    2 ∈ (range k.cells k.remote).map (·.id) ∧ 1 ∉ (range k.cells k.inner).map (·.id) := by
  obtain ⟨s, h1, h2, h3, -, -, -, h4, h5⟩ := tiny_init
  have ho : ∀ i, (s i).owner = (createLevel0 2 2).2 := h3.sys.owner
  have hd : hoodFor tinyG (s 0) defaultId = some (hoodOf tinyG) := if_pos rfl
  obtain ⟨k, e1, e2, e3, -, e5, -, e7⟩ := C38_ranges (id := defaultId) tiny_wf h2 0 (by rw [hd]; rfl)
  have hn : NbrOf tinyG (s 0) defaultId 1 2 := (h3.nbrOf_iff tiny_wf hd (exist_of h4)).2 ⟨exist_of h5, tiny_linked.1⟩
  have ob : OnBoundary tinyG 0 (s 0) defaultId 1 :=
    ⟨by rw [ho]; exact h4, 2, 1, by rw [ho]; exact h5, by decide, Or.inl hn⟩
  refine ⟨s, k, h2, e1, ?_, ?_, ?_⟩
  · obtain ⟨x, hx, hx1⟩ := List.mem_map.1 ((e3.2 1).2 ob)
    refine ⟨x, hx, hx1, ?_⟩
    have hx' : x ∈ range k.cells k.all := by
      obtain ⟨l, off, hl⟩ : ∃ a b, updatePointers tinyG 0 (s 0) defaultId = .ok k ∧ k.all = (a, b) ∧ a = 0 ∧ k.cells.length ≤ b := by
        have e1' := e1
        unfold updatePointers at e1
        rw [hd] at e1
        simp only at e1
        split at e1
        · cases e1
        · split at e1
          · cases e1
          · injection e1 with e1
            refine ⟨0, _, e1', by rw [← e1], rfl, ?_⟩
            rw [← e1]
            have := congrArg List.length (cellItems_ids (fun c => neighborSets ((getNeighborsOf tinyG (s 0) c defaultId).getD []) ((getNeighborsTo tinyG (s 0) c defaultId).getD []))
              (List.filter (fun c => (s 0).has c && !(localBoundaryH tinyG (hoodOf tinyG) 0 (s 0).owner (s 0).has).contains c) (ids tinyG) ++
               List.filter (fun c => (s 0).has c && (localBoundaryH tinyG (hoodOf tinyG) 0 (s 0).owner (s 0).has).contains c) (ids tinyG) ++
               dedup (remoteBoundary tinyG 0 (s 0).owner (s 0).has)) 0)
            rw [List.length_map] at this
            simp only [this, List.length_append]
            exact Nat.le_refl _
      obtain ⟨-, h6, rfl, h7⟩ := hl
      rw [h6]
      unfold range
      rw [List.drop_zero, List.take_of_length_le h7]
      unfold range at hx
      exact List.mem_of_mem_take (List.mem_of_mem_drop hx)
    obtain ⟨l, off, hl, hm⟩ := hn
    refine ⟨(2, off), (((e7 x hx').1.of).2 _).2 ⟨l, ?_, hm⟩, rfl⟩
    rw [hx1]; exact hl
  · exact (e5.2 2).2 ⟨⟨1, by rw [ho]; exact h5, by decide⟩, 1, by rw [ho]; exact h4, Or.inl hn⟩
  · intro h
    exact ((e2.2 1).1 h).2 ob

end Dccrg
