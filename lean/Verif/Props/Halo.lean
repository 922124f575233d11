import Verif.Query
import Verif.Copies
import Verif.Demo
/-!
# C33, C34, C35, C36, C40: remote neighbors, process boundaries and neighborhoods of users
-/
namespace Dccrg
open Cfg
variable {n : Nat} {D W : Type} {g : Cfg} {w : Owner n} {s s' : Sys n D W} {dflt : D} {maxTag : Nat} {id : Int}

/-- `b` is in the list returned by `get_neighbors_of(c, id)`. -/
def NbrOf (g : Cfg) (p : Proc n D W) (id : Int) (c b : Nat) : Prop :=
  ∃ l off, getNeighborsOf g p c id = some l ∧ (b, off) ∈ l

/-- `b` is in the list returned by `get_neighbors_to(c, id)`. -/
def NbrTo (g : Cfg) (p : Proc n D W) (id : Int) (c b : Nat) : Prop :=
  ∃ l off, getNeighborsTo g p c id = some l ∧ (b, off) ∈ l

section
variable {H : List (V3 Int)}

/-- Lists of neighbors of existing cells. -/
theorem Inv.neighborsOf (hw : g.WF) (h : Inv g w s) {i : Fin n} (hH : hoodFor g (s i) id = some H) {c : Nat}
    (hc : exist w c = true) : ∃ f : V3 Int → List (Nat × V3 Int),
      getNeighborsOf g (s i) c id = some (H.flatMap f) ∧ (∀ o ∈ H, IsItem g (exist w) c o (f o)) ∧
      (∀ b, (∃ off, (b, off) ∈ H.flatMap f) ↔ exist w b = true ∧ Linked g H c b) := by
  obtain ⟨f, h1, h2, -, h4⟩ := C15_neighbors_of hw h.sys.tiled ((balanced_iff hw h.sys.tiled).1 h.sys.balanced) hc
    (hoodFor_sub h hH)
  refine ⟨f, ?_, h2, h4⟩
  unfold getNeighborsOf
  rw [h.sys.owner, if_pos hc, hH]
  simp only [h1]

theorem Inv.neighborsTo (hw : g.WF) (h : Inv g w s) {i : Fin n} (hH : hoodFor g (s i) id = some H) {c : Nat}
    (hc : exist w c = true) : ∃ r : List Nat,
      getNeighborsTo g (s i) c id = some (r.map fun b => (b, fun _ => 0)) ∧ r.Nodup ∧
      (∀ b, b ∈ r ↔ exist w b = true ∧ Linked g H b c) := by
  obtain ⟨r, h1, h2, h4⟩ := C16_neighbors_to hw h.sys.tiled ((balanced_iff hw h.sys.tiled).1 h.sys.balanced) hc
    (hoodFor_sub h hH)
  refine ⟨r, ?_, h2, h4⟩
  unfold getNeighborsTo
  rw [h.sys.owner, if_pos hc, hH]
  simp only [h1]

theorem Inv.nbrOf_iff (hw : g.WF) (h : Inv g w s) {i : Fin n} (hH : hoodFor g (s i) id = some H) {c b : Nat}
    (hc : exist w c = true) : NbrOf g (s i) id c b ↔ exist w b = true ∧ Linked g H c b := by
  obtain ⟨f, h1, -, h3⟩ := h.neighborsOf hw hH hc
  rw [← h3]
  constructor
  · rintro ⟨l, off, e1, e2⟩
    rw [h1] at e1
    injection e1 with e1
    subst e1
    exact ⟨off, e2⟩
  · rintro ⟨off, e⟩
    exact ⟨_, off, h1, e⟩

theorem Inv.nbrTo_iff (hw : g.WF) (h : Inv g w s) {i : Fin n} (hH : hoodFor g (s i) id = some H) {c b : Nat}
    (hc : exist w c = true) : NbrTo g (s i) id c b ↔ exist w b = true ∧ Linked g H b c := by
  obtain ⟨r, h1, -, h3⟩ := h.neighborsTo hw hH hc
  rw [← h3]
  constructor
  · rintro ⟨l, off, e1, e2⟩
    rw [h1] at e1
    injection e1 with e1
    subst e1
    obtain ⟨x, hx, e⟩ := List.mem_map.1 e2
    injection e with e
    subst e
    exact hx
  · intro e
    exact ⟨_, _, h1, List.mem_map.2 ⟨b, e, rfl⟩⟩

theorem nbrOf_none {p : Proc n D W} {c b : Nat} (hH : hoodFor g p id = none) : ¬ NbrOf g p id c b := by
  rintro ⟨l, off, h, -⟩
  unfold getNeighborsOf at h
  rw [hH] at h
  split at h <;> cases h

theorem nbrTo_none {p : Proc n D W} {c b : Nat} (hH : hoodFor g p id = none) : ¬ NbrTo g p id c b := by
  rintro ⟨l, off, h, -⟩
  unfold getNeighborsTo at h
  rw [hH] at h
  split at h <;> cases h

end

/-! ## C33, C36 -/

theorem Inv.copies (hw : g.WF) (hi : Inv g w s) {res : Fin n → Bool × Proc n D W}
    (hu : updateRemote g maxTag id s = .ok res) (i j : Fin n) {c b : Nat} (hc : (s i).owner c = some i)
    (hb : NbrOf g (s i) id c b) (hj : (s i).owner b = some j) (hij : j ≠ i) :
    access (res i).2 b = (s j).data b ∧ access (res i).2 b = access (s j) b ∧ (access (s j) b).isSome = true := by
  obtain ⟨-, h2, h3, -, h5⟩ := updateRemote_sound hw hi hu
  obtain ⟨H, hH⟩ := h5 i
  rw [hi.sys.owner] at hc hj
  have hr := h3 i H j b hH hij hj ⟨c, hc, ((hi.nbrOf_iff hw hH (exist_of hc)).1 hb).2⟩
  have hd : (s i).data b = none := by
    apply Option.not_isSome_iff_eq_none.1
    rw [hi.sys.placed i b, hj]
    intro e; injection e with e; exact hij e
  have hs := (hi.sys.placed j b).2 hj
  obtain ⟨v, hv⟩ := Option.isSome_iff_exists.1 hs
  have h1 : access (res i).2 b = some v := by
    have hd' : (res i).2.data b = none := by rw [h2 i]; exact hd
    unfold access
    rw [hd', hr, hv]
  have h2 : access (s j) b = some v := by
    unfold access
    rw [hv]
  rw [h1, h2, hv]
  exact ⟨rfl, rfl, rfl⟩

/-- C33: after an update of remote neighbors every process has the data of owner for every remote neighbor of
its cells and nothing else has changed. -/
theorem C33_copies (hw : g.WF) (h : Reachable g dflt maxTag s) {res : Fin n → Bool × Proc n D W}
    (hu : updateRemote g maxTag id s = .ok res) (i j : Fin n) {c b : Nat} (hc : (s i).owner c = some i)
    (hb : NbrOf g (s i) id c b) (hj : (s i).owner b = some j) (hij : j ≠ i) :
    access (res i).2 b = (s j).data b ∧ access (res i).2 b = access (s j) b ∧ (access (s j) b).isSome = true := by
  obtain ⟨w, hi⟩ := h.inv hw (by have := i.2; omega)
  exact hi.copies hw hu i j hc hb hj hij

/-- C33: nothing else changes in an update: owners, data of local cells, requests and copies of
other cells. -/
theorem C33_rest (hw : g.WF) (h : Reachable g dflt maxTag s) {res : Fin n → Bool × Proc n D W}
    (hu : updateRemote g maxTag id s = .ok res) (i : Fin n) :
    (res i).2 = { s i with remote := (res i).2.remote } ∧
    ∀ b, ((s i).owner b = some i ∨ ¬ ∃ c, (s i).owner c = some i ∧ NbrOf g (s i) id c b) →
      access (res i).2 b = access (s i) b := by
  obtain ⟨w, hi⟩ := h.inv hw (by have := i.2; omega)
  obtain ⟨-, h2, -, h4, h5⟩ := updateRemote_sound hw hi hu
  refine ⟨h2 i, fun b hb => ?_⟩
  obtain ⟨H, hH⟩ := h5 i
  have hr : (res i).2.remote b = (s i).remote b := by
    apply h4 i H b hH
    cases hx : w b with
    | none => exact Or.inr (Or.inr rfl)
    | some j =>
      rcases hb with hb | hb
      · rw [hi.sys.owner, hx] at hb; exact Or.inr (Or.inl hb)
      · refine Or.inl ?_
        rintro ⟨c, hc, hl⟩
        exact hb ⟨c, by rw [hi.sys.owner]; exact hc, (hi.nbrOf_iff hw hH (exist_of hc)).2 ⟨exist_of hx, hl⟩⟩
  rw [h2 i]
  unfold access
  simp only [hr]

/-- C33: updates always succeed when the neighborhood exists, for any limit on tags of messages with which the grid
could be created. -/
theorem C33_update_succeeds (hw : g.WF) (hn : 0 < n) (h : Reachable g dflt maxTag s)
    (hk : ∀ i, (hoodFor g (s i) id).isSome = true) : ∃ res, updateRemote g maxTag id s = .ok res :=
  h.update_ok hw hn hk

/-- C36, what holds: a successful update with a neighborhood added by the user returns true. -/
theorem C36_true_partial (hw : g.WF) (h : Reachable g dflt maxTag s) {res : Fin n → Bool × Proc n D W}
    (hu : updateRemote g maxTag id s = .ok res) (hid : id ≠ defaultId) (i : Fin n) : (res i).1 = true := by
  obtain ⟨w, hi⟩ := h.inv hw (by have := i.2; omega)
  obtain ⟨h1, -, -, -, h5⟩ := updateRemote_sound hw hi hu
  obtain ⟨H, hH⟩ := h5 i
  unfold hoodFor at hH
  rw [if_neg hid] at hH
  rw [h1 i, hH]
  rfl

theorem default_lookup (hw : g.WF) (h : Reachable g dflt maxTag s) (i : Fin n) :
    (s i).hoods.lookup defaultId = none := by
  have hn : 0 < n := by have := i.2; omega
  induction h generalizing i with
  | @init D dflt maxTag s hs =>
    have hM : maxTag ≤ max maxTag g.last := Nat.le_max_left _ _
    have hM' : g.last ≤ max maxTag g.last := Nat.le_max_right _ _
    obtain ⟨s', h1, h2, h3⟩ := createGrid_spec (W := W) hw hn dflt
      (fitsTags_mono hM' (fitsTags_last (createLevel0_tiled hw hn).valid))
    rw [createGrid_mono hM hs] at h1
    injection h1 with h1
    subst h1
    rw [(h3 i).2.1]; rfl
  | copy _ ih => exact ih i
  | @step D dflt maxTag s s' op hr ho hs ih =>
    obtain ⟨w, hi⟩ := hr.inv hw hn
    cases op with
    | addHood a items =>
      obtain ⟨r, h1, h2⟩ := Out.bind_inv hs
      injection h2 with h2; subst h2
      obtain ⟨h3, h4, h5⟩ := addHood_inv (b := (r i).1) (p' := (r i).2) (Out.collect_inv h1 i)
      show ((r i).2).hoods.lookup _ = none
      cases hb : (r i).1 with
      | false => rw [h4 hb]; exact ih i
      | true =>
        rw [h5 hb]
        show List.lookup _ ((a, items) :: _) = none
        rw [List.lookup_cons, ih i]
        have : (defaultId == a) = false := by
          rw [beq_eq_false_iff_ne]; exact fun e => (h3.1 hb).1 e.symm
        rw [this]
    | removeHood a =>
      injection hs with hs; subst hs
      show ((removeHood (s i) a).hoods).lookup _ = none
      unfold removeHood
      split
      · exact ih i
      · have key : ∀ l : List (Int × List (V3 Int)), l.lookup defaultId = none →
            (l.filter fun h => h.1 != a).lookup defaultId = none := by
          intro l hl
          rw [List.lookup_eq_none_iff] at hl ⊢
          exact fun x hx => hl x (List.mem_filter.1 hx).1
        exact key _ (ih i)
    | stop sorted =>
      obtain ⟨r, h1, h2⟩ := Out.bind_inv hs
      injection h2 with h2; subst h2
      have h3 := (stopRefining_sound hw hi.sys.core hi.req h1).1
      show ((r i).1).hoods.lookup _ = none
      rw [(h3.exec i).hoods]; exact ih i
    | balance z =>
      have hz := ho i
      rw [hi.sys.owner] at hz
      rw [(balanceLoad_sound hw hz hi.sys hs i).hoods]; exact ih i
    | update a =>
      obtain ⟨r, h1, h2⟩ := Out.bind_inv hs
      injection h2 with h2; subst h2
      show ((r i).2).hoods.lookup _ = none
      rw [(updateRemote_sound hw hi h1).2.1 i]; exact ih i
    | refine j c => obtain ⟨x, h1, h2⟩ := Out.bind_inv hs; injection h2 with h2; subst h2; unfold Sys.set; split <;> (try subst j) <;> exact ih _
    | unrefine j c => obtain ⟨x, h1, h2⟩ := Out.bind_inv hs; injection h2 with h2; subst h2; unfold Sys.set; split <;> (try subst j) <;> exact ih _
    | dontRefine j c => obtain ⟨x, h1, h2⟩ := Out.bind_inv hs; injection h2 with h2; subst h2; unfold Sys.set; split <;> (try subst j) <;> exact ih _
    | dontUnrefine j c => obtain ⟨x, h1, h2⟩ := Out.bind_inv hs; injection h2 with h2; subst h2; unfold Sys.set; split <;> (try subst j) <;> exact ih _
    | pin j c q =>
      injection hs with hs; subst hs; unfold Sys.set; split
      · subst i; rw [((hi.local j).pin c q).hoods]; exact ih j
      · exact ih i
    | unpin j c =>
      injection hs with hs; subst hs; unfold Sys.set; split
      · subst i; rw [((hi.local j).unpin c).hoods]; exact ih j
      · exact ih i
    | unpinLocal j =>
      injection hs with hs; subst hs; unfold Sys.set; split
      · subst i; rw [((hi.local j).unpinLocal).hoods]; exact ih j
      · exact ih i
    | setWeight j c x =>
      injection hs with hs; subst hs; unfold Sys.set; split
      · subst i; rw [((hi.local j).setWeight c x).hoods]; exact ih j
      · exact ih i
    | write j c v =>
      injection hs with hs; subst hs; unfold Sys.set; split
      · subst i; rw [((hi.local j).write c v).hoods]; exact ih j
      · exact ih i
    | clearRefined j =>
      injection hs with hs; subst hs; unfold Sys.set; split
      · subst i; exact ih j
      · exact ih i
    | unpinAll => injection hs with hs; subst hs; exact ih i

/-- C36 is false of the code for the default neighborhood: an update always returns false. -/
theorem C36_false (hw : g.WF) (h : Reachable g dflt maxTag s) {res : Fin n → Bool × Proc n D W}
    (hu : updateRemote g maxTag defaultId s = .ok res) (i : Fin n) : (res i).1 = false := by
  obtain ⟨w, hi⟩ := h.inv hw (by have := i.2; omega)
  rw [(updateRemote_sound hw hi hu).1 i, default_lookup hw h i]
  rfl

/-! ## C34 -/

/-- C34: what a process sends to another is what the other receives from it, in the same order i.e. with same
tags, each cell once. Cells are those that are considered neighbors by cells of the other process. -/
theorem C34_lists (hw : g.WF) (h : Reachable g dflt maxTag s) (p q : Fin n) {H : List (V3 Int)}
    (hH : hoodFor g (s p) id = some H) :
    hoodFor g (s q) id = some H ∧
    sendList g H p (s p).owner (s p).has q = recvList g H q (s q).owner (s q).has p ∧
    (sendList g H p (s p).owner (s p).has q).Nodup ∧
    ∀ c, c ∈ sendList g H p (s p).owner (s p).has q ↔ p ≠ q ∧ (s p).owner c = some p ∧
      ∃ b, (s q).owner b = some q ∧ NbrOf g (s q) id b c := by
  obtain ⟨w, hi⟩ := h.inv hw (by have := p.2; omega)
  have hq : hoodFor g (s q) id = some H := (hoodFor_agree hi q p id).trans hH
  have hsub := hoodFor_sub hi hH
  refine ⟨hq, ?_, sendList_nodup, ?_⟩
  · rw [hi.sys.owner, hi.sys.owner]
    exact (lists_match hw hi.sys.tiled hi.sys.balanced hsub (has := fun i => (s i).has) hi.sys.placed).eq p q
  · intro c
    rw [hi.sys.owner, hi.sys.owner, mem_sendList hw hi.sys.tiled hi.sys.balanced hsub (has := (s p).has) (hi.sys.placed p)]
    constructor
    · rintro ⟨h1, h2, b, h3, h4⟩
      exact ⟨h1, h2, b, h3, (hi.nbrOf_iff hw hq (exist_of h3)).2 ⟨exist_of h2, h4⟩⟩
    · rintro ⟨h1, h2, b, h3, h4⟩
      exact ⟨h1, h2, b, h3, ((hi.nbrOf_iff hw hq (exist_of h3)).1 h4).2⟩

/-! ## C35 -/

theorem mem_sortIf {b : Bool} {l : List Nat} {c : Nat} : c ∈ sortIf b l ↔ c ∈ l := by
  unfold sortIf; split
  · exact mem_isort
  · exact Iff.rfl

theorem nodup_sortIf {b : Bool} {l : List Nat} (h : l.Nodup) : (sortIf b l).Nodup := by
  unfold sortIf; split
  · exact (isort_perm _).nodup_iff.2 h
  · exact h

theorem sorted_sortIf {l : List Nat} : (sortIf true l).Pairwise (· ≤ ·) := isort_sorted l

theorem ids_nodup (g : Cfg) : (ids g).Nodup := by unfold ids; exact List.nodup_range

theorem Inv.boundary_outer (hw : g.WF) (hi : Inv g w s) (i : Fin n) (sorted : Bool) :
    (getLocalBoundary g i (s i) id sorted).Nodup ∧
    (sorted = true → (getLocalBoundary g i (s i) id sorted).Pairwise (· ≤ ·)) ∧
    ∀ c, c ∈ getLocalBoundary g i (s i) id sorted ↔ (s i).owner c = some i ∧
      ∃ b j, (s i).owner b = some j ∧ j ≠ i ∧ (NbrOf g (s i) id c b ∨ NbrTo g (s i) id c b) := by
  unfold getLocalBoundary
  cases hH : hoodFor g (s i) id with
  | none =>
    refine ⟨List.nodup_nil, fun _ => .nil, fun c => ⟨fun h => (by cases h), ?_⟩⟩
    rintro ⟨-, b, j, -, -, h | h⟩
    · exact (nbrOf_none hH h).elim
    · exact (nbrTo_none hH h).elim
  | some H =>
    refine ⟨nodup_sortIf (List.Pairwise.filter _ (ids_nodup g)), fun e => by rw [e]; exact sorted_sortIf, fun c => ?_⟩
    rw [mem_sortIf, hi.sys.owner,
      mem_localBoundaryH' hw hi.sys.tiled hi.sys.balanced (hoodFor_sub hi hH) (has := (s i).has) (hi.sys.placed i)]
    constructor
    · rintro ⟨h1, b, j, h2, h3, h4⟩
      refine ⟨h1, b, j, h2, h3, h4.imp (fun h => ?_) (fun h => ?_)⟩
      · exact (hi.nbrOf_iff hw hH (exist_of h1)).2 ⟨exist_of h2, h⟩
      · exact (hi.nbrTo_iff hw hH (exist_of h1)).2 ⟨exist_of h2, h⟩
    · rintro ⟨h1, b, j, h2, h3, h4⟩
      refine ⟨h1, b, j, h2, h3, h4.imp (fun h => ?_) (fun h => ?_)⟩
      · exact ((hi.nbrOf_iff hw hH (exist_of h1)).1 h).2
      · exact ((hi.nbrTo_iff hw hH (exist_of h1)).1 h).2

/-- C35: outer cells are the local cells with a neighbor on another process, each once. -/
theorem C35_outer (hw : g.WF) (h : Reachable g dflt maxTag s) (i : Fin n) (sorted : Bool) :
    (getLocalBoundary g i (s i) id sorted).Nodup ∧
    (sorted = true → (getLocalBoundary g i (s i) id sorted).Pairwise (· ≤ ·)) ∧
    ∀ c, c ∈ getLocalBoundary g i (s i) id sorted ↔ (s i).owner c = some i ∧
      ∃ b j, (s i).owner b = some j ∧ j ≠ i ∧ (NbrOf g (s i) id c b ∨ NbrTo g (s i) id c b) := by
  obtain ⟨w, hi⟩ := h.inv hw (by have := i.2; omega)
  exact hi.boundary_outer hw i sorted

/-- C35: inner cells are the other local cells. -/
theorem C35_inner (hw : g.WF) (h : Reachable g dflt maxTag s) (i : Fin n) (sorted sorted' : Bool)
    (hid : (hoodFor g (s i) id).isSome = true) :
    (getInner g i (s i) id sorted).Nodup ∧
    (sorted = true → (getInner g i (s i) id sorted).Pairwise (· ≤ ·)) ∧
    ∀ c, c ∈ getInner g i (s i) id sorted ↔ (s i).owner c = some i ∧ c ∉ getLocalBoundary g i (s i) id sorted' := by
  obtain ⟨w, hi⟩ := h.inv hw (by have := i.2; omega)
  obtain ⟨H, hH⟩ := Option.isSome_iff_exists.1 hid
  unfold getInner getLocalBoundary
  rw [hH]
  refine ⟨nodup_sortIf (List.Pairwise.filter _ (ids_nodup g)), fun e => by rw [e]; exact sorted_sortIf, fun c => ?_⟩
  show c ∈ sortIf _ _ ↔ _ ∧ c ∉ sortIf _ _
  rw [mem_sortIf, mem_sortIf, List.mem_filter, mem_ids, Bool.and_eq_true, Bool.not_eq_true', List.contains_eq_mem,
    decide_eq_false_iff_not, hi.sys.owner]
  show _ ∧ ((s i).data c).isSome = true ∧ _ ↔ _
  rw [hi.sys.placed i c]
  exact ⟨fun h => h.2, fun h => ⟨(hi.sys.tiled.valid c (exist_of h.1)).2, h⟩⟩

theorem Inv.boundary_remote (hw : g.WF) (hi : Inv g w s) (i : Fin n) (sorted : Bool) :
    (getRemoteBoundary g i (s i) id sorted).Nodup ∧
    (sorted = true → (getRemoteBoundary g i (s i) id sorted).Pairwise (· ≤ ·)) ∧
    ∀ b, b ∈ getRemoteBoundary g i (s i) id sorted ↔ (∃ j, (s i).owner b = some j ∧ j ≠ i) ∧
      ∃ c, (s i).owner c = some i ∧ (NbrOf g (s i) id c b ∨ NbrTo g (s i) id c b) := by
  unfold getRemoteBoundary
  cases hH : hoodFor g (s i) id with
  | none =>
    refine ⟨List.nodup_nil, fun _ => .nil, fun c => ⟨fun h => (by cases h), ?_⟩⟩
    rintro ⟨-, c, -, h | h⟩
    · exact (nbrOf_none hH h).elim
    · exact (nbrTo_none hH h).elim
  | some H =>
    refine ⟨nodup_sortIf (nodup_dedup _), fun e => by rw [e]; exact sorted_sortIf, fun b => ?_⟩
    show b ∈ sortIf _ _ ↔ _
    rw [mem_sortIf, mem_dedup, hi.sys.owner,
      mem_remoteBoundaryH hw hi.sys.tiled hi.sys.balanced (hoodFor_sub hi hH) (has := (s i).has) (hi.sys.placed i)]
    constructor
    · rintro ⟨⟨j, h1, h2⟩, c, h3, h4⟩
      refine ⟨⟨j, h1, h2⟩, c, h3, h4.imp (fun h => ?_) (fun h => ?_)⟩
      · exact (hi.nbrOf_iff hw hH (exist_of h3)).2 ⟨exist_of h1, h⟩
      · exact (hi.nbrTo_iff hw hH (exist_of h3)).2 ⟨exist_of h1, h⟩
    · rintro ⟨⟨j, h1, h2⟩, c, h3, h4⟩
      refine ⟨⟨j, h1, h2⟩, c, h3, h4.imp (fun h => ?_) (fun h => ?_)⟩
      · exact ((hi.nbrOf_iff hw hH (exist_of h3)).1 h).2
      · exact ((hi.nbrTo_iff hw hH (exist_of h3)).1 h).2

/-- C35: remote cells on the boundary are the cells of other processes which have a local cell as neighbor or are
neighbors of a local cell, each once. -/
theorem C35_remote (hw : g.WF) (h : Reachable g dflt maxTag s) (i : Fin n) (sorted : Bool) :
    (getRemoteBoundary g i (s i) id sorted).Nodup ∧
    (sorted = true → (getRemoteBoundary g i (s i) id sorted).Pairwise (· ≤ ·)) ∧
    ∀ b, b ∈ getRemoteBoundary g i (s i) id sorted ↔ (∃ j, (s i).owner b = some j ∧ j ≠ i) ∧
      ∃ c, (s i).owner c = some i ∧ (NbrOf g (s i) id c b ∨ NbrTo g (s i) id c b) := by
  obtain ⟨w, hi⟩ := h.inv hw (by have := i.2; omega)
  exact hi.boundary_remote hw i sorted

/-! ## C40 -/

/-- What is allowed as an item of a neighborhood: not zero and within the default neighborhood. -/
def ItemAllowed (g : Cfg) (o : V3 Int) : Prop :=
  if g.hood = 0 then (∃ d, (o d = 1 ∨ o d = -1) ∧ ∀ e, e ≠ d → o e = 0)
  else (∃ d, o d ≠ 0) ∧ ∀ d, -(g.hood : Int) ≤ o d ∧ o d ≤ g.hood

theorem itemAllowed_iff {o : V3 Int} : ItemAllowed g o ↔ o ∈ hoodOf g := by
  unfold ItemAllowed
  by_cases h0 : g.hood = 0
  · rw [if_pos h0, hoodOf_zero h0, faces_mem]
    constructor
    · rintro ⟨d, h1, h2⟩
      refine ⟨d, decide (o d = 1), funext fun e => ?_⟩
      unfold unitItem setD
      by_cases he : e = d
      · subst he
        rcases h1 with h1 | h1 <;> simp [h1]
      · simp [he, h2 e he]
    · rintro ⟨d, pos, rfl⟩
      refine ⟨d, ?_, fun e he => by simp [unitItem, setD, he]⟩
      cases pos <;> simp [unitItem, setD]
  · rw [if_neg h0, mem_hoodOf h0]
    constructor
    · rintro ⟨⟨d, hd⟩, h⟩
      exact ⟨h, fun e => hd (by rw [e])⟩
    · rintro ⟨h1, h2⟩
      refine ⟨?_, h1⟩
      apply Classical.byContradiction
      intro h3
      exact h2 (funext fun d => Classical.byContradiction fun h4 => h3 ⟨d, h4⟩)

/-- C40: `add_neighborhood` succeeds if and only if the id is free and all items are allowed, otherwise it has no
effect. It changes neither cells nor their data. The id of the default neighborhood is never free. -/
theorem C40_add (hw : g.WF) (h : Reachable g dflt maxTag s) {items : List (V3 Int)} {i : Fin n} {b : Bool}
    {p' : Proc n D W} (ha : addHood g dflt maxTag i (s i) id items = .ok (b, p')) :
    (b = true ↔ hoodFor g (s i) id = none ∧ ∀ o ∈ items, ItemAllowed g o) ∧
    (b = false → p' = s i) ∧
    (b = true → p' = { s i with hoods := p'.hoods } ∧ hoodFor g p' id = some items ∧
      ∀ id', id' ≠ id → hoodFor g p' id' = hoodFor g (s i) id') := by
  obtain ⟨h1, h2, h3⟩ := addHood_inv ha
  refine ⟨?_, h2, ?_⟩
  · rw [h1]
    unfold hoodFor
    constructor
    · rintro ⟨e1, e2, e3⟩
      rw [if_neg e1]
      exact ⟨e2, fun o ho => itemAllowed_iff.2 (e3 o ho)⟩
    · rintro ⟨e1, e2⟩
      split at e1
      · cases e1
      · rename_i e0
        exact ⟨e0, e1, fun o ho => itemAllowed_iff.1 (e2 o ho)⟩
  · intro hb
    obtain ⟨e1, e2, -⟩ := h1.1 hb
    have hp := h3 hb
    have hrem : p'.remote = (s i).remote := by
      rw [hp]
      funext c
      show (if c ∈ remoteBoundary g i _ _ then _ else _) = _
      split
      · rename_i hc
        obtain ⟨v, hv⟩ := Option.isSome_iff_exists.1 ((h.fresh hw i).copies c hc)
        rw [hv]; rfl
      · rfl
    refine ⟨?_, ?_, fun id' hid => ?_⟩
    · rw [hp] at hrem ⊢
      simp only at hrem ⊢
      rw [hrem]
    · unfold hoodFor
      rw [if_neg e1, hp]
      show List.lookup id ((id, items) :: _) = _
      rw [List.lookup_cons, beq_self_eq_true]
    · unfold hoodFor
      split
      · rfl
      · rw [hp]
        show List.lookup id' ((id, items) :: _) = _
        rw [List.lookup_cons, beq_eq_false_iff_ne.2 hid]

/-- C40: all processes give the same answer. -/
theorem C40_agree (hw : g.WF) (h : Reachable g dflt maxTag s) {items : List (V3 Int)} {i j : Fin n} {b b' : Bool}
    {p p' : Proc n D W} (h1 : addHood g dflt maxTag i (s i) id items = .ok (b, p))
    (h2 : addHood g dflt maxTag j (s j) id items = .ok (b', p')) : b = b' := by
  obtain ⟨w, hi⟩ := h.inv hw (by have := i.2; omega)
  rw [Bool.eq_iff_iff, (C40_add hw h h1).1, (C40_add hw h h2).1, hoodFor_agree hi i j]

/-- C40: neighbors of every existing cell with given items are those which belong to items, in order of
items; they are also neighbors of the cell in the default neighborhood, and lists of neighbors exist for all
neighborhoods. -/
theorem C40_neighbors (hw : g.WF) (h : Reachable g dflt maxTag s) {i : Fin n} {items : List (V3 Int)}
    (hH : hoodFor g (s i) id = some items) {c : Nat} (hc : exist (s i).owner c = true) :
    (∃ f : V3 Int → List (Nat × V3 Int), getNeighborsOf g (s i) c id = some (items.flatMap f) ∧
      ∀ o ∈ items, IsItem g (exist (s i).owner) c o (f o)) ∧
    (∀ b, NbrOf g (s i) id c b ↔ exist (s i).owner b = true ∧ ∃ o ∈ items, Meets g c o b) ∧
    (∀ b, NbrTo g (s i) id c b ↔ exist (s i).owner b = true ∧ ∃ o ∈ items, Meets g b o c) ∧
    (∀ b, NbrOf g (s i) id c b → NbrOf g (s i) defaultId c b) ∧
    (∀ b, NbrTo g (s i) id c b → NbrTo g (s i) defaultId c b) := by
  obtain ⟨w, hi⟩ := h.inv hw (by have := i.2; omega)
  rw [hi.sys.owner] at hc ⊢
  have hd : hoodFor g (s i) defaultId = some (hoodOf g) := if_pos rfl
  obtain ⟨f, h1, h2, -⟩ := hi.neighborsOf hw hH hc
  refine ⟨⟨f, h1, h2⟩, fun b => hi.nbrOf_iff hw hH hc, fun b => hi.nbrTo_iff hw hH hc, fun b hb => ?_, fun b hb => ?_⟩
  · obtain ⟨e, o, ho, hm⟩ := (hi.nbrOf_iff hw hH hc).1 hb
    exact (hi.nbrOf_iff hw hd hc).2 ⟨e, o, hoodFor_sub hi hH o ho, hm⟩
  · obtain ⟨e, o, ho, hm⟩ := (hi.nbrTo_iff hw hH hc).1 hb
    exact (hi.nbrTo_iff hw hd hc).2 ⟨e, o, hoodFor_sub hi hH o ho, hm⟩

/-- C40: removing a neighborhood frees its id, lists of neighbors are not available any more, other neighborhoods stay.
The default neighborhood cannot be removed. -/
theorem C40_remove (g : Cfg) (p : Proc n D W) (id : Int) :
    (id ≠ defaultId → hoodFor g (removeHood p id) id = none ∧
      ∀ c, getNeighborsOf g (removeHood p id) c id = none ∧ getNeighborsTo g (removeHood p id) c id = none) ∧
    (∀ id', id' ≠ id ∨ id = defaultId → hoodFor g (removeHood p id) id' = hoodFor g p id' ∧
      ∀ c, getNeighborsOf g (removeHood p id) c id' = getNeighborsOf g p c id' ∧
        getNeighborsTo g (removeHood p id) c id' = getNeighborsTo g p c id') ∧
    removeHood p id = { p with hoods := (removeHood p id).hoods } := by
  have ho : (removeHood p id).owner = p.owner := by unfold removeHood; split <;> rfl
  refine ⟨fun hid => ?_, fun id' hid => ?_, ?_⟩
  · have h1 : hoodFor g (removeHood p id) id = none := by
      unfold hoodFor removeHood
      rw [if_neg hid, if_neg hid, List.lookup_eq_none_iff]
      intro x hx
      have := (List.mem_filter.1 hx).2
      rw [bne_iff_ne]
      simp only [bne_iff_ne] at this
      exact fun e => this e.symm
    refine ⟨h1, fun c => ?_⟩
    unfold getNeighborsOf getNeighborsTo
    rw [h1]
    constructor <;> split <;> rfl
  · have h1 : hoodFor g (removeHood p id) id' = hoodFor g p id' := by
      unfold hoodFor
      split
      · rfl
      · rename_i h0
        unfold removeHood
        split
        · rfl
        · rename_i h2
          have hne : id' ≠ id := hid.resolve_right h2
          have : ∀ l : List (Int × List (V3 Int)), (l.filter fun h => h.1 != id).lookup id' = l.lookup id' := by
            intro l
            induction l with
            | nil => rfl
            | cons a l ih =>
              rw [List.filter_cons]
              split
              · rw [List.lookup_cons, List.lookup_cons, ih]
              · rename_i hx
                have hx : a.1 = id := by simpa using hx
                rw [List.lookup_cons, hx, beq_eq_false_iff_ne.2 hne]
                exact ih
          exact this _
    refine ⟨h1, fun c => ?_⟩
    unfold getNeighborsOf getNeighborsTo
    rw [h1, ho]
    exact ⟨rfl, rfl⟩
  · unfold removeHood
    split <;> rfl

/-- After removal the same id can be given to a new neighborhood. -/
theorem C40_again (hw : g.WF) (h : Reachable g dflt maxTag s) {i : Fin n} (hid : id ≠ defaultId) {items : List (V3 Int)}
    (hI : ∀ o ∈ items, ItemAllowed g o) {b : Bool} {p' : Proc n D W}
    (ha : addHood g dflt maxTag i (removeHood (s i) id) id items = .ok (b, p')) : b = true := by
  have h' : Reachable g dflt maxTag (fun i => removeHood (s i) id) := .step (.removeHood id) h trivial rfl
  exact (C40_add hw h' (i := i) ha).1.2 ⟨((C40_remove g (s i) id).1 hid).1, hI⟩

/-! ## Demo -/

theorem tiny_linked : Linked tinyG (hoodOf tinyG) 1 2 ∧ Linked tinyG (hoodOf tinyG) 2 1 :=
  ⟨⟨v3 1 0 0, by decide, v3 4 0 0, by decide, by decide, by decide⟩,
    ⟨v3 (-1) 0 0, by decide, v3 3 0 0, by decide, by decide, by decide⟩⟩

/-- Process 1 writes to its cell 2, after the update process 0 sees the new value. -/
example : ∃ (s s1 : Sys 2 Nat Nat) (res : Fin 2 → Bool × Proc 2 Nat Nat), Reachable tinyG 0 146 s ∧
    step tinyG 0 146 s (.write 1 2 7) = .ok s1 ∧ updateRemote tinyG 146 defaultId s1 = .ok res ∧
    (s1 0).owner 1 = some 0 ∧ NbrOf tinyG (s1 0) defaultId 1 2 ∧ (s1 0).owner 2 = some 1 ∧
    access (res 0).2 2 = some 7 := by
  obtain ⟨s, h1, h2, h3, -, -, -, h4, h5⟩ := tiny_init
  have hst : step tinyG 0 146 s (.write 1 2 7) = .ok (s.set 1 (write (s 1) 2 7)) := rfl
  have hr := Reachable.step (.write 1 2 7) h2 trivial hst
  have hi : Inv tinyG (createLevel0 2 2).2 (s.set 1 (write (s 1) 2 7)) := h3.set ((h3.local 1).write 2 7)
  obtain ⟨res, hres⟩ := C33_update_succeeds (id := defaultId) tiny_wf (by omega) hr (fun i => by unfold hoodFor; rw [if_pos rfl]; rfl)
  have ho : ∀ i, (s.set 1 (write (s 1) 2 7) i).owner = (createLevel0 2 2).2 := hi.sys.owner
  have hn : NbrOf tinyG (s.set 1 (write (s 1) 2 7) 0) defaultId 1 2 :=
    (hi.nbrOf_iff tiny_wf (if_pos rfl) (exist_of h4)).2 ⟨exist_of h5, tiny_linked.1⟩
  have hc := C33_copies tiny_wf hr hres 0 1 (c := 1) (b := 2) (by rw [ho]; exact h4) hn (by rw [ho]; exact h5) (by decide)
  refine ⟨s, _, res, h2, hst, hres, by rw [ho]; exact h4, hn, by rw [ho]; exact h5, ?_⟩
  rw [hc.1, Sys.set_same]
  have := (h3.sys.placed 1 2).2 h5
  unfold write
  rw [if_pos this]
  rfl

/-- Both cells are on the boundary between processes, in the default neighborhood. -/
example : ∃ s : Sys 2 Nat Nat, Reachable tinyG 0 146 s ∧ 1 ∈ getLocalBoundary tinyG 0 (s 0) defaultId true ∧
    2 ∈ getRemoteBoundary tinyG 0 (s 0) defaultId true ∧ 1 ∉ getInner tinyG 0 (s 0) defaultId true := by
  obtain ⟨s, h1, h2, h3, -, -, -, h4, h5⟩ := tiny_init
  have ho : ∀ i, (s i).owner = (createLevel0 2 2).2 := h3.sys.owner
  have hn : NbrOf tinyG (s 0) defaultId 1 2 :=
    (h3.nbrOf_iff tiny_wf (if_pos rfl) (exist_of h4)).2 ⟨exist_of h5, tiny_linked.1⟩
  have hl : 1 ∈ getLocalBoundary tinyG 0 (s 0) defaultId true :=
    ((C35_outer tiny_wf h2 0 true).2.2 1).2 ⟨by rw [ho]; exact h4, 2, 1, by rw [ho]; exact h5, by decide, Or.inl hn⟩
  refine ⟨s, h2, hl, ?_, ?_⟩
  · exact ((C35_remote tiny_wf h2 0 true).2.2 2).2 ⟨⟨1, by rw [ho]; exact h5, by decide⟩, 1, by rw [ho]; exact h4, Or.inl hn⟩
  · intro h
    exact (((C35_inner tiny_wf h2 0 true true (by unfold hoodFor; rw [if_pos rfl]; rfl)).2.2 1).1 h).2 hl

/-- A neighborhood is added: cell 2 has cell 1 on its negative side, but cell 1 does not consider cell 2 as
a neighbor. -/
example : ∃ s s1 : Sys 2 Nat Nat, Reachable tinyG 0 146 s ∧ hoodFor tinyG (s 0) 5 = none ∧
    (∀ o ∈ [v3 (-1) 0 0], ItemAllowed tinyG o) ∧ step tinyG 0 146 s (.addHood 5 [v3 (-1) 0 0]) = .ok s1 ∧
    Reachable tinyG 0 146 s1 ∧ NbrOf tinyG (s1 0) 5 2 1 ∧ ¬ NbrOf tinyG (s1 0) 5 1 2 ∧
    ∃ res, updateRemote tinyG 146 5 s1 = .ok res ∧ (res 0).1 = true := by
  obtain ⟨s, h1, h2, h3, -, h6, -, h4, h5⟩ := tiny_init
  obtain ⟨s1, e1, e2⟩ := tiny_step h2 (.addHood 5 [v3 (-1) 0 0]) trivial trivial
  have hI : ∀ o ∈ [v3 (-1) 0 0], ItemAllowed tinyG o := by
    intro o ho
    rw [itemAllowed_iff]
    rw [List.mem_singleton.1 ho]; decide
  have h0 : ∀ i, hoodFor tinyG (s i) 5 = none := by
    intro i
    unfold hoodFor
    rw [if_neg (by decide), h6]; rfl
  obtain ⟨r, e3, e4⟩ := Out.bind_inv e1
  injection e4 with e4
  have hx := fun i => C40_add (b := (r i).1) (p' := (r i).2) tiny_wf h2 (Out.collect_inv e3 i)
  have hy := fun i => (hx i).2.2 ((hx i).1.2 ⟨h0 i, hI⟩)
  have hs : ∀ i, s1 i = (r i).2 := fun i => by rw [← e4]
  have ho : ∀ i, (s1 i).owner = (createLevel0 2 2).2 := by
    intro i; rw [hs, (hy i).1]; exact h3.sys.owner i
  have hH : ∀ i, hoodFor tinyG (s1 i) 5 = some [v3 (-1) 0 0] := fun i => by rw [hs]; exact (hy i).2.1
  obtain ⟨res, hres⟩ := C33_update_succeeds (id := 5) tiny_wf (by omega) e2 (fun i => by rw [hH]; rfl)
  refine ⟨s, s1, h2, h0 0, hI, e1, e2, ?_, ?_, res, hres, C36_true_partial tiny_wf e2 hres (by decide) 0⟩
  · rw [(C40_neighbors tiny_wf e2 (hH 0) (by rw [ho]; exact exist_of h5)).2.1, ho]
    exact ⟨exist_of h4, _, List.mem_singleton.2 rfl, v3 3 0 0, by decide, by decide, by decide⟩
  · rw [(C40_neighbors tiny_wf e2 (hH 0) (by rw [ho]; exact exist_of h4)).2.1, ho]
    rintro ⟨-, o, hm, q, hq1, hq2, hq3⟩
    rw [List.mem_singleton.1 hm] at hq1
    have a1 : (tinyG.idx 1 0 : Int) + v3 (-1) 0 0 (0 : Fin 3) * (tinyG.side 1 : Int) ≤ q 0 ∧
        q 0 < (tinyG.idx 1 0 : Int) + v3 (-1) 0 0 (0 : Fin 3) * (tinyG.side 1 : Int) + tinyG.side 1 := hq1 0
    have a2 := hq2 0
    have e1 : (tinyG.idx 1 0 : Int) = 0 := by decide
    have e2 : tinyG.side 1 = 4 := by decide
    have e3 : tinyG.periodic 0 = false := by decide
    rw [e1, e2] at a1
    rw [e3] at a2
    rcases a2 with a2 | a2
    · cases a2
    · have : v3 (-1) 0 0 (0 : Fin 3) = (-1 : Int) := rfl
      simp only [this] at a1
      omega

/-- The default neighborhood: updates return false. -/
example : ∃ (s : Sys 2 Nat Nat) (res : Fin 2 → Bool × Proc 2 Nat Nat), Reachable tinyG 0 146 s ∧
    updateRemote tinyG 146 defaultId s = .ok res ∧ (res 0).1 = false := by
  obtain ⟨s, h1, h2, -⟩ := tiny_init
  obtain ⟨res, hres⟩ := C33_update_succeeds (id := defaultId) tiny_wf (by omega) h2 (fun i => by unfold hoodFor; rw [if_pos rfl]; rfl)
  exact ⟨s, res, h2, hres, C36_false tiny_wf h2 hres 0⟩

end Dccrg
