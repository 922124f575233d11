import Verif.Lists
import Verif.Props.Halo
import Verif.Props.RefineData
/-!
# C68 - C71: lists of all and of removed cells, counts of updates, requests at coordinates
-/
namespace Dccrg
open Cfg
variable {n : Nat} {D W : Type} {g : Cfg} {w : Owner n} {s s' : Sys n D W} {dflt : D} {maxTag : Nat}

/-! ## C68 -/

/-- C68: `get_all_cells` returns exactly the existing cells, local or not, each once, in order of id if requested, and
the sorted list is the same on all processes. -/
theorem C68_all_cells (hw : g.WF) (h : Reachable g dflt maxTag s) (i : Fin n) (sorted : Bool) :
    (getAllCells g (s i) sorted).Nodup ∧
    (sorted = true → (getAllCells g (s i) sorted).Pairwise (· < ·)) ∧
    (∀ c, c ∈ getAllCells g (s i) sorted ↔ ∃ j, (s i).owner c = some j) ∧
    ∀ j, getAllCells g (s j) true = getAllCells g (s i) true := by
  obtain ⟨w, hi⟩ := h.inv hw (by have := i.2; omega)
  have hn : ∀ b, (getAllCells g (s i) b).Nodup := fun b => nodup_sortIf (List.Pairwise.filter _ (ids_nodup g))
  refine ⟨hn _, fun e => ?_, fun c => ?_, fun j => ?_⟩
  · subst e
    have h1 : (getAllCells g (s i) true).Pairwise (· ≤ ·) := sorted_sortIf
    exact h1.imp₂ (fun a b h2 h3 => Nat.lt_of_le_of_ne h2 h3) (hn true)
  · unfold getAllCells
    rw [mem_sortIf, List.mem_filter, Bool.and_eq_true, hi.sys.owner, mem_ids, exist_iff, beq_iff_eq]
    constructor
    · exact fun h => h.2.1
    · rintro ⟨j, hj⟩
      have hv := hi.sys.tiled.valid c (exist_of hj)
      refine ⟨hv.2, ⟨j, hj⟩, ?_⟩
      have := hv.1
      exact (hi.sys.tiled.getChild_eq_iff hw (by omega)).2 (exist_of hj)
  · unfold getAllCells
    rw [hi.sys.owner, hi.sys.owner]

example : ∃ s : Sys 2 Nat Nat, tinyG.WF ∧ Reachable tinyG 0 146 s ∧
    1 ∈ getAllCells tinyG (s 0) true ∧ 2 ∈ getAllCells tinyG (s 0) true ∧ 3 ∉ getAllCells tinyG (s 0) true := by
  obtain ⟨s, -, h2, h3, -, -, -, h4, h5⟩ := tiny_init
  have ho : ∀ i, (s i).owner = (createLevel0 2 2).2 := h3.sys.owner
  have key := (C68_all_cells tiny_wf h2 0 true).2.2.1
  refine ⟨s, tiny_wf, h2, ?_, ?_, ?_⟩
  · rw [key, ho]; exact ⟨_, h4⟩
  · rw [key, ho]; exact ⟨_, h5⟩
  · rw [key, ho]
    rintro ⟨j, hj⟩
    revert hj
    have : (createLevel0 2 2).2 3 = none := by decide
    rw [this]
    exact fun h => by cases h

/-! ## C69 -/

/-- C69: after `stop_refining`, `get_removed_cells` returns exactly the cells that were removed by unrefinement and whose
parent is a cell of the process, each once, in order of id if requested. -/
theorem C69_removed_cells {sorted : Bool} {res : Fin n → Proc n D W × List Nat} (hw : g.WF)
    (h : Reachable g dflt maxTag s) (hr : stopRefining g dflt maxTag sorted s = .ok res) (i : Fin n) (b : Bool) :
    (getRemovedCells g (res i).1 b).Nodup ∧
    (b = true → (getRemovedCells g (res i).1 b).Pairwise (· < ·)) ∧
    ∀ c, c ∈ getRemovedCells g (res i).1 b ↔ exist (s i).owner c = true ∧ exist (res i).1.owner c = false ∧
      (res i).1.owner (g.parent c) = some i := by
  have hn : ∀ b, (getRemovedCells g (res i).1 b).Nodup :=
    fun b => nodup_sortIf (List.Pairwise.filter _ (ids_nodup g))
  refine ⟨hn _, fun e => ?_, fun c => ?_⟩
  · subst e
    have h1 : (getRemovedCells g (res i).1 true).Pairwise (· ≤ ·) := sorted_sortIf
    exact h1.imp₂ (fun a b h2 h3 => Nat.lt_of_le_of_ne h2 h3) (hn true)
  · obtain ⟨w, R, U, hi, hp, hx, h1, h2, -, hs'⟩ := h.stopped hw hr i
    have ht := hi.sys.tiled
    have ht' := hs'.tiled
    unfold getRemovedCells
    rw [mem_sortIf, List.mem_filter, mem_ids, hi.sys.owner, (hx i).owner]
    constructor
    · rintro ⟨-, e⟩
      have hF : Fam g U c ∧ newOwner g w R U (g.parent c) = some i := by
        apply Classical.byContradiction
        intro hno
        rw [(hx i).unrefinedOnly c hno] at e
        cases e
      obtain ⟨f1, -, -, -⟩ := hp.fam_exist hw ht hF.1
      refine ⟨f1, ?_, hF.2⟩
      unfold exist
      rw [newOwner_gone hw ht hp (.inr hF.1)]
      rfl
    · rintro ⟨e1, e2, e3⟩
      have hv := ht.valid c e1
      have h0 : 0 < g.lvl c := by
        apply Nat.pos_of_ne_zero
        intro h0
        have : g.parent c = c := by unfold Cfg.parent; rw [if_pos h0]
        rw [this] at e3
        rw [exist_of e3] at e2
        cases e2
      have hC : Coarser g (exist (res i).1.owner) c := by
        refine ⟨g.parent c, g.idx c, ?_, mem_parent hw hv (mem_self c), mem_self c, ?_⟩
        · rw [(hx i).owner]; exact exist_of e3
        · rw [lvl_parent hw hv]; omega
      have hF := (h2 i c e1).1 hC
      obtain ⟨j, hj⟩ := exist_iff.1 e1
      refine ⟨hv.2, ?_⟩
      rw [(hx i).unrefinedData c j hF hj e3]
      exact (hi.sys.placed j c).2 hj

/-- Operations after which a process has the same removed cells. -/
def Op.KeepsRemoved (i : Fin n) : Op n D W → Prop
  | .stop _ => False
  | .balance _ => False
  | .clearRefined j => j ≠ i
  | _ => True

theorem Op.KeepsRemoved.quiet {i : Fin n} {op : Op n D W} (h : op.KeepsRemoved i) : op.Quiet := by
  cases op <;> first | trivial | cases h

theorem write_unrefined (p : Proc n D W) (x c : Nat) (v : D) :
    ((write p x v).unrefinedData c).isSome = (p.unrefinedData c).isSome := by
  unfold write
  split
  · rfl
  · split
    · rfl
    · split
      · rfl
      · split
        · rename_i h
          show (if c = x then some v else p.unrefinedData c).isSome = _
          split
          · rename_i e; subst e; exact h.symm
          · rfl
        · rfl

theorem step_removed (hw : g.WF) (hi : Inv g w s) {i : Fin n} (op : Op n D W) (hk : op.KeepsRemoved i)
    (h : step g dflt maxTag s op = .ok s') (c : Nat) :
    ((s' i).unrefinedData c).isSome = ((s i).unrefinedData c).isSome := by
  have hset : ∀ j (p : Proc n D W), (j = i → (p.unrefinedData c).isSome = ((s j).unrefinedData c).isSome) →
      ((s.set j p i).unrefinedData c).isSome = ((s i).unrefinedData c).isSome := by
    intro j p hp
    unfold Sys.set
    split
    · rename_i e; subst e; exact hp rfl
    · rfl
  have hask : ∀ j (o : Out (Bool × Req)), s.ask j o = .ok s' →
      ((s' i).unrefinedData c).isSome = ((s i).unrefinedData c).isSome := by
    intro j o ho
    obtain ⟨b, r, -, rfl⟩ := ask_inv ho
    exact hset j _ fun _ => rfl
  cases op with
  | refine j x => exact hask j _ h
  | unrefine j x => exact hask j _ h
  | dontRefine j x => exact hask j _ h
  | dontUnrefine j x => exact hask j _ h
  | pin j x q =>
    injection h with h; subst h
    exact hset j _ fun _ => by rw [(pin_data (g := g) j (s j) x c q).2.2.2]
  | unpin j x =>
    injection h with h; subst h
    exact hset j _ fun _ => by rw [(unpin_data (g := g) j (s j) x c).2.2.2]
  | unpinLocal j =>
    injection h with h; subst h
    exact hset j _ fun _ => by rw [(unpinLocal_data (g := g) j (s j) c).2.2.2]
  | setWeight j x v =>
    injection h with h; subst h
    refine hset j _ fun _ => ?_
    unfold setWeight
    split <;> rfl
  | write j x v =>
    injection h with h; subst h
    exact hset j _ fun _ => write_unrefined _ x c v
  | clearRefined j => injection h with h; subst h; exact hset j _ fun e => absurd e hk
  | unpinAll => injection h with h; subst h; rfl
  | update id =>
    obtain ⟨r, h1, h2⟩ := Out.bind_inv h
    injection h2 with h2; subst h2
    obtain ⟨-, e2, -⟩ := updateRemote_sound hw hi h1
    show ((r i).2.unrefinedData c).isSome = _
    rw [e2 i]
  | addHood id items =>
    obtain ⟨r, h1, h2⟩ := Out.bind_inv h
    injection h2 with h2; subst h2
    have h3 := addHood_inv (b := (r i).1) (p' := (r i).2) (Out.collect_inv h1 i)
    show ((r i).2.unrefinedData c).isSome = _
    cases hb : (r i).1 with
    | false => rw [h3.2.1 hb]
    | true => rw [h3.2.2 hb]
  | removeHood id =>
    injection h with h; subst h
    show ((removeHood (s i) id).unrefinedData c).isSome = _
    unfold removeHood
    split <;> rfl
  | stop => cases hk
  | balance => cases hk

/-- C69: the list of removed cells remains the same until `stop_refining`, load balancing or
`clear_refined_unrefined_data` of the process. -/
theorem C69_kept (hw : g.WF) (h : Reachable g dflt maxTag s) {i : Fin n} (b : Bool)
    (hs : Runs g dflt maxTag (Op.KeepsRemoved i) s s') :
    getRemovedCells g (s' i) b = getRemovedCells g (s i) b := by
  suffices Reachable g dflt maxTag s' ∧
      ∀ c, ((s' i).unrefinedData c).isSome = ((s i).unrefinedData c).isSome by
    unfold getRemovedCells
    simp only [this.2]
  induction hs with
  | refl => exact ⟨h, fun _ => rfl⟩
  | step op _ hk ho h1 ih =>
    obtain ⟨w', hi'⟩ := ih.1.inv hw (by have := i.2; omega)
    exact ⟨.step op ih.1 ho h1, fun c => (step_removed hw hi' op hk h1 c).trans (ih.2 c)⟩

/-- C69: no removed cells after `clear_refined_unrefined_data`, after load balancing or in a copy. -/
theorem C69_gone (hw : g.WF) (h : Reachable g dflt maxTag s) (i : Fin n) (b : Bool) :
    (∀ s', step g dflt maxTag s (.clearRefined i) = .ok s' → getRemovedCells g (s' i) b = []) ∧
    (∀ z s', (∀ j, MovesOk (s j).owner z) → step g dflt maxTag s (.balance z) = .ok s' →
      getRemovedCells g (s' i) b = []) ∧
    (∀ {D' : Type} (d' : D') (i : Fin n), getRemovedCells g (copyProc g d' i (s i)) b = []) := by
  have key : ∀ {D : Type} (p : Proc n D W), (∀ c, p.unrefinedData c = none) → getRemovedCells g p b = [] := by
    intro D p hp
    unfold getRemovedCells
    have : (ids g).filter (fun c => (p.unrefinedData c).isSome) = [] := by
      rw [List.filter_eq_nil_iff]
      intro c _
      rw [hp c]; simp
    rw [this]
    cases b <;> rfl
  refine ⟨fun s' hs => ?_, fun z s' hz hs => ?_, fun {D'} d' i => key _ fun _ => rfl⟩
  · injection hs with hs; subst hs
    apply key
    intro c
    rw [Sys.set_same]; rfl
  · obtain ⟨w, hi⟩ := h.inv hw (by have := i.2; omega)
    exact key _ (balanceLoad_sound hw (by have := hz i; rwa [hi.sys.owner] at this) hi.sys hs i).unrefinedData

/-- Children of cell 1 are unrefined: some process has removed cell 3. -/
example : ∃ (s : Sys 2 Nat Nat) (res : Fin 2 → Proc 2 Nat Nat × List Nat) (i : Fin 2),
    tinyG.WF ∧ Reachable tinyG 0 146 s ∧ stopRefining tinyG 0 146 true s = .ok res ∧
    3 ∈ getRemovedCells tinyG (res i).1 true := by
  obtain ⟨s, res, h1, h2, h3, h4, h5⟩ := tiny_coarser
  obtain ⟨f1, -⟩ := (C27_owners tiny_wf h1 h2 0 h3).2
  obtain ⟨w, R, U, hi, hp, hx, -, -, -, hs'⟩ := h1.stopped tiny_wf h2 0
  have e1 := f1 h4 3 (by decide) (by decide)
  rw [h5] at e1
  obtain ⟨i, hi3⟩ := exist_iff.1 h3
  rw [hi3] at e1
  have e2 : exist (res 0).1.owner 3 = false := by
    cases he : exist (res 0).1.owner 3 with
    | false => rfl
    | true =>
      rw [(hx 0).owner] at he e1
      have := hs'.tiled.unique (tinyG.idx 3) 1 3 (exist_of e1) he (by decide) (mem_self 3)
      cases this
  refine ⟨s, res, i, tiny_wf, h1, h2, ((C69_removed_cells tiny_wf h1 h2 i true).2.2 3).2 ⟨?_, ?_, ?_⟩⟩
  · rw [hi.sys.owner, ← hi.sys.owner 0]; exact h3
  · rw [(hx i).owner, ← (hx 0).owner]; exact e2
  · rw [(hx i).owner, ← (hx 0).owner, h5]; exact e1

/-- Pinning and updates keep the list, clearing ends it. -/
example : ∃ s s' : Sys 2 Nat Nat, Reachable tinyG 0 146 s ∧ Runs tinyG 0 146 (Op.KeepsRemoved 0) s s' := by
  obtain ⟨s, res, -, -, -, h1, h2⟩ := tiny_refined
  obtain ⟨s', h3, -⟩ := tiny_step h1 (.update defaultId) trivial (by intro i; unfold hoodFor; rw [if_pos rfl]; rfl)
  exact ⟨_, s', h1, .step (.update defaultId) (.refl _) trivial trivial h3⟩

/-! ## C70 -/

theorem sum_map_eq {α : Type} {l : List α} {f f' : α → Nat} (h : ∀ a ∈ l, f a = f' a) :
    (l.map f).sum = (l.map f').sum := by
  rw [List.map_congr_left h]

theorem sum_map_add {α : Type} (l : List α) (f f' : α → Nat) :
    (l.map fun a => f a + f' a).sum = (l.map f).sum + (l.map f').sum := by
  induction l with
  | nil => rfl
  | cons a l ih => simp only [List.map_cons, List.sum_cons, ih]; omega

theorem sum_swap {α β : Type} (l : List α) (m : List β) (f : α → β → Nat) :
    (l.map fun a => (m.map fun b => f a b).sum).sum = (m.map fun b => (l.map fun a => f a b).sum).sum := by
  induction l with
  | nil =>
    simp only [List.map_nil, List.sum_nil]
    induction m with
    | nil => rfl
    | cons b m ih => simp only [List.map_cons, List.sum_cons]; omega
  | cons a l ih =>
    simp only [List.map_cons, List.sum_cons, ih]
    rw [← sum_map_add]

theorem length_flatMap_sum {α β : Type} (l : List α) (f : α → List β) :
    (l.flatMap f).length = (l.map fun a => (f a).length).sum := by
  induction l with
  | nil => rfl
  | cons a l ih => rw [List.flatMap_cons, List.length_append, ih]; rfl

theorem nodup_flatMap_of {α β : Type} {l : List α} {f : α → List β} (hl : l.Nodup) (hf : ∀ a ∈ l, (f a).Nodup)
    (hd : ∀ a ∈ l, ∀ b ∈ l, ∀ x, x ∈ f a → x ∈ f b → a = b) : (l.flatMap f).Nodup := by
  induction l with
  | nil => exact List.nodup_nil
  | cons a l ih =>
    rw [List.flatMap_cons, List.nodup_append]
    refine ⟨hf a (.head _), ih (List.nodup_cons.1 hl).2 (fun b hb => hf b (.tail _ hb))
      (fun b hb c hc => hd b (.tail _ hb) c (.tail _ hc)), ?_⟩
    rintro x hx y hy rfl
    obtain ⟨b, hb, hxb⟩ := List.mem_flatMap.1 hy
    have := hd a (.head _) b (.tail _ hb) x hx hxb
    subst this
    exact (List.nodup_cons.1 hl).1 hb

/-- C70: `get_number_of_update_receive_cells` is the number of cells of other processes that are neighbors of cells of
the process; both counts are the largest number for an unknown neighborhood. -/
theorem C70_receive (hw : g.WF) (h : Reachable g dflt maxTag s) (i : Fin n) (id : Int) :
    (hoodFor g (s i) id = none → recvCount g i (s i) id = 2 ^ 64 - 1 ∧ sendCount g i (s i) id = 2 ^ 64 - 1) ∧
    ((hoodFor g (s i) id).isSome = true → ∃ L : List Nat, L.Nodup ∧ recvCount g i (s i) id = L.length ∧
      ∀ b, b ∈ L ↔ ∃ c j, (s i).owner b = some j ∧ j ≠ i ∧ (s i).owner c = some i ∧ NbrOf g (s i) id c b) := by
  obtain ⟨w, hi⟩ := h.inv hw (by have := i.2; omega)
  refine ⟨fun e => ?_, fun e => ?_⟩
  · unfold recvCount sendCount
    rw [e]
    exact ⟨rfl, rfl⟩
  · obtain ⟨H, hH⟩ := Option.isSome_iff_exists.1 e
    have hsub := hoodFor_sub hi hH
    have hm : ∀ q b, b ∈ recvList g H i (s i).owner (s i).has q ↔
        q ≠ i ∧ w b = some q ∧ ∃ c, w c = some i ∧ Linked g H c b := by
      intro q b
      rw [hi.sys.owner]
      exact mem_recvList hw hi.sys.tiled hi.sys.balanced hsub (hi.sys.placed i)
    refine ⟨(List.finRange n).flatMap fun q => recvList g H i (s i).owner (s i).has q, ?_, ?_, fun b => ?_⟩
    · refine nodup_flatMap_of (List.nodup_finRange n) (fun q _ => recvList_nodup) ?_
      intro p _ q _ x hp hq
      have h1 := ((hm _ _).1 hp).2.1
      rw [((hm _ _).1 hq).2.1] at h1
      exact (Option.some.inj h1).symm
    · unfold recvCount
      rw [hH, length_flatMap_sum]
    · simp only [List.mem_flatMap, List.mem_finRange, true_and, hm]
      rw [hi.sys.owner]
      constructor
      · rintro ⟨q, h1, h2, c, h3, h4⟩
        exact ⟨c, q, h2, h1, h3, (hi.nbrOf_iff hw hH (exist_of h3)).2 ⟨exist_of h2, h4⟩⟩
      · rintro ⟨c, q, h2, h1, h3, h4⟩
        exact ⟨q, h1, h2, c, h3, ((hi.nbrOf_iff hw hH (exist_of h3)).1 h4).2⟩

/-- C70: `get_number_of_update_send_cells` is the number of pairs of a cell of the process and another process with a
cell whose neighbor the cell is. -/
theorem C70_send (hw : g.WF) (h : Reachable g dflt maxTag s) (i : Fin n) (id : Int)
    (hid : (hoodFor g (s i) id).isSome = true) : ∃ L : List (Nat × Fin n), L.Nodup ∧
      sendCount g i (s i) id = L.length ∧
      ∀ c q, (c, q) ∈ L ↔ q ≠ i ∧ (s i).owner c = some i ∧ ∃ b, (s q).owner b = some q ∧ NbrOf g (s q) id b c := by
  obtain ⟨H, hH⟩ := Option.isSome_iff_exists.1 hid
  refine ⟨(List.finRange n).flatMap fun q => (sendList g H i (s i).owner (s i).has q).map fun c => (c, q), ?_, ?_, ?_⟩
  · refine nodup_flatMap_of (List.nodup_finRange n) (fun q _ => ?_) ?_
    · refine List.Pairwise.map _ ?_ sendList_nodup
      intro a b hab e
      injection e with e1 e2
      exact hab e1
    · intro p _ q _ x hp hq
      obtain ⟨a, -, ha⟩ := List.mem_map.1 hp
      obtain ⟨b, -, hb⟩ := List.mem_map.1 hq
      rw [← ha] at hb
      injection hb with e1 e2
      exact e2.symm
  · unfold sendCount
    rw [hH, length_flatMap_sum]
    simp only [List.length_map]
  · intro c q
    have h4 := (C34_lists hw h i q hH).2.2.2 c
    simp only [List.mem_flatMap, List.mem_finRange, true_and, List.mem_map]
    constructor
    · rintro ⟨q', a, h1, h2⟩
      injection h2 with e1 e2
      subst e1; subst e2
      obtain ⟨e1, e2⟩ := h4.1 h1
      exact ⟨fun e => e1 e.symm, e2⟩
    · rintro ⟨h1, h2⟩
      exact ⟨q, c, h4.2 ⟨fun e => h1 e.symm, h2⟩, rfl⟩

/-- C70: processes send as many cells in total as they receive. -/
theorem C70_total (hw : g.WF) (h : Reachable g dflt maxTag s) (id : Int)
    (hid : ∀ i, (hoodFor g (s i) id).isSome = true) :
    ((List.finRange n).map fun i => sendCount g i (s i) id).sum =
      ((List.finRange n).map fun i => recvCount g i (s i) id).sum := by
  by_cases hn : 0 < n
  · obtain ⟨H, hH⟩ := Option.isSome_iff_exists.1 (hid ⟨0, hn⟩)
    have hall : ∀ i, hoodFor g (s i) id = some H := fun i => (C34_lists hw h ⟨0, hn⟩ i hH).1
    unfold sendCount recvCount
    simp only [hall]
    rw [sum_swap]
    refine sum_map_eq fun q _ => sum_map_eq fun p _ => ?_
    rw [(C34_lists hw h p q (hall p)).2.1]
  · have : n = 0 := by omega
    subst this
    rfl

/-- Process 0 receives one cell, number 2. -/
example : ∃ s : Sys 2 Nat Nat, tinyG.WF ∧ Reachable tinyG 0 146 s ∧ recvCount tinyG 0 (s 0) defaultId = 1 ∧
    ∀ i, (hoodFor tinyG (s i) defaultId).isSome = true := by
  obtain ⟨s, -, h2, h3, -, -, -, h4, h5⟩ := tiny_init
  have ho : ∀ i, (s i).owner = (createLevel0 2 2).2 := h3.sys.owner
  have hd : ∀ i, hoodFor tinyG (s i) defaultId = some (hoodOf tinyG) := fun i => if_pos rfl
  obtain ⟨L, l1, l2, l3⟩ := (C70_receive tiny_wf h2 0 defaultId).2 (by rw [hd]; rfl)
  have hL : ∀ b, b ∈ L ↔ b = 2 := by
    intro b
    rw [l3]
    constructor
    · rintro ⟨c, j, e1, e2, e3, e4⟩
      rw [ho] at e1
      have hv := h3.sys.tiled.valid b (exist_of e1)
      have hj : j = 1 := by omega
      subst hj
      have h6 : ∀ b ∈ List.range 147, (createLevel0 2 2).2 b = some 1 → b = 2 := by decide +kernel
      have := tiny_last
      exact h6 b (List.mem_range.2 (by have := hv.2; omega)) e1
    · rintro rfl
      refine ⟨1, 1, by rw [ho]; exact h5, by decide, by rw [ho]; exact h4, ?_⟩
      exact (h3.nbrOf_iff tiny_wf (if_pos rfl) (exist_of h4)).2 ⟨exist_of h5, tiny_linked.1⟩
  refine ⟨s, tiny_wf, h2, ?_, fun i => by rw [hd]; rfl⟩
  rw [l2]
  match L, l1, hL with
  | [], _, hL => exact absurd ((hL 2).2 rfl) (by simp)
  | [a], _, _ => rfl
  | a :: b :: L, l1, hL =>
    have e1 := (hL a).1 (by simp)
    have e2 := (hL b).1 (by simp)
    subst e1; subst e2
    simp at l1

/-! ## C71 -/

section
variable {m : Mapping} {G : Cartesian} {per : V3 Bool} {hood : Nat}

/-- C71: functions that take a coordinate do what those that take a cell do for the existing cell whose box contains the
coordinate. Missing: coordinates at the end of the grid, see `C45_false`. -/
theorem C71_at_coordinate_partial (h : m.OK) (hG : ∀ d, 0 < G.len d) (hs : Reachable (m.grid per hood) dflt maxTag s)
    (i : Fin n) (x : V3 Rat) (hx : ∀ d, G.getStart d ≤ x d ∧ x d < G.getEnd m d) (r : Req) :
    ∃ c, exist (s i).owner c = true ∧ InBoxQ (G.getMin m c) (G.getMax m c) x ∧
      refineAt (m.grid per hood) (exist (s i).owner) (s i).has r (G.getIndices m per (nums x)) =
        refineCompletely (m.grid per hood) (exist (s i).owner) (s i).has r c ∧
      unrefineAt (m.grid per hood) (exist (s i).owner) (s i).has r (G.getIndices m per (nums x)) =
        unrefineCompletely (m.grid per hood) (exist (s i).owner) (s i).has r c ∧
      dontUnrefineAt (m.grid per hood) (exist (s i).owner) r (G.getIndices m per (nums x)) =
        dontUnrefine (m.grid per hood) (exist (s i).owner) r c := by
  obtain ⟨h1, h2⟩ := C45_existing_partial h hG hs i x hx
  obtain ⟨w, hi⟩ := hs.inv (grid_wf h) (by have := i.2; omega)
  have h3 : existingAt (m.grid per hood) (exist (s i).owner) (G.getIndices m per (nums x)) ≠ errorCell := by
    intro e
    rw [e, hi.sys.owner] at h1
    have := (hi.sys.tiled.valid _ h1).1
    exact absurd this (by decide)
  refine ⟨_, h1, h2, ?_, ?_, ?_⟩
  · unfold refineAt; rw [if_neg h3]
  · unfold unrefineAt; rw [if_neg h3]
  · unfold dontUnrefineAt; rw [if_neg h3]

/-- C71: coordinates outside of the grid in a dimension that isn't periodic: false is returned and requests stay as
they were. -/
theorem C71_outside (h : m.OK) (hG : ∀ d, 0 < G.len d) (E has : Nat → Bool) (r : Req) (x : V3 Num) {d : Fin 3}
    (hd : per d = false) {y : Rat} (hx : x d = some y) (hy : y < G.getStart d ∨ G.getEnd m d < y) :
    refineAt (m.grid per hood) E has r (G.getIndices m per x) = .ok (false, r) ∧
    unrefineAt (m.grid per hood) E has r (G.getIndices m per x) = .ok (false, r) ∧
    dontUnrefineAt (m.grid per hood) E r (G.getIndices m per x) = .ok (false, r) := by
  have := C45_existing_outside (hood := hood) h hG E x hd hx hy
  refine ⟨?_, ?_, ?_⟩
  · unfold refineAt; rw [if_pos this]
  · unfold unrefineAt; rw [if_pos this]
  · unfold dontUnrefineAt; rw [if_pos this]
end

example : ∃ s : Sys 2 Nat Nat, tinyM.OK ∧ (∀ d, 0 < tinyCart.len d) ∧
    Reachable (tinyM.grid (v3 false false true) 1) 0 146 s ∧
    (∀ d, tinyCart.getStart d ≤ (v3 2 1 (5 / 8)) d ∧ (v3 (2 : Rat) 1 (5 / 8)) d < tinyCart.getEnd tinyM d) := by
  obtain ⟨s, -, h2, -⟩ := tiny_init
  refine ⟨s, tinyM_ok, tinyCart_ok, h2, ?_⟩
  rw [forall_fin3]; decide +kernel

example : refineAt (tinyM.grid (v3 false false true) 1) (fun c => c == 1 || c == 2) (fun c => c == 1 || c == 2)
    ⟨[], [], [], []⟩ (tinyCart.getIndices tinyM (v3 false false true) (nums (v3 2 1 (5 / 8)))) =
      .ok (true, ⟨[2], [], [], []⟩) := by decide +kernel

end Dccrg
