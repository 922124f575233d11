import Verif.Copies
import Verif.LoadCells
/-!
# Grids without copies of remote neighbors

`start_loading_grid_data` (dccrg.hpp:2058-2069) creates cells of refinement level 0 as `initialize` does but does not
allocate copies of remote neighbors. `noCopies s` is `s` without them. What is done with such a grid is compared to what
is done with `s`.
-/
namespace Dccrg
open Cfg
variable {n : Nat} {D W : Type} {g : Cfg} {dflt : D} {maxTag : Nat} {s : Sys n D W}

/-- No process has copies of remote neighbors. -/
def noCopies (s : Sys n D W) : Sys n D W := fun i => { s i with remote := fun _ => none }

/-- Grid right after `initialize`, except for requests, pins, weights and data of cells of processes. -/
structure Bare (g : Cfg) (dflt : D) (s : Sys n D W) : Prop where
  lvl : ∀ i c, exist (s i).owner c = true → g.lvl c = 0
  hoods : ∀ i, (s i).hoods = []
  remote : ∀ i c, (s i).remote c =
    if c ∈ remoteBoundary g i (s i).owner (fun c => ((s i).data c).isSome) then some dflt else none
  refined : ∀ i c, (s i).refinedData c = none
  unrefined : ∀ i c, (s i).unrefinedData c = none

theorem createGrid_owner (hw : g.WF) (hn : 0 < n) (hs : createGrid g n dflt maxTag = .ok s) (i : Fin n) :
    (s i).owner = (createLevel0 n g.total).2 := by
  obtain ⟨s', h1, h2, -⟩ := createGrid_spec (W := W) hw hn dflt
    (fitsTags_mono (Nat.le_max_right maxTag g.last) (fitsTags_last (createLevel0_tiled hw hn).valid))
  rw [createGrid_mono (Nat.le_max_left maxTag g.last) hs] at h1
  injection h1 with h1
  subst h1
  exact h2.owner i

theorem createGrid_bare (hw : g.WF) (hn : 0 < n) (hs : createGrid g n dflt maxTag = .ok s) : Bare g dflt s := by
  have hM : maxTag ≤ max maxTag g.last := Nat.le_max_left _ _
  have hM' : g.last ≤ max maxTag g.last := Nat.le_max_right _ _
  obtain ⟨s', h1, h2, h3⟩ := createGrid_spec (W := W) hw hn dflt
    (fitsTags_mono hM' (fitsTags_last (createLevel0_tiled hw hn).valid))
  rw [createGrid_mono hM hs] at h1
  injection h1 with h1
  subst h1
  refine ⟨fun i c hc => ?_, fun i => (h3 i).2.1, fun i c => ?_, fun i c => ((h3 i).2.2.2.2 c).1, fun i c => ((h3 i).2.2.2.2 c).2.1⟩
  · rw [h2.owner, createLevel0_exist hn] at hc
    exact (lvl_level0 hc.1 hc.2).2
  · rw [h2.owner]; exact (h3 i).2.2.2.1 c

theorem noCopies_set (s : Sys n D W) (i : Fin n) (p : Proc n D W) :
    noCopies (s.set i p) = (noCopies s).set i { p with remote := fun _ => none } := by
  funext j
  unfold noCopies Sys.set
  split <;> rfl

theorem ask_noCopies (s : Sys n D W) (i : Fin n) (o : Out (Bool × Req)) :
    (noCopies s).ask i o = (s.ask i o).bind fun s' => .ok (noCopies s') := by
  unfold Sys.ask
  cases o with
  | ok x =>
    rw [Out.bind_ok, Out.bind_ok, Out.bind_ok, noCopies_set]
    rfl
  | throws => rfl
  | hangs => rfl
  | undef => rfl

theorem stopRefining_noCopies (b : Bool) (s : Sys n D W) :
    stopRefining g dflt maxTag b (noCopies s) = stopRefining g dflt maxTag b s := rfl

theorem balanceLoad_noCopies (z : Fin n → Moves n) (s : Sys n D W) :
    balanceLoad g dflt maxTag z (noCopies s) = balanceLoad g dflt maxTag z s := rfl

theorem pin_noCopies (i : Fin n) (p : Proc n D W) (r : Nat → Option D) (c : Nat) (q : Int) :
    (pin g i { p with remote := r } c q).2 = { (pin g i p c q).2 with remote := r } := by
  unfold pin
  show (if ownLeaf g i p c = false then _ else _ : Bool × Proc n D W).2 = _
  split
  · rfl
  · split
    · simp only []
      split <;> rfl
    · rfl

theorem unpin_noCopies (i : Fin n) (p : Proc n D W) (r : Nat → Option D) (c : Nat) :
    unpin g i { p with remote := r } c = ((unpin g i p c).1, { (unpin g i p c).2 with remote := r }) := by
  unfold unpin
  show (if ownLeaf g i p c = false then _ else _ : Bool × Proc n D W) = _
  split
  · rfl
  · simp only []
    split <;> rfl

theorem unpinLocal_noCopies (i : Fin n) (p : Proc n D W) (r : Nat → Option D) :
    (unpinLocal g i { p with remote := r }).2 = { (unpinLocal g i p).2 with remote := r } := by
  unfold unpinLocal
  simp only []
  generalize ((ids g).filter fun c => (p.data c).isSome) = l
  suffices ∀ b p, (l.foldl (fun s c => let r := unpin g i s.2 c; (s.1 && r.1, r.2)) (b, { p with remote := r })) =
      ((l.foldl (fun s c => let r := unpin g i s.2 c; (s.1 && r.1, r.2)) (b, p)).1,
        { (l.foldl (fun s c => let r := unpin g i s.2 c; (s.1 && r.1, r.2)) (b, p)).2 with remote := r }) by
    rw [this]
  induction l with
  | nil => exact fun b p => rfl
  | cons a l ih =>
    intro b p
    rw [List.foldl_cons, List.foldl_cons]
    simp only [unpin_noCopies]
    exact ih _ _

theorem setWeight_noCopies (i : Fin n) (p : Proc n D W) (r : Nat → Option D) (c : Nat) (x : W) :
    (setWeight g i { p with remote := r } c x).2 = { (setWeight g i p c x).2 with remote := r } := by
  unfold setWeight
  show (if ownLeaf g i p c = false then _ else _ : Bool × Proc n D W).2 = _
  split <;> rfl

theorem Inv.noCopies {w : Owner n} (h : Inv g w s) : Inv g w (noCopies s) :=
  ⟨⟨h.sys.owner, h.sys.tiled, h.sys.balanced, h.sys.placed, h.sys.pins, h.sys.pinsAgree, h.sys.newPins, h.sys.weights,
    h.sys.hoods⟩, h.req, h.hoods⟩

/-- Cells of the same size are neighbors of each other in the default neighborhood. -/
theorem linked_symm (hw : g.WF) {E : Nat → Bool} (ht : Tiled g E) {a b : Nat} (ha : E a = true) (hb : E b = true)
    (hl : g.lvl a = g.lvl b) (hne : a ≠ b) (h : Linked g (hoodOf g) a b) : Linked g (hoodOf g) b a := by
  have hs : g.side a = g.side b := by rw [side, side, hl]
  have h1 := Near.symm hw (ht.valid a ha) (by omega) ((near_iff hw).2 (Or.inr h))
  rcases (near_iff hw).1 h1 with h2 | h2
  · exfalso
    obtain ⟨q, q1, q2, q3⟩ := h2
    have hq : ∀ d, (g.idx b d : Int) ≤ q d ∧ q d < g.idx b d + g.side b := by
      intro d
      have := q1 d
      simp only [Int.zero_mul, Int.add_zero] at this
      exact this
    have hin := idx_add_side_le hw (ht.valid b hb)
    have : g.Mem (g.wrap q) b := by
      intro d
      have h3 := hq d
      have h4 := hin d
      have h5 := wrap_of_range (g := g) (q := q) (d := d) (by omega)
      omega
    exact hne (ht.unique _ _ _ ha hb q3 this)
  · exact h2

/-- What changes when operations other than these are done: nothing if a neighborhood is not added. -/
def Op.keeps (g : Cfg) (s : Sys n D W) : Op n D W → Prop
  | .addHood id items => ∀ i, id = defaultId ∨ ((s i).hoods.lookup id).isSome = true ∨ items.all (itemOk g) = false
  | .stop _ => False
  | .balance _ => False
  | .update _ => False
  | _ => True

/-- Every operation done without copies gives either the same as with copies, or what is without copies a grid
obtained by the operation, or nothing happens (assignment to a copy that does not exist). -/
theorem step_bare (hw : g.WF) (hr : Reachable g dflt maxTag s) (hb : Bare g dflt s) {op : Op n D W}
    {s1 : Sys n D W} (hs : step g dflt maxTag (noCopies s) op = .ok s1) :
    step g dflt maxTag s op = .ok s1 ∨
    (∃ s', step g dflt maxTag s op = .ok s' ∧ Bare g dflt s' ∧ s1 = noCopies s' ∧ op.keeps g s) ∨
    (s1 = noCopies s ∧ ∃ i c v, op = .write i c v) := by
  -- requests
  have hask : ∀ (i : Fin n) (o : Out (Bool × Req)), (noCopies s).ask i o = .ok s1 →
      ∃ s', s.ask i o = .ok s' ∧ Bare g dflt s' ∧ s1 = noCopies s' := by
    intro i o h
    rw [ask_noCopies] at h
    obtain ⟨s', h1, h2⟩ := Out.bind_inv h
    injection h2 with h2
    refine ⟨s', h1, ?_, h2.symm⟩
    obtain ⟨x, -, h3⟩ := Out.bind_inv h1
    injection h3 with h3
    subst h3
    have e : ∀ j, ((s.set i { s i with req := x.2 }) j) = { s j with req := ((s.set i { s i with req := x.2 }) j).req } := by
      intro j
      unfold Sys.set
      split
      · rename_i e; subst e; rfl
      · rfl
    constructor
    · intro j c; rw [e]; exact hb.lvl j c
    · intro j; rw [e]; exact hb.hoods j
    · intro j c; rw [e]; exact hb.remote j c
    · intro j c; rw [e]; exact hb.refined j c
    · intro j c; rw [e]; exact hb.unrefined j c
  -- one process changes
  have hset : ∀ (i : Fin n) (p' : Proc n D W), p'.owner = (s i).owner → (∀ c, (p'.data c).isSome = ((s i).data c).isSome) →
      p'.hoods = (s i).hoods → p'.remote = (s i).remote → (∀ c, p'.refinedData c = none) → (∀ c, p'.unrefinedData c = none) →
      Bare g dflt (s.set i p') := by
    intro i p' h1 h2 h3 h4 h5 h6
    have e : ∀ j, (s.set i p' j).owner = (s j).owner ∧ (∀ c, ((s.set i p' j).data c).isSome = ((s j).data c).isSome) ∧
        (s.set i p' j).hoods = (s j).hoods ∧ (s.set i p' j).remote = (s j).remote ∧
        (∀ c, (s.set i p' j).refinedData c = none) ∧ (∀ c, (s.set i p' j).unrefinedData c = none) := by
      intro j
      unfold Sys.set
      split
      · rename_i e; subst e; exact ⟨h1, h2, h3, h4, h5, h6⟩
      · exact ⟨rfl, fun _ => rfl, rfl, rfl, hb.refined j, hb.unrefined j⟩
    refine ⟨fun j c => ?_, fun j => ?_, fun j c => ?_, fun j => (e j).2.2.2.2.1, fun j => (e j).2.2.2.2.2⟩
    · rw [(e j).1]; exact hb.lvl j c
    · rw [(e j).2.2.1]; exact hb.hoods j
    · rw [(e j).2.2.2.1, (e j).1]
      simp only [(e j).2.1]
      exact hb.remote j c
  cases op with
  | refine i c => obtain ⟨s', h1, h2, h3⟩ := hask i _ hs; exact Or.inr (Or.inl ⟨s', h1, h2, h3, trivial⟩)
  | unrefine i c => obtain ⟨s', h1, h2, h3⟩ := hask i _ hs; exact Or.inr (Or.inl ⟨s', h1, h2, h3, trivial⟩)
  | dontRefine i c => obtain ⟨s', h1, h2, h3⟩ := hask i _ hs; exact Or.inr (Or.inl ⟨s', h1, h2, h3, trivial⟩)
  | dontUnrefine i c => obtain ⟨s', h1, h2, h3⟩ := hask i _ hs; exact Or.inr (Or.inl ⟨s', h1, h2, h3, trivial⟩)
  | pin i c q =>
    injection hs with hs
    refine Or.inr (Or.inl ⟨_, rfl, ?_, ?_, trivial⟩)
    · refine hset i _ ?_ ?_ ?_ (pin_remote ..) ?_ ?_ <;> unfold Dccrg.pin <;> split <;> (try split) <;> (try split) <;>
        first | rfl | exact fun _ => rfl | exact hb.refined i | exact hb.unrefined i
    · rw [← hs, noCopies_set]
      show (noCopies s).set i (Dccrg.pin g i { s i with remote := fun _ => none } c q).2 = _
      rw [pin_noCopies]
  | unpin i c =>
    injection hs with hs
    refine Or.inr (Or.inl ⟨_, rfl, ?_, ?_, trivial⟩)
    · refine hset i _ ?_ ?_ ?_ (unpin_remote ..) ?_ ?_ <;> unfold Dccrg.unpin <;> split <;> (try split) <;>
        first | rfl | exact fun _ => rfl | exact hb.refined i | exact hb.unrefined i
    · rw [← hs, noCopies_set]
      show (noCopies s).set i (Dccrg.unpin g i { s i with remote := fun _ => none } c).2 = _
      rw [unpin_noCopies]
  | unpinLocal i =>
    injection hs with hs
    refine Or.inr (Or.inl ⟨_, rfl, ?_, ?_, trivial⟩)
    · have key : ∀ (l : List Nat) (b : Bool) (p : Proc n D W),
          ∃ f, (l.foldl (fun s c => let r := Dccrg.unpin g i s.2 c; (s.1 && r.1, r.2)) (b, p)).2 = { p with newPins := f } := by
        intro l
        induction l with
        | nil => exact fun b p => ⟨p.newPins, rfl⟩
        | cons a l ih =>
          intro b p
          rw [List.foldl_cons]
          simp only []
          obtain ⟨f, hf⟩ := ih (b && (Dccrg.unpin g i p a).1) (Dccrg.unpin g i p a).2
          refine ⟨f, hf.trans ?_⟩
          unfold Dccrg.unpin
          split
          · rfl
          · split <;> rfl
      obtain ⟨f, hf⟩ := key ((ids g).filter fun c => ((s i).data c).isSome) true (s i)
      have hf : (Dccrg.unpinLocal g i (s i)).2 = { s i with newPins := f } := hf
      rw [hf]
      exact hset i _ rfl (fun _ => rfl) rfl rfl (hb.refined i) (hb.unrefined i)
    · rw [← hs, noCopies_set]
      show (noCopies s).set i (Dccrg.unpinLocal g i { s i with remote := fun _ => none }).2 = _
      rw [unpinLocal_noCopies]
  | setWeight i c x =>
    injection hs with hs
    refine Or.inr (Or.inl ⟨_, rfl, ?_, ?_, trivial⟩)
    · refine hset i _ ?_ ?_ ?_ (setWeight_remote ..) ?_ ?_ <;> unfold Dccrg.setWeight <;> split <;>
        first | rfl | exact fun _ => rfl | exact hb.refined i | exact hb.unrefined i
    · rw [← hs, noCopies_set]
      show (noCopies s).set i (Dccrg.setWeight g i { s i with remote := fun _ => none } c x).2 = _
      rw [setWeight_noCopies]
  | write i c v =>
    injection hs with hs
    by_cases hd : ((s i).data c).isSome = true
    · refine Or.inr (Or.inl ⟨_, rfl, ?_, ?_, trivial⟩)
      · have e : Dccrg.write (s i) c v = { s i with data := fun x => if x = c then some v else (s i).data x } := by
          unfold Dccrg.write; rw [if_pos hd]
        rw [e]
        refine hset i _ rfl (fun x => ?_) rfl rfl (hb.refined i) (hb.unrefined i)
        show (if x = c then some v else (s i).data x).isSome = _
        split
        · rename_i e; rw [e, hd]; rfl
        · rfl
      · rw [← hs, noCopies_set]
        unfold Dccrg.write
        rw [if_pos (by exact hd), if_pos hd]
        rfl
    · refine Or.inr (Or.inr ⟨?_, i, c, v, rfl⟩)
      rw [← hs]
      have e : Dccrg.write (noCopies s i) c v = noCopies s i := by
        unfold Dccrg.write
        rw [if_neg (by exact hd), if_neg (by show ¬ (none : Option D).isSome = true; simp),
          if_neg (by show ¬ ((s i).refinedData c).isSome = true; rw [hb.refined]; simp),
          if_neg (by show ¬ ((s i).unrefinedData c).isSome = true; rw [hb.unrefined]; simp)]
      rw [e]
      funext j
      unfold Sys.set
      split
      · rename_i e; rw [e]
      · rfl
  | clearRefined i =>
    injection hs with hs
    refine Or.inr (Or.inl ⟨_, rfl, hset i _ rfl (fun _ => rfl) rfl rfl (fun _ => rfl) (fun _ => rfl), ?_, trivial⟩)
    rw [← hs, noCopies_set]
    rfl
  | unpinAll =>
    injection hs with hs
    exact Or.inr (Or.inl ⟨_, rfl, ⟨hb.lvl, hb.hoods, hb.remote, hb.refined, hb.unrefined⟩, hs.symm, trivial⟩)
  | removeHood id =>
    injection hs with hs
    have e : ∀ i, Dccrg.removeHood (s i) id = s i := by
      intro i
      have hh := hb.hoods i
      unfold Dccrg.removeHood
      split
      · rfl
      · rw [hh]
        show { s i with hoods := [] } = s i
        rw [← hh]
    refine Or.inr (Or.inl ⟨_, rfl, ?_, ?_, trivial⟩)
    · simp only [e]; exact hb
    · rw [← hs]
      funext i
      show Dccrg.removeHood (noCopies s i) id = { Dccrg.removeHood (s i) id with remote := fun _ => none }
      unfold Dccrg.removeHood
      split <;> rfl
  | stop z => exact Or.inl hs
  | balance z => exact Or.inl hs
  | addHood id items =>
    obtain ⟨r, h1, h2⟩ := Out.bind_inv hs
    injection h2 with h2
    by_cases hk : ∀ i, id = defaultId ∨ ((s i).hoods.lookup id).isSome = true ∨ items.all (itemOk g) = false
    · have e1 : ∀ (i : Fin n) (p : Proc n D W), p.hoods = (s i).hoods → Dccrg.addHood g dflt maxTag i p id items = .ok (false, p) := by
        intro i p hp
        unfold Dccrg.addHood
        rw [hp]
        rcases hk i with e | e | e
        · rw [if_pos e]
        · by_cases e0 : id = defaultId
          · rw [if_pos e0]
          · rw [if_neg e0, if_pos e]
        · by_cases e0 : id = defaultId
          · rw [if_pos e0]
          · rw [if_neg e0]
            by_cases e2 : ((s i).hoods.lookup id).isSome = true
            · rw [if_pos e2]
            · rw [if_neg e2, if_pos e]
      refine Or.inr (Or.inl ⟨s, ?_, hb, ?_, hk⟩)
      · show (Out.collect fun i => Dccrg.addHood g dflt maxTag i (s i) id items).bind _ = _
        rw [Out.collect_ok (x := fun i => (false, s i)) (fun i => e1 i (s i) rfl), Out.bind_ok]
      · rw [← h2]
        funext i
        have := Out.collect_inv h1 i
        rw [e1 i (noCopies s i) rfl] at this
        injection this with this
        rw [← this]
    · have hk' : ∀ i, ¬ (id = defaultId ∨ ((s i).hoods.lookup id).isSome = true ∨ items.all (itemOk g) = false) := by
        intro i h
        apply hk
        intro j
        rw [hb.hoods] at h ⊢
        exact h
      left
      have e2 : ∀ i, Dccrg.addHood g dflt maxTag i (s i) id items = .ok (r i) := by
        intro i
        have h3 := Out.collect_inv h1 i
        rw [← h3]
        have f1 := fun e => hk' i (Or.inl e)
        have f2 := fun e => hk' i (Or.inr (Or.inl e))
        have f3 := fun e => hk' i (Or.inr (Or.inr e))
        have f4 : ∀ p : Proc n D W, p.hoods = (s i).hoods → Dccrg.addHood g dflt maxTag i p id items =
            if neighborsFound g { p with hoods := [(id, items)] } = false then .throws
            else if tagsFit g maxTag i { p with hoods := [(id, items)] } = false then .throws
            else .ok (true, { p with
              hoods := (id, items) :: p.hoods
              remote := fun c =>
                if c ∈ remoteBoundary g i p.owner (fun c => (p.data c).isSome) then
                  some ((p.remote c).getD dflt) else p.remote c }) := by
          intro p hp
          unfold Dccrg.addHood
          rw [if_neg f1, if_neg (by rw [hp]; exact f2), if_neg f3]
        rw [f4 _ rfl, f4 (noCopies s i) rfl]
        have hrem : (fun c => if c ∈ remoteBoundary g i (s i).owner (fun c => ((s i).data c).isSome) then
              some (((s i).remote c).getD dflt) else (s i).remote c) =
            fun c => if c ∈ remoteBoundary g i (s i).owner (fun c => ((s i).data c).isSome) then
              some ((none : Option D).getD dflt) else none := by
          funext c
          rw [hb.remote]
          split <;> rfl
        rw [hrem]
        rfl
      show (Out.collect fun i => Dccrg.addHood g dflt maxTag i (s i) id items).bind _ = _
      rw [Out.collect_ok e2, Out.bind_ok, h2]
  | update id =>
    left
    by_cases hn : n = 0
    · cases hn
      have : noCopies s = s := funext fun i => i.elim0
      rw [this] at hs; exact hs
    have hn : 0 < n := by omega
    obtain ⟨w, hi⟩ := hr.inv hw hn
    obtain ⟨r, h1, h2⟩ := Out.bind_inv hs
    injection h2 with h2
    obtain ⟨a1, a2, a3, a4, a5⟩ := updateRemote_sound hw hi.noCopies h1
    have hid : id = defaultId := by
      obtain ⟨H, hH⟩ := a5 ⟨0, hn⟩
      unfold hoodFor at hH
      split at hH
      · assumption
      · rw [show (noCopies s ⟨0, hn⟩).hoods = [] from hb.hoods _] at hH; cases hH
    have hH : ∀ i, hoodFor g (s i) id = some (hoodOf g) := by
      intro i; unfold hoodFor; rw [if_pos hid]
    obtain ⟨r', b0⟩ := hr.update_ok hw hn (id := id) (fun i => by rw [hH]; rfl)
    obtain ⟨b1, b2, b3, b4, -⟩ := updateRemote_sound hw hi b0
    have e : r' = r := by
      funext i
      refine Prod.ext ((b1 i).trans (a1 i).symm) ?_
      rw [b2, a2]
      show { s i with remote := (r' i).2.remote } = { s i with remote := (r i).2.remote }
      have : (r' i).2.remote = (r i).2.remote := by
        funext c
        by_cases hc : (∃ p, p ≠ i ∧ w c = some p) ∧ ∃ x, w x = some i ∧ Linked g (hoodOf g) x c
        · obtain ⟨⟨p, p1, p2⟩, hx⟩ := hc
          rw [b3 i _ p c (hH i) p1 p2 hx, a3 i _ p c (hH i) p1 p2 hx]
          rfl
        · have hc' : (¬ ∃ x, w x = some i ∧ Linked g (hoodOf g) x c) ∨ w c = some i ∨ w c = none := by
            by_cases h5 : ∃ x, w x = some i ∧ Linked g (hoodOf g) x c
            · right
              cases hwc : w c with
              | none => exact Or.inr rfl
              | some p =>
                left
                by_cases e : p = i
                · rw [e]
                · exact absurd ⟨⟨p, e, hwc⟩, h5⟩ hc
            · exact Or.inl h5
          rw [b4 i _ c (hH i) hc', a4 i _ c (hH i) hc', hb.remote]
          show _ = none
          rw [if_neg]
          intro hm
          rw [hi.sys.owner, remoteBoundary_eq, mem_remoteBoundaryH hw hi.sys.tiled hi.sys.balanced (fun o h => h) (hi.sys.placed i)] at hm
          obtain ⟨⟨j, j1, j2⟩, x, x1, x2⟩ := hm
          have hl : ∀ y, exist w y = true → g.lvl y = 0 := by
            intro y hy; rw [← hi.sys.owner i] at hy; exact hb.lvl i y hy
          apply hc
          refine ⟨⟨j, j2, j1⟩, x, x1, ?_⟩
          rcases x2 with x2 | x2
          · exact x2
          · refine linked_symm hw hi.sys.tiled (exist_of j1) (exist_of x1) ?_ ?_ x2
            · rw [hl c (exist_of j1), hl x (exist_of x1)]
            · rintro rfl
              rw [x1] at j1; injection j1 with j1; exact j2 j1.symm
      rw [this]
    rw [e] at b0
    show (updateRemote g maxTag id s).bind _ = _
    rw [b0, Out.bind_ok, h2]

/-! ## Loading of cells -/

theorem run_refines_noCopies (l : List (Fin n × Nat)) (s : Sys n D W) :
    run g dflt maxTag (noCopies s) (l.map fun x => Op.refine x.1 x.2) =
      (run g dflt maxTag s (l.map fun x => Op.refine x.1 x.2)).bind fun s' => .ok (noCopies s') := by
  induction l generalizing s with
  | nil => rfl
  | cons x l ih =>
    rw [List.map_cons, run, run]
    have e : step g dflt maxTag (noCopies s) (.refine x.1 x.2) =
        (step g dflt maxTag s (.refine x.1 x.2)).bind fun s' => .ok (noCopies s') := ask_noCopies ..
    rw [e]
    cases step g dflt maxTag s (.refine x.1 x.2) with
    | ok s' => rw [Out.bind_ok, Out.bind_ok, Out.bind_ok]; exact ih s'
    | throws => rfl
    | hangs => rfl
    | undef => rfl

theorem loadLevel_noCopies (par : Fin n → List Nat) (s : Sys n D W) (ops : List (Op n D W)) :
    run g dflt maxTag (noCopies s) (loadLevel par ++ ops) = run g dflt maxTag s (loadLevel par ++ ops) := by
  unfold loadLevel
  have e : ((List.finRange n).flatMap fun i => (par i).map (Op.refine (D := D) (W := W) i)) =
      ((List.finRange n).flatMap fun i => (par i).map fun c => (i, c)).map fun x => Op.refine x.1 x.2 := by
    rw [List.map_flatMap]
    congr 1
    funext i
    rw [List.map_map]
    rfl
  rw [e, List.append_assoc, run_append, run_append, run_refines_noCopies]
  cases run g dflt maxTag s (((List.finRange n).flatMap fun i => (par i).map fun c => (i, c)).map fun x => Op.refine x.1 x.2) with
  | ok s' => rfl
  | throws => rfl
  | hangs => rfl
  | undef => rfl

theorem maxOver_zero {f : Fin n → Nat} (h : ∀ i, f i = 0) : maxOver f = 0 := by
  unfold maxOver
  generalize List.finRange n = l
  induction l with
  | nil => rfl
  | cons a l ih => rw [List.foldl_cons, h a]; exact ih

theorem maxLvlOf_zero {l : List Nat} (h : ∀ c ∈ l, g.lvl c = 0) : maxLvlOf g l = 0 := by
  unfold maxLvlOf
  induction l with
  | nil => rfl
  | cons a l ih =>
    rw [List.foldl_cons, h a (List.mem_cons_self ..)]
    exact ih fun c hc => h c (List.mem_cons_of_mem _ hc)

/-- Lack of copies makes no difference if cells of refinement level above 0 are loaded. -/
theorem loadCells_noCopies {ord : Fin n → List Nat → List Nat} {given : Fin n → List Nat} (s : Sys n D W) :
    (0 < maxOver (fun i => maxLvlOf g (overlappingLocal g i (s i).owner (given i))) ∧
      loadCells g dflt maxTag ord (noCopies s) given = loadCells g dflt maxTag ord s given) ∨
    (maxOver (fun i => maxLvlOf g (overlappingLocal g i (s i).owner (given i))) = 0 ∧
      loadCells g dflt maxTag ord (noCopies s) given = .ok (noCopies s) ∧ loadCells g dflt maxTag ord s given = .ok s) := by
  have e : loadOps g ord (noCopies s) given = loadOps g ord s given := rfl
  unfold loadCells
  rw [e]
  unfold loadOps
  simp only []
  generalize maxOver (fun i => maxLvlOf g (overlappingLocal g i (s i).owner (given i))) = m
  cases m with
  | zero => exact Or.inr ⟨rfl, rfl, rfl⟩
  | succ m =>
    left
    refine ⟨by omega, ?_⟩
    rw [List.range_succ_eq_map, List.flatMap_cons]
    exact loadLevel_noCopies _ _ _

end Dccrg
