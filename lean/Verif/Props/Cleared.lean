import Verif.Props.Lists
/-!
# C28: data of removed cells is available only until it is cleared or load is balanced
-/
namespace Dccrg
open Cfg
variable {n : Nat} {D W : Type} {g : Cfg} {w : Owner n} {s s' : Sys n D W} {dflt : D} {maxTag : Nat}

/-- Data of removed cells is of cells that don't exist and copies of remote cells are of cells that exist. -/
def DataApart (s : Sys n D W) : Prop :=
  ∀ i c, (exist (s i).owner c = true → (s i).refinedData c = none ∧ (s i).unrefinedData c = none) ∧
    (exist (s i).owner c = false → (s i).remote c = none)

theorem write_refined (p : Proc n D W) (x c : Nat) (v : D) :
    ((write p x v).refinedData c).isSome = (p.refinedData c).isSome := by
  unfold write
  split
  · rfl
  · split
    · rfl
    · split
      · rename_i h
        show (if c = x then some v else p.refinedData c).isSome = _
        split
        · rename_i e; subst e; exact h.symm
        · rfl
      · split <;> rfl

theorem write_copies (p : Proc n D W) (x c : Nat) (v : D) :
    ((write p x v).remote c).isSome = (p.remote c).isSome := by
  unfold write
  split
  · rfl
  · split
    · rename_i h
      show (if c = x then some v else p.remote c).isSome = _
      split
      · rename_i e; subst e; exact h.symm
      · rfl
    · split
      · rfl
      · split <;> rfl

theorem none_of_isSome {a b : Option D} (h : a.isSome = b.isSome) (hb : b = none) : a = none := by
  subst hb; cases a with
  | none => rfl
  | some _ => cases h

/-- Operations other than `stop_refining` and load balancing don't make data of removed cells. -/
theorem step_refinedData (hw : g.WF) (hi : Inv g w s) (op : Op n D W) (hq : op.Quiet)
    (h : step g dflt maxTag s op = .ok s') (i : Fin n) (c : Nat) :
    ((s i).refinedData c = none → (s' i).refinedData c = none) ∧
    ((s i).unrefinedData c = none → (s' i).unrefinedData c = none) := by
  have hset : ∀ j (p : Proc n D W),
      (((s j).refinedData c = none → p.refinedData c = none) ∧
        ((s j).unrefinedData c = none → p.unrefinedData c = none)) →
      ((s i).refinedData c = none → (s.set j p i).refinedData c = none) ∧
      ((s i).unrefinedData c = none → (s.set j p i).unrefinedData c = none) := by
    intro j p hp
    unfold Sys.set
    split
    · rename_i e; subst e; exact hp
    · exact ⟨id, id⟩
  have hask : ∀ j (o : Out (Bool × Req)), s.ask j o = .ok s' →
      ((s i).refinedData c = none → (s' i).refinedData c = none) ∧
      ((s i).unrefinedData c = none → (s' i).unrefinedData c = none) := by
    intro j o ho
    obtain ⟨b, r, -, rfl⟩ := ask_inv ho
    exact hset j _ ⟨id, id⟩
  cases op with
  | refine j x => exact hask j _ h
  | unrefine j x => exact hask j _ h
  | dontRefine j x => exact hask j _ h
  | dontUnrefine j x => exact hask j _ h
  | pin j x q =>
    injection h with h; subst h
    obtain ⟨-, -, e1, e2⟩ := pin_data (g := g) j (s j) x c q
    exact hset j _ ⟨e1.trans, e2.trans⟩
  | unpin j x =>
    injection h with h; subst h
    obtain ⟨-, -, e1, e2⟩ := unpin_data (g := g) j (s j) x c
    exact hset j _ ⟨e1.trans, e2.trans⟩
  | unpinLocal j =>
    injection h with h; subst h
    obtain ⟨-, -, e1, e2⟩ := unpinLocal_data (g := g) j (s j) c
    exact hset j _ ⟨e1.trans, e2.trans⟩
  | setWeight j x v =>
    injection h with h; subst h
    refine hset j _ ?_
    unfold setWeight
    split <;> exact ⟨id, id⟩
  | write j x v =>
    injection h with h; subst h
    exact hset j _ ⟨none_of_isSome (write_refined _ x c v), none_of_isSome (write_unrefined _ x c v)⟩
  | clearRefined j => injection h with h; subst h; exact hset j _ ⟨fun _ => rfl, fun _ => rfl⟩
  | unpinAll => injection h with h; subst h; exact ⟨id, id⟩
  | update id =>
    obtain ⟨r, h1, h2⟩ := Out.bind_inv h
    injection h2 with h2; subst h2
    obtain ⟨-, e2, -⟩ := updateRemote_sound hw hi h1
    show (_ → (r i).2.refinedData c = none) ∧ (_ → (r i).2.unrefinedData c = none)
    rw [e2 i]
    exact ⟨fun h => h, fun h => h⟩
  | addHood id items =>
    obtain ⟨r, h1, h2⟩ := Out.bind_inv h
    injection h2 with h2; subst h2
    have h3 := addHood_inv (b := (r i).1) (p' := (r i).2) (Out.collect_inv h1 i)
    show (_ → (r i).2.refinedData c = none) ∧ (_ → (r i).2.unrefinedData c = none)
    cases hb : (r i).1 with
    | false => rw [h3.2.1 hb]; exact ⟨fun h => h, fun h => h⟩
    | true => rw [h3.2.2 hb]; exact ⟨fun h => h, fun h => h⟩
  | removeHood id =>
    injection h with h; subst h
    show (_ → (removeHood (s i) id).refinedData c = none) ∧ (_ → (removeHood (s i) id).unrefinedData c = none)
    unfold removeHood
    split <;> exact ⟨fun h => h, fun h => h⟩
  | stop => cases hq
  | balance => cases hq

/-- Operations other than `stop_refining` and load balancing don't make copies of cells that don't exist. -/
theorem step_copies (hw : g.WF) (hi : Inv g w s) (op : Op n D W) (hq : op.Quiet)
    (h : step g dflt maxTag s op = .ok s') (i : Fin n) {c : Nat} (hc : exist w c = false)
    (hr : (s i).remote c = none) : (s' i).remote c = none := by
  by_cases hk : op.Keeps i c
  · exact (step_keeps hw hi (Or.inr hc) op hk h).2.1.trans hr
  · cases op with
    | write j x v =>
      injection h with h; subst h
      unfold Sys.set
      split
      · rename_i e; subst e; exact none_of_isSome (write_copies _ x c v) hr
      · exact hr
    | clearRefined j =>
      injection h with h; subst h
      unfold Sys.set
      split
      · rename_i e; subst e; exact hr
      · exact hr
    | stop => cases hq
    | balance => cases hq
    | _ => exact absurd trivial hk

theorem boundary_exists (hw : g.WF) {w : Owner n} {i : Fin n} {p : Proc n D W} (ht : Tiled g (exist w))
    (hb : Balanced g (exist w)) (hp : ∀ c, (p.data c).isSome = true ↔ w c = some i) {c : Nat}
    (hr : p.remote c = if c ∈ remoteBoundary g i w (fun c => (p.data c).isSome) then some dflt else none)
    (hc : exist w c = false) : p.remote c = none := by
  rw [hr, if_neg]
  intro hm
  rw [remote_exists hw ht hb hp hm] at hc
  cases hc

theorem Reachable.dataApart (hw : g.WF) (hn : 0 < n) (h : Reachable g dflt maxTag s) : DataApart s := by
  induction h with
  | @init D dflt maxTag s h1 =>
    obtain ⟨s2, h2, h3, h4⟩ := createGrid_spec (W := W) hw hn dflt (maxTag := max maxTag g.last)
      (fitsTags_mono (Nat.le_max_right _ _) (fitsTags_last (createLevel0_tiled hw hn).valid))
    rw [createGrid_mono (Nat.le_max_left maxTag g.last) h1] at h2
    injection h2 with h2
    subst h2
    intro i c
    obtain ⟨-, -, -, h5, h6⟩ := h4 i
    exact ⟨fun _ => ⟨(h6 c).1, (h6 c).2.1⟩, fun hc =>
      boundary_exists hw h3.tiled h3.balanced (h3.placed i) (h5 c) (by rw [h3.owner] at hc; exact hc)⟩
  | @copy D D0 dflt dflt0 maxTag s h1 ih =>
    obtain ⟨w, hi⟩ := h1.inv hw hn
    intro i c
    refine ⟨fun _ => ⟨rfl, rfl⟩, fun hc => ?_⟩
    have hc : exist (s i).owner c = false := hc
    rw [hi.sys.owner] at hc
    refine boundary_exists (dflt := dflt) hw hi.sys.tiled hi.sys.balanced (p := copyProc g dflt i (s i)) (i := i)
      (fun x => ?_) ?_ hc
    · rw [← hi.sys.placed i x]
      show ((s i).data x |>.map fun _ => dflt).isSome = true ↔ _
      rw [Option.isSome_map]
    · show (if _ then _ else _) = _
      rw [hi.sys.owner]
      show (if c ∈ remoteBoundary g i w (fun c => ((s i).data c).isSome) then some dflt else none) =
        if c ∈ remoteBoundary g i w (fun c => (((s i).data c).map fun _ => dflt).isSome) then some dflt else none
      simp only [Option.isSome_map]
  | @step D dflt maxTag s s' op h1 ho h2 ih =>
    obtain ⟨w, hi⟩ := h1.inv hw hn
    by_cases hq : op.Quiet
    · intro i c
      have ho' := (step_quiet op hq h2 i).1
      rw [ho']
      obtain ⟨i1, i2⟩ := ih i c
      have h3 := step_refinedData hw hi op hq h2 i c
      exact ⟨fun hc => ⟨h3.1 (i1 hc).1, h3.2 (i1 hc).2⟩, fun hc =>
        step_copies hw hi op hq h2 i (by rw [← hi.sys.owner i]; exact hc) (i2 hc)⟩
    · cases op with
      | stop b =>
        obtain ⟨res, e1, e2⟩ := Out.bind_inv h2
        injection e2 with e2; subst e2
        intro i c
        obtain ⟨w, R, U, hi, hp, hx, -, -, -, hs'⟩ := h1.stopped hw e1 i
        rw [(hx i).owner]
        refine ⟨fun hc => ?_, fun hc => boundary_exists hw hs'.tiled hs'.balanced (hx i).placed ((hx i).remote c) hc⟩
        have hg : ¬ (R c ∨ Fam g U c) := fun h => by
          unfold exist at hc
          rw [newOwner_gone hw hi.sys.tiled hp h] at hc
          cases hc
        exact ⟨(hx i).refinedOnly c fun h => hg (Or.inl h.1), (hx i).unrefinedOnly c fun h => hg (Or.inr h.1)⟩
      | balance z =>
        intro i c
        have hz : MovesOk w z := by have := ho i; rwa [hi.sys.owner] at this
        have hx := balanceLoad_sound hw hz hi.sys h2 i
        refine ⟨fun _ => ⟨hx.refinedData c, hx.unrefinedData c⟩, fun hc => ?_⟩
        rw [hx.owner] at hc
        have hE : exist (newHome w (pinned w s) z) = exist w := funext fun c => exist_newHome ..
        exact boundary_exists hw (by rw [hE]; exact hi.sys.tiled) (by rw [hE]; exact hi.sys.balanced) hx.placed
          (hx.remote c) hc
      | _ => exact absurd trivial hq

/-- C28: which cells have data on a process: those of the process, copies of other existing cells and, of cells that
don't exist, only the ones refined or unrefined since data of removed cells was cleared. After
`clear_refined_unrefined_data` of a process, after load balancing and in copies of the grid `operator[]` finds no data
for cells that don't exist; clearing changes data of no existing cell and nothing on other processes. -/
theorem C28_cleared (hw : g.WF) (h : Reachable g dflt maxTag s) (i : Fin n) :
    (∀ s', step g dflt maxTag s (.clearRefined i) = .ok s' →
      (∀ c, exist (s i).owner c = false → access (s' i) c = none) ∧
      (∀ c, exist (s i).owner c = true → access (s' i) c = access (s i) c) ∧
      (s' i).owner = (s i).owner ∧ ∀ j, j ≠ i → s' j = s j) ∧
    (∀ z s', (∀ j, MovesOk (s j).owner z) → step g dflt maxTag s (.balance z) = .ok s' →
      ∀ c, exist (s' i).owner c = false → access (s' i) c = none) ∧
    (∀ {D' : Type} (d' : D') (c : Nat), exist (s i).owner c = false → access (copyProc g d' i (s i)) c = none) := by
  have hn : 0 < n := by have := i.2; omega
  obtain ⟨w, hi⟩ := h.inv hw hn
  have hdata : ∀ {D : Type} {s : Sys n D W} {w : Owner n}, Inv g w s → ∀ i c, exist (s i).owner c = false →
      (s i).data c = none := by
    intro D s w hi i c hc
    cases hd : (s i).data c with
    | none => rfl
    | some d =>
      rw [hi.sys.owner, exist_of ((hi.sys.placed i c).1 (by rw [hd]; rfl))] at hc
      cases hc
  refine ⟨fun s' hs => ?_, fun z s' hz hs c hc => ?_, fun {D'} d' c hc => ?_⟩
  · injection hs with hs; subst hs
    refine ⟨fun c hc => ?_, fun c hc => ?_, ?_, fun j hj => ?_⟩
    · rw [Sys.set_same]
      unfold access clearRefined
      simp only
      rw [hdata hi i c hc, (h.dataApart hw hn i c).2 hc]
    · rw [Sys.set_same]
      obtain ⟨e1, e2⟩ := (h.dataApart hw hn i c).1 hc
      unfold access clearRefined
      simp only
      rw [e1, e2]
    · rw [Sys.set_same]; rfl
    · unfold Sys.set; rw [if_neg hj]
  · have h' : Reachable g dflt maxTag s' := .step (.balance z) h hz hs
    obtain ⟨w', hi'⟩ := h'.inv hw hn
    have hx := balanceLoad_sound hw (by have := hz i; rwa [hi.sys.owner] at this) hi.sys hs i
    unfold access
    rw [hdata hi' i c hc, (h'.dataApart hw hn i c).2 hc, hx.refinedData, hx.unrefinedData]
  · have h' : Reachable g d' maxTag (copyGrid g d' s) := .copy h
    obtain ⟨w', hi'⟩ := h'.inv hw hn
    have e1 := hdata hi' i c hc
    have e2 := (h'.dataApart hw hn i c).2 hc
    unfold access
    rw [show (copyProc g d' i (s i)).data c = none from e1, show (copyProc g d' i (s i)).remote c = none from e2]
    rfl

/-- The demo: cell 1 has been refined and process 0 has its data, which clearing removes. -/
example : ∃ s s' : Sys 2 Nat Nat, tinyG.WF ∧ Reachable tinyG 0 146 s ∧ exist (s 0).owner 1 = false ∧
    (access (s 0) 1).isSome = true ∧ step tinyG 0 146 s (.clearRefined 0) = .ok s' := by
  obtain ⟨s1, res1, g1, g2, g3, g4, g5⟩ := tiny_finer
  obtain ⟨e1, -, -, e2, d, e3⟩ := C28_data (j := 0) tiny_wf g1 g2 g3
  refine ⟨fun i => (res1 i).1, _, tiny_wf, .step (.stop true) g1 trivial (by
    show (stopRefining tinyG 0 146 true s1).bind _ = _
    rw [g2]; rfl), ?_, ?_, rfl⟩
  · show exist (res1 0).1.owner 1 = false
    obtain ⟨w, R, U, hi, hp, hx, r1, -, -, hs'⟩ := g1.stopped tiny_wf g2 0
    rw [(hx 0).owner]
    unfold exist
    rw [newOwner_gone tiny_wf hi.sys.tiled hp (Or.inl ((r1 0 1 (by rw [← hi.sys.owner 0]; exact g4)).1 g5))]
    rfl
  · rw [e1 g5, e3]; rfl

end Dccrg
