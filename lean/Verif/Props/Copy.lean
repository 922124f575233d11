import Verif.Props.Halo
import Verif.Props.Refine
import Verif.Props.Load
/-!
# C63, C64: copies of grids, stop_refining without requests
-/
namespace Dccrg
open Cfg
variable {n : Nat} {D D0 W : Type} {g : Cfg} {dflt : D} {dflt0 : D0} {maxTag : Nat}

/-! ## C64 -/

/-- C64: if no call to `refine_completely` or `unrefine_completely` has returned true since the last
`stop_refining` or load balancing then `stop_refining` returns no cells and changes no owners, cell data, pins,
weights or neighborhoods. Copies of remote neighbors are default constructed again, and refined data are removed. -/
theorem C64_no_requests {s : Sys n D W} {k : Calls} {sorted : Bool} {res : Fin n → Proc n D W × List Nat}
    (hw : g.WF) (h : History g dflt maxTag k s) (h1 : ∀ c, ¬ k.refine c) (h2 : ∀ c, ¬ k.unrefine c)
    (hr : stopRefining g dflt maxTag sorted s = .ok res) (i : Fin n) :
    (res i).2 = [] ∧ (res i).1.owner = (s i).owner ∧ (res i).1.data = (s i).data ∧
    (res i).1.pins = (s i).pins ∧ (res i).1.newPins = (s i).newPins ∧ (res i).1.weights = (s i).weights ∧
    (res i).1.hoods = (s i).hoods ∧
    (∀ c, (res i).1.refinedData c = none ∧ (res i).1.unrefinedData c = none) ∧
    ∀ c, (res i).1.remote c = none ∨ (res i).1.remote c = some dflt := by
  obtain ⟨w, hi, hst, h3, h4, h5⟩ := h.stopped hw hr i
  have hR : ∀ c, ¬ Refines g w s c := by
    intro c hc
    rw [hst.refines_iff hw hi.sys.tiled hi.req] at hc
    induction hc with
    | base h => exact h1 _ h
    | step _ _ _ _ _ ih => exact ih
  have hU : ∀ c, ¬ Unrefines g w s c := by
    rintro c ⟨⟨j, hj⟩, -⟩
    exact h2 c (hst.unrefine' j c hj)
  have hF : ∀ c, ¬ Fam g (Unrefines g w s) c := by
    rintro c ⟨u, hu, -⟩; exact hU u hu
  have hP : ∀ c, ¬ Par g (Unrefines g w s) c := by
    rintro c ⟨u, hu, -⟩; exact hU u hu
  have hN : ∀ c, ¬ New g (Refines g w s) c := by
    rintro c ⟨u, hu, -⟩; exact hR u hu
  have hE := h3.exec i
  have ho : newOwner g w (Refines g w s) (Unrefines g w s) = w := by
    funext c
    unfold newOwner
    rw [if_neg (fun h => h.elim (hR c) (hF c)), if_neg (hP c), if_neg (hN c)]
  rw [ho] at hE
  have hout : ∀ c, exist w c = false → (s i).data c = none ∧ (res i).1.data c = none ∧ (s i).weights c = none ∧
      (res i).1.weights c = none := by
    intro c hc
    have hne : w c ≠ some i := by intro e; rw [exist_of e] at hc; cases hc
    refine ⟨?_, ?_, hi.sys.weights i c hne, hE.weightsOther (hi.sys.weights i) c (Or.inl hne)⟩
    · apply Option.not_isSome_iff_eq_none.1; rw [hi.sys.placed i c]; exact hne
    · apply Option.not_isSome_iff_eq_none.1; rw [hE.placed c]; exact hne
  have hpin : ∀ c, (res i).1.pins c = (s i).pins c ∧ (res i).1.newPins c = (s i).newPins c := by
    intro c
    cases hc : exist w c with
    | true => exact hE.pinsSame c hc (hR c) (hF c)
    | false =>
      have e1 := hi.sys.pins i c hc
      have e2 := hE.pinsOther c (hN c) (by rw [hc]; rintro ⟨h, -⟩; cases h)
      exact ⟨e2.1.trans e1.1.symm, e2.2.trans e1.2.symm⟩
  refine ⟨?_, ?_, funext fun c => ?_, funext fun c => (hpin c).1, funext fun c => (hpin c).2, funext fun c => ?_,
    hE.hoods, fun c => ⟨?_, ?_⟩, fun c => ?_⟩
  · apply List.eq_nil_iff_forall_not_mem.2
    intro c hc
    exact hN c ((hE.newCells c).1 hc).1
  · rw [hE.owner, hi.sys.owner]
  · cases hc : exist w c with
    | true => exact hE.dataSame c hc (hR c) (hF c)
    | false => rw [(hout c hc).1, (hout c hc).2.1]
  · cases hc : exist w c with
    | true => exact hE.weightsSame c hc (hR c) (hF c)
    | false => rw [(hout c hc).2.2.1, (hout c hc).2.2.2]
  · exact hE.refinedOnly c fun h => hR c h.1
  · exact hE.unrefinedOnly c fun h => hF c h.1
  · rw [hE.remote]
    split
    · exact Or.inr rfl
    · exact Or.inl rfl

/-- A grid which was written to. -/
example : ∃ (s : Sys 2 Nat Nat) (k : Calls) (res : Fin 2 → Proc 2 Nat Nat × List Nat), tinyG.WF ∧
    History tinyG 0 146 k s ∧ (∀ c, ¬ k.refine c) ∧ (∀ c, ¬ k.unrefine c) ∧
    stopRefining tinyG 0 146 true s = .ok res ∧ (s 1).data 2 = some 7 := by
  obtain ⟨s, h1, h2, h3, -, -, -, h5, h6⟩ := tiny_init
  have hst : step tinyG 0 146 s (.write 1 2 7) = .ok (s.set 1 (write (s 1) 2 7)) := rfl
  have hr := Reachable.step (.write 1 2 7) h2 trivial hst
  obtain ⟨s', e1, -⟩ := tiny_step hr (.stop true) trivial trivial
  obtain ⟨r, e2, -⟩ := Out.bind_inv e1
  refine ⟨_, _, r, tiny_wf, .call (.write 1 2 7) (.init h1) trivial hst,
    fun c h => h.elim id fun ⟨i, h, _⟩ => (by cases h), fun c h => h.elim id fun ⟨i, h, _⟩ => (by cases h), e2, ?_⟩
  have : ((s 1).data 2).isSome = true := (h3.sys.placed 1 2).2 h6
  show (write (s 1) 2 7).data 2 = some 7
  unfold write
  rw [if_pos this]
  rfl

/-! ## C63 -/

theorem copyProc_has (i : Fin n) (p : Proc n D0 W) : (copyProc g dflt i p).has = p.has := by
  funext c
  show ((p.data c).map fun _ => dflt).isSome = _
  rw [Option.isSome_map]; rfl

/-- C63: a copy of a grid has the same cells on the same processes with same neighbors, process boundaries,
weights and cells to transfer as the original, for every neighborhood. -/
theorem C63_structure (s : Sys n D0 W) (dflt : D) (i : Fin n) :
    let t := copyGrid g dflt s
    (∀ c, getProcess (t i) c = getProcess (s i) c ∧ isLocal i (t i) c = isLocal i (s i) c) ∧
    (∀ c id, getNeighborsOf g (t i) c id = getNeighborsOf g (s i) c id ∧
      getNeighborsTo g (t i) c id = getNeighborsTo g (s i) c id) ∧
    (∀ criteria exact id sorted, getCells g i (t i) criteria exact id sorted =
      getCells g i (s i) criteria exact id sorted) ∧
    (∀ id sorted, getLocalBoundary g i (t i) id sorted = getLocalBoundary g i (s i) id sorted ∧
      getInner g i (t i) id sorted = getInner g i (s i) id sorted ∧
      getRemoteBoundary g i (t i) id sorted = getRemoteBoundary g i (s i) id sorted) ∧
    (∀ one c, getWeight g one i (t i) c = getWeight g one i (s i) c) ∧
    (∀ id H, hoodFor g (s i) id = some H → hoodFor g (t i) id = some H ∧ ∀ q,
      sendList g H i (t i).owner (t i).has q = sendList g H i (s i).owner (s i).has q ∧
      recvList g H i (t i).owner (t i).has q = recvList g H i (s i).owner (s i).has q) := by
  have hh : (copyGrid g dflt s i).has = (s i).has := copyProc_has i (s i)
  refine ⟨fun c => ⟨rfl, rfl⟩, fun c id => ⟨rfl, rfl⟩, fun criteria exact id sorted => ?_, fun id sorted => ⟨?_, ?_, ?_⟩,
    fun one c => rfl, fun id H hH => ⟨hH, fun q => ?_⟩⟩
  · unfold getCells
    rw [hh]; rfl
  · unfold getLocalBoundary
    rw [hh]; rfl
  · unfold getInner
    rw [hh]; rfl
  · unfold getRemoteBoundary
    rw [hh]; rfl
  · rw [hh]; exact ⟨rfl, rfl⟩

/-- C63: cell data in the copy are default constructed, for cells of the process and copies of remote neighbors, and
there are no other data. -/
theorem C63_data (hw : g.WF) {s : Sys n D0 W} (h : Reachable g dflt0 maxTag s) (dflt : D) (i : Fin n) (c : Nat) :
    ((s i).owner c = some i → access (copyGrid g dflt s i) c = some dflt) ∧
    ((s i).owner c ≠ some i → (∃ b, (s i).owner b = some i ∧
      (NbrOf g (s i) defaultId b c ∨ NbrTo g (s i) defaultId b c)) → access (copyGrid g dflt s i) c = some dflt) ∧
    ((s i).owner c ≠ some i → (¬ ∃ b, (s i).owner b = some i ∧
      (NbrOf g (s i) defaultId b c ∨ NbrTo g (s i) defaultId b c)) → access (copyGrid g dflt s i) c = none) := by
  obtain ⟨w, hi⟩ := h.inv hw (by have := i.2; omega)
  have hH : hoodFor g (s i) defaultId = some (hoodOf g) := rfl
  have hd : ∀ c, (copyGrid g dflt s i).data c = if (s i).owner c = some i then some dflt else none := by
    intro c
    show ((s i).data c).map _ = _
    have hp := hi.sys.placed i c
    rw [hi.sys.owner]
    split
    · next h =>
      obtain ⟨v, hv⟩ := Option.isSome_iff_exists.1 (hp.2 h)
      rw [hv]; rfl
    · next h =>
      rw [Option.not_isSome_iff_eq_none.1 fun e => h (hp.1 e)]; rfl
  have hmem : c ∈ remoteBoundary g i (s i).owner (fun c => ((s i).data c).isSome) ↔
      (s i).owner c ≠ some i ∧ ∃ b, (s i).owner b = some i ∧
        (NbrOf g (s i) defaultId b c ∨ NbrTo g (s i) defaultId b c) := by
    rw [hi.sys.owner, remoteBoundary_eq, mem_remoteBoundaryH hw hi.sys.tiled hi.sys.balanced (fun o h => h) (hi.sys.placed i)]
    constructor
    · rintro ⟨⟨j, h1, h2⟩, b, h3, h4⟩
      refine ⟨by rw [h1]; intro e; injection e with e; exact h2 e, b, h3, ?_⟩
      rw [hi.nbrOf_iff hw hH (exist_of h3), hi.nbrTo_iff hw hH (exist_of h3)]
      rcases h4 with h4 | h4
      · exact Or.inl ⟨exist_of h1, h4⟩
      · exact Or.inr ⟨exist_of h1, h4⟩
    · rintro ⟨h1, b, h3, h4⟩
      rw [hi.nbrOf_iff hw hH (exist_of h3), hi.nbrTo_iff hw hH (exist_of h3)] at h4
      have he : exist w c = true := by rcases h4 with h4 | h4 <;> exact h4.1
      obtain ⟨j, hj⟩ := exist_iff.1 he
      refine ⟨⟨j, hj, fun e => h1 (by rw [hj, e])⟩, b, h3, ?_⟩
      rcases h4 with h4 | h4
      · exact Or.inl h4.2
      · exact Or.inr h4.2
  have hr : (copyGrid g dflt s i).remote c = if c ∈ remoteBoundary g i (s i).owner (fun c => ((s i).data c).isSome)
    then some dflt else none := rfl
  refine ⟨fun h => ?_, fun h h' => ?_, fun h h' => ?_⟩
  · unfold access
    rw [hd, if_pos h]
  · unfold access
    rw [hd, if_neg h, hr, if_pos (hmem.2 ⟨h, h'⟩)]
  · unfold access
    rw [hd, if_neg h, hr, if_neg fun e => h' (hmem.1 e).2]
    rfl

/-- C63: requests for refinement of the original aren't in the copy, whose `stop_refining` changes no cells. -/
theorem C63_requests (hw : g.WF) {s : Sys n D0 W} (h : Reachable g dflt0 maxTag s) {sorted : Bool}
    {res : Fin n → Proc n D W × List Nat} (hr : stopRefining g dflt maxTag sorted (copyGrid g dflt s) = .ok res)
    (i : Fin n) : (res i).2 = [] ∧ (res i).1.owner = (s i).owner := by
  have := C64_no_requests hw (.copy h) (fun _ h => h) (fun _ h => h) hr i
  exact ⟨this.1, this.2.1⟩

/-- C63: pins of the original are valid in the copy: load balancing moves cells to processes to which they were
pinned in the original. -/
theorem C63_pins (hw : g.WF) {L : Ledger n W} {s : Sys n D0 W} (h : Booked g dflt0 maxTag L s) {z : Fin n → Moves n}
    {t : Sys n D W} (ho : (Op.balance z : Op n D W).Ok (copyGrid g dflt s))
    (ht : step g dflt maxTag (copyGrid g dflt s) (.balance z) = .ok t) (i j : Fin n) {c : Nat} {p q : Fin n}
    (hp : (s j).owner c = some p) (hq : L.pin c = some q) : (t i).owner c = some q :=
  (C31_owners hw (.copy h) ho ht i j (c := c) (p := p) hp).1 q hq

/-- A grid with a request for refinement is copied. -/
example : ∃ (s : Sys 2 Nat Nat) (res : Fin 2 → Proc 2 Bool Nat × List Nat), Reachable tinyG 0 146 s ∧
    (s 0).req.toRefine = [1] ∧ stopRefining tinyG false 146 true (copyGrid tinyG false s) = .ok res ∧
    (res 0).1.owner 1 = some 0 := by
  obtain ⟨s, s', h1, h2, h3, h4, h5, h6⟩ := tiny_asked
  have hr : Reachable tinyG false 146 (copyGrid tinyG false s') := .copy h3
  obtain ⟨w, hi⟩ := hr.inv tiny_wf (by omega)
  obtain ⟨t, e1⟩ := step_ok tiny_wf (by omega) false hi (by rw [tiny_last]; exact Nat.le_refl _) (.stop true) trivial trivial
  obtain ⟨res, e2, -⟩ := Out.bind_inv e1
  refine ⟨s', res, h3, by rw [h5], e2, ?_⟩
  rw [(C63_requests tiny_wf h3 e2 0).2, h4.sys.owner]
  decide

end Dccrg
