import Verif.Props.Refine
/-!
# C20, C27 - C29, C50, C53: data, owners, pins and weights after refinement, requests
-/
namespace Dccrg
open Cfg
variable {n : Nat} {D W : Type} {g : Cfg} {w : Owner n} {s s' : Sys n D W} {dflt : D} {maxTag : Nat} {k : Calls}
  {sorted : Bool} {res : Fin n → Proc n D W × List Nat}

/-- As `History.stopped`, decisions in terms of observable changes. -/
theorem Reachable.stopped (hw : g.WF) (h : Reachable g dflt maxTag s)
    (hr : stopRefining g dflt maxTag sorted s = .ok res) (j : Fin n) :
    ∃ w R U, Inv g w s ∧ Plan g (exist w) R U ∧
      (∀ i, Executed g w (newOwner g w R U) R U dflt s i (res i).1 (res i).2) ∧
      (∀ i c, exist w c = true → (Finer g (exist (res i).1.owner) c ↔ R c)) ∧
      (∀ i c, exist w c = true → (Coarser g (exist (res i).1.owner) c ↔ Fam g U c)) ∧
      (sorted = true → ∀ i, (res i).2.Pairwise (· ≤ ·)) ∧
      SysOk g (newOwner g w R U) (fun i => (res i).1) := by
  obtain ⟨w, hi⟩ := h.inv hw (by have := j.2; omega)
  obtain ⟨h3, h6⟩ := stopRefining_sound hw hi.sys.core hi.req hr
  have h5 := newOwner_exist hw hi.sys.tiled h3.plan
  refine ⟨w, _, _, hi, h3.plan, h3.exec, fun i c hc => ?_, fun i c hc => ?_, h6, h3.sysOk hw hi.sys⟩
  · rw [(h3.exec i).owner]; exact h3.plan.finer_iff hw hi.sys.tiled h5 hc
  · rw [(h3.exec i).owner]; exact h3.plan.coarser_iff hw hi.sys.tiled h5 hc

/-- C27: owners of cells after `stop_refining`. Cell `f` is the child of the new parent `g.parent c` at its
smallest indices. -/
theorem C27_owners (hw : g.WF) (h : Reachable g dflt maxTag s)
    (hr : stopRefining g dflt maxTag sorted s = .ok res) (j : Fin n) {c : Nat}
    (hc : exist (s j).owner c = true) :
    (Finer g (exist (res j).1.owner) c → ∀ x ∈ g.children c, (res j).1.owner x = (s j).owner c) ∧
    (Coarser g (exist (res j).1.owner) c → ∀ f ∈ g.children (g.parent c), g.idx f = g.idx (g.parent c) →
      (res j).1.owner (g.parent c) = (s j).owner f) ∧
    (¬ Finer g (exist (res j).1.owner) c → ¬ Coarser g (exist (res j).1.owner) c →
      (res j).1.owner c = (s j).owner c) := by
  obtain ⟨w, R, U, hi, hp, hx, h1, h2, -⟩ := h.stopped hw hr j
  have ht := hi.sys.tiled
  rw [hi.sys.owner] at hc ⊢
  rw [h1 j c hc, h2 j c hc, (hx j).owner]
  refine ⟨?_, ?_, fun e1 e2 => newOwner_same hw ht hp hc e1 e2⟩
  · intro hR x hxc
    exact newOwner_iff_new hw ht hp ⟨c, hR, hxc⟩ hR hxc
  · intro hF f hf hfi
    obtain ⟨-, -, e3, e4⟩ := hp.fam_exist hw ht hF
    rw [newOwner_par hw ht hp e3]
    congr 1
    obtain ⟨u, hu, hup⟩ := e3
    obtain ⟨p1, p2, -⟩ := hp.parent hw ht hu
    rw [hup] at p1 p2
    obtain ⟨f1, f2, f3⟩ := (children_spec hw p1 p2).1 hf
    obtain ⟨a1, a2, a3⟩ := (children_spec hw p1 p2).1 (firstChild_mem (g := g) (P := g.parent c))
    refine eq_of_mem_lvl hw a1 f1 (a2.trans f2.symm) (mem_self _) (p := g.idx (firstChild g (g.parent c))) ?_
    have : g.idx (firstChild g (g.parent c)) = g.idx f := by
      funext d
      rw [hfi]
      unfold firstChild
      rw [idx_child hw p1 p2 (fun _ => by omega)]
      omega
    rw [this]
    exact mem_self f

/-- C27: `stop_refining` returns exactly the new children of the process, each once and in order of id if
requested. -/
theorem C27_new_cells (hw : g.WF) (h : Reachable g dflt maxTag s)
    (hr : stopRefining g dflt maxTag sorted s = .ok res) (j : Fin n) :
    (res j).2.Nodup ∧ (sorted = true → (res j).2.Pairwise (· ≤ ·)) ∧
    ∀ x, x ∈ (res j).2 ↔ (res j).1.owner x = some j ∧
      ∃ c, exist (s j).owner c = true ∧ Finer g (exist (res j).1.owner) c ∧ x ∈ g.children c := by
  obtain ⟨w, R, U, hi, hp, hx, h1, h2, h3, -⟩ := h.stopped hw hr j
  refine ⟨(hx j).newNodup, fun e => h3 e j, fun x => ?_⟩
  rw [(hx j).newCells, hi.sys.owner, (hx j).owner]
  constructor
  · rintro ⟨⟨r, e1, e2⟩, e3⟩
    refine ⟨e3, r, (hp.refE r e1).1, ?_, e2⟩
    have := (h1 j r (hp.refE r e1).1).2 e1
    rw [(hx j).owner] at this; exact this
  · rintro ⟨e1, c, e2, e3, e4⟩
    rw [← (hx j).owner] at e3
    exact ⟨⟨c, (h1 j c e2).1 e3, e4⟩, e1⟩

/-- The demo: cell 1 is refined. -/
theorem tiny_finer : ∃ (s : Sys 2 Nat Nat) (res : Fin 2 → Proc 2 Nat Nat × List Nat),
    Reachable tinyG 0 146 s ∧ stopRefining tinyG 0 146 true s = .ok res ∧ (s 0).owner 1 = some 0 ∧
    exist (s 0).owner 1 = true ∧ Finer tinyG (exist (res 0).1.owner) 1 := by
  obtain ⟨k, s, res, h1, h2, h3, h4, h5, -⟩ := tiny_history
  exact ⟨s, res, h1.reachable, h4, h5, exist_of h5,
    ((C24_least tiny_wf h1 h4 0).1 1 h2 (by decide) (Veto.none h3)).2⟩

/-- The demo: children of cell 1 are unrefined. -/
theorem tiny_coarser : ∃ (s : Sys 2 Nat Nat) (res : Fin 2 → Proc 2 Nat Nat × List Nat),
    Reachable tinyG 0 146 s ∧ stopRefining tinyG 0 146 true s = .ok res ∧
    exist (s 0).owner 3 = true ∧ Coarser tinyG (exist (res 0).1.owner) 3 ∧ tinyG.parent 3 = 1 := by
  obtain ⟨k, s, res, h1, h2, h3, h4, -, h5, h6⟩ := tiny_family_unrefine
  obtain ⟨e1, e2⟩ := C56_requested_unrefinement tiny_wf h1 h2 (by decide) h3 h4 h5 0
    (fun b hb _ _ _ => h6 0 b hb)
  exact ⟨s, res, h1.reachable, h5, (e2 3 (by decide)).1,
    ⟨1, tinyG.idx 3, e1, mem_of_mem_children tiny_wf ⟨by decide, by decide⟩ (by decide) (by decide) (mem_self 3), mem_self 3,
      by decide⟩, by decide⟩

example : ∃ (s : Sys 2 Nat Nat) (res : Fin 2 → Proc 2 Nat Nat × List Nat),
    tinyG.WF ∧ Reachable tinyG 0 146 s ∧ stopRefining tinyG 0 146 true s = .ok res ∧
    exist (s 0).owner 1 = true ∧ Finer tinyG (exist (res 0).1.owner) 1 := by
  obtain ⟨s, res, h1, h2, -, h3, h4⟩ := tiny_finer
  exact ⟨s, res, tiny_wf, h1, h2, h3, h4⟩

example : ∃ (s : Sys 2 Nat Nat) (res : Fin 2 → Proc 2 Nat Nat × List Nat),
    tinyG.WF ∧ Reachable tinyG 0 146 s ∧ stopRefining tinyG 0 146 true s = .ok res ∧
    exist (s 0).owner 3 = true ∧ Coarser tinyG (exist (res 0).1.owner) 3 ∧
    3 ∈ tinyG.children (tinyG.parent 3) := by
  obtain ⟨s, res, h1, h2, h3, h4, -⟩ := tiny_coarser
  exact ⟨s, res, tiny_wf, h1, h2, h3, h4, by decide⟩

/-! ## Cell data -/

/-- Copies of remote cells are of existing cells. -/
theorem remote_exists (hw : g.WF) {w : Owner n} {i : Fin n} {p : Proc n D W} (ht : Tiled g (exist w))
    (hb : Balanced g (exist w)) (hp : ∀ c, (p.data c).isSome = true ↔ w c = some i) {c : Nat}
    (hc : c ∈ remoteBoundary g i w (fun c => (p.data c).isSome)) : exist w c = true := by
  rw [remoteBoundary_eq, mem_remoteBoundaryH hw ht hb (fun o h => h) hp] at hc
  obtain ⟨⟨j, hj, -⟩, -⟩ := hc
  exact exist_of hj

/-- C28: data after `stop_refining` through `operator[]`. -/
theorem C28_data (hw : g.WF) (h : Reachable g dflt maxTag s)
    (hr : stopRefining g dflt maxTag sorted s = .ok res) {i j : Fin n} {c : Nat}
    (hc : (s i).owner c = some i) :
    (Finer g (exist (res i).1.owner) c → access (res i).1 c = (s i).data c) ∧
    (Coarser g (exist (res i).1.owner) c → (res j).1.owner (g.parent c) = some j →
      access (res j).1 c = (s i).data c) ∧
    (¬ Finer g (exist (res i).1.owner) c → ¬ Coarser g (exist (res i).1.owner) c →
      access (res i).1 c = (s i).data c) ∧
    access (s i) c = (s i).data c ∧ ∃ d, (s i).data c = some d := by
  obtain ⟨w, R, U, hi, hp, hx, h1, h2, -, hs'⟩ := h.stopped hw hr i
  have ht := hi.sys.tiled
  rw [hi.sys.owner] at hc
  have hce := exist_of hc
  obtain ⟨d, hd⟩ := Option.isSome_iff_exists.1 ((hi.sys.placed i c).2 hc)
  have hgone : ∀ l, newOwner g w R U c = none → (res l).1.data c = none ∧ (res l).1.remote c = none := by
    intro l e
    constructor
    · cases hx' : (res l).1.data c with
      | none => rfl
      | some d =>
        have := ((hx l).placed c).1 (by rw [hx']; rfl)
        rw [e] at this; cases this
    · rw [(hx l).remote, if_neg]
      intro hm
      have := remote_exists hw hs'.tiled hs'.balanced (hx l).placed hm
      unfold exist at this; rw [e] at this; cases this
  rw [h1 i c hce, h2 i c hce]
  refine ⟨?_, ?_, ?_, ?_, d, hd⟩
  · intro hR
    obtain ⟨e1, e2⟩ := hgone i (newOwner_gone hw ht hp (Or.inl hR))
    unfold access
    rw [e1, e2]
    simp only
    rw [(hx i).refinedData c hR hc, hd]
  · intro hF hj
    obtain ⟨e1, e2⟩ := hgone j (newOwner_gone hw ht hp (Or.inr hF))
    rw [(hx j).owner] at hj
    have hnR := (hp.fam_exist hw ht hF).2.1
    unfold access
    rw [e1, e2]
    simp only
    rw [(hx j).refinedOnly c (fun h => hnR h.1), (hx j).unrefinedData c i hF hc hj]
  · intro e1 e2
    unfold access
    rw [(hx i).dataSame c hce e1 e2, hd]
  · unfold access; rw [hd]

/-- Operations that neither write data of cell `c` on process `i` nor clear data of removed cells. -/
def Op.Keeps (i : Fin n) (c : Nat) : Op n D W → Prop
  | .stop _ => False
  | .balance _ => False
  | .write j x _ => ¬ (j = i ∧ x = c)
  | .clearRefined j => j ≠ i
  | _ => True

theorem Op.Keeps.quiet {i : Fin n} {c : Nat} {op : Op n D W} (h : op.Keeps i c) : op.Quiet := by
  cases op <;> first | trivial | cases h

theorem write_other {p : Proc n D W} {x c : Nat} {v : D} (h : c ≠ x) :
    (write p x v).data c = p.data c ∧ (write p x v).remote c = p.remote c ∧
    (write p x v).refinedData c = p.refinedData c ∧ (write p x v).unrefinedData c = p.unrefinedData c := by
  unfold write
  split
  · exact ⟨if_neg h, rfl, rfl, rfl⟩
  · split
    · exact ⟨rfl, if_neg h, rfl, rfl⟩
    · split
      · exact ⟨rfl, rfl, if_neg h, rfl⟩
      · split
        · exact ⟨rfl, rfl, rfl, if_neg h⟩
        · exact ⟨rfl, rfl, rfl, rfl⟩

theorem unpin_data (i : Fin n) (p : Proc n D W) (c x : Nat) :
    (unpin g i p c).2.data x = p.data x ∧ (unpin g i p c).2.remote x = p.remote x ∧
    (unpin g i p c).2.refinedData x = p.refinedData x ∧ (unpin g i p c).2.unrefinedData x = p.unrefinedData x := by
  unfold unpin
  split
  · exact ⟨rfl, rfl, rfl, rfl⟩
  · split <;> exact ⟨rfl, rfl, rfl, rfl⟩

theorem pin_data (i : Fin n) (p : Proc n D W) (c x : Nat) (q : Int) :
    (pin g i p c q).2.data x = p.data x ∧ (pin g i p c q).2.remote x = p.remote x ∧
    (pin g i p c q).2.refinedData x = p.refinedData x ∧ (pin g i p c q).2.unrefinedData x = p.unrefinedData x := by
  unfold pin
  split
  · exact ⟨rfl, rfl, rfl, rfl⟩
  · split
    · split <;> exact ⟨rfl, rfl, rfl, rfl⟩
    · exact ⟨rfl, rfl, rfl, rfl⟩

theorem unpinLocal_data (i : Fin n) (p : Proc n D W) (x : Nat) :
    (unpinLocal g i p).2.data x = p.data x ∧ (unpinLocal g i p).2.remote x = p.remote x ∧
    (unpinLocal g i p).2.refinedData x = p.refinedData x ∧
    (unpinLocal g i p).2.unrefinedData x = p.unrefinedData x := by
  unfold unpinLocal
  generalize (ids g).filter _ = l
  let P : Proc n D W → Prop := fun q => q.data x = p.data x ∧ q.remote x = p.remote x ∧
    q.refinedData x = p.refinedData x ∧ q.unrefinedData x = p.unrefinedData x
  suffices ∀ b (q : Proc n D W), P q →
      P (l.foldl (fun s c => let r := Dccrg.unpin g i s.2 c; (s.1 && r.1, r.2)) (b, q)).2 from
    this true p ⟨rfl, rfl, rfl, rfl⟩
  induction l with
  | nil => exact fun _ _ h => h
  | cons a l ih =>
    intro b q h
    apply ih
    obtain ⟨e1, e2, e3, e4⟩ := unpin_data (g := g) i q a x
    exact ⟨e1.trans h.1, e2.trans h.2.1, e3.trans h.2.2.1, e4.trans h.2.2.2⟩

/-- Data of a cell of the process, and of a removed cell, changes only by writing. -/
theorem step_keeps (hw : g.WF) (hi : Inv g w s) {i : Fin n} {c : Nat} (hc : w c = some i ∨ exist w c = false)
    (op : Op n D W) (hk : op.Keeps i c) (h : step g dflt maxTag s op = .ok s') :
    (s' i).data c = (s i).data c ∧ (s' i).remote c = (s i).remote c ∧
    (s' i).refinedData c = (s i).refinedData c ∧ (s' i).unrefinedData c = (s i).unrefinedData c := by
  have hset : ∀ j (p : Proc n D W), (j = i → p.data c = (s j).data c ∧ p.remote c = (s j).remote c ∧
      p.refinedData c = (s j).refinedData c ∧ p.unrefinedData c = (s j).unrefinedData c) →
      (s.set j p i).data c = (s i).data c ∧ (s.set j p i).remote c = (s i).remote c ∧
      (s.set j p i).refinedData c = (s i).refinedData c ∧
      (s.set j p i).unrefinedData c = (s i).unrefinedData c := by
    intro j p hp
    unfold Sys.set
    split
    · rename_i e; subst e; exact hp rfl
    · exact ⟨rfl, rfl, rfl, rfl⟩
  have hask : ∀ j (o : Out (Bool × Req)), s.ask j o = .ok s' →
      (s' i).data c = (s i).data c ∧ (s' i).remote c = (s i).remote c ∧
      (s' i).refinedData c = (s i).refinedData c ∧ (s' i).unrefinedData c = (s i).unrefinedData c := by
    intro j o ho
    obtain ⟨b, r, -, rfl⟩ := ask_inv ho
    exact hset j _ fun _ => ⟨rfl, rfl, rfl, rfl⟩
  cases op with
  | refine j x => exact hask j _ h
  | unrefine j x => exact hask j _ h
  | dontRefine j x => exact hask j _ h
  | dontUnrefine j x => exact hask j _ h
  | pin j x q => injection h with h; subst h; exact hset j _ fun _ => pin_data j _ x c q
  | unpin j x => injection h with h; subst h; exact hset j _ fun _ => unpin_data j _ x c
  | unpinLocal j => injection h with h; subst h; exact hset j _ fun _ => unpinLocal_data j _ c
  | setWeight j x v =>
    injection h with h; subst h
    refine hset j _ fun _ => ?_
    unfold setWeight
    split <;> exact ⟨rfl, rfl, rfl, rfl⟩
  | write j x v =>
    injection h with h; subst h
    exact hset j _ fun e => write_other fun e' => hk ⟨e, e'.symm⟩
  | clearRefined j => injection h with h; subst h; exact hset j _ fun e => absurd e hk
  | unpinAll => injection h with h; subst h; exact ⟨rfl, rfl, rfl, rfl⟩
  | update id =>
    obtain ⟨r, h1, h2⟩ := Out.bind_inv h
    injection h2 with h2; subst h2
    obtain ⟨-, e2, -, e4, e5⟩ := updateRemote_sound hw hi h1
    obtain ⟨H, hH⟩ := e5 i
    have e6 : (r i).2.remote c = (s i).remote c := by
      refine e4 i H c hH ?_
      rcases hc with hc | hc
      · exact Or.inr (Or.inl hc)
      · refine Or.inr (Or.inr ?_)
        unfold exist at hc
        exact Option.not_isSome_iff_eq_none.1 (by rw [hc]; decide)
    refine ⟨?_, e6, ?_, ?_⟩
    · show (r i).2.data c = _; rw [e2 i]
    · show (r i).2.refinedData c = _; rw [e2 i]
    · show (r i).2.unrefinedData c = _; rw [e2 i]
  | addHood id items =>
    obtain ⟨r, h1, h2⟩ := Out.bind_inv h
    injection h2 with h2; subst h2
    have h3 := addHood_inv (b := (r i).1) (p' := (r i).2) (Out.collect_inv h1 i)
    cases hb : (r i).1 with
    | false =>
      show (r i).2.data c = _ ∧ (r i).2.remote c = _ ∧ (r i).2.refinedData c = _ ∧ (r i).2.unrefinedData c = _
      rw [h3.2.1 hb]; exact ⟨rfl, rfl, rfl, rfl⟩
    | true =>
      show (r i).2.data c = _ ∧ (r i).2.remote c = _ ∧ (r i).2.refinedData c = _ ∧ (r i).2.unrefinedData c = _
      rw [h3.2.2 hb]
      refine ⟨rfl, ?_, rfl, rfl⟩
      apply if_neg
      rw [hi.sys.owner]
      intro hm
      rcases hc with hc | hc
      · rw [remoteBoundary_eq, mem_remoteBoundaryH hw hi.sys.tiled hi.sys.balanced (fun o h => h)
          (hi.sys.placed i)] at hm
        obtain ⟨⟨j, h4, h5⟩, -⟩ := hm
        rw [hc] at h4
        injection h4 with h4
        exact h5 h4.symm
      · rw [remote_exists hw hi.sys.tiled hi.sys.balanced (hi.sys.placed i) hm] at hc
        cases hc
  | removeHood id =>
    injection h with h; subst h
    show (removeHood (s i) id).data c = _ ∧ (removeHood (s i) id).remote c = _ ∧
      (removeHood (s i) id).refinedData c = _ ∧ (removeHood (s i) id).unrefinedData c = _
    unfold removeHood
    split <;> exact ⟨rfl, rfl, rfl, rfl⟩
  | stop => cases hk
  | balance => cases hk

/-- C28: data of removed cells remains until it is cleared or written to, `stop_refining` is called again
or load is balanced; data of cells of the process remains as well. -/
theorem C28_until_cleared (hw : g.WF) (h : Reachable g dflt maxTag s) {i : Fin n} {c : Nat}
    (hc : (s i).owner c = some i ∨ exist (s i).owner c = false)
    (hs : Runs g dflt maxTag (Op.Keeps i c) s s') : access (s' i) c = access (s i) c := by
  have hn : 0 < n := by have := i.2; omega
  obtain ⟨w, hi⟩ := h.inv hw hn
  rw [hi.sys.owner] at hc
  suffices Reachable g dflt maxTag s' ∧ (s' i).owner = w ∧ (s' i).data c = (s i).data c ∧ (s' i).remote c = (s i).remote c ∧
      (s' i).refinedData c = (s i).refinedData c ∧ (s' i).unrefinedData c = (s i).unrefinedData c by
    obtain ⟨-, -, e1, e2, e3, e4⟩ := this
    unfold access
    rw [e1, e2, e3, e4]
  induction hs with
  | refl => exact ⟨h, hi.sys.owner i, rfl, rfl, rfl, rfl⟩
  | step op _ hk ho h1 ih =>
    obtain ⟨e0, e00, e1, e2, e3, e4⟩ := ih
    obtain ⟨w', hi'⟩ := e0.inv hw hn
    have : w' = w := by rw [← hi'.sys.owner i, e00]
    subst this
    obtain ⟨f1, f2, f3, f4⟩ := step_keeps hw hi' hc op hk h1
    exact ⟨.step op e0 ho h1, (step_quiet op hk.quiet h1 i).1.trans e00, f1.trans e1, f2.trans e2, f3.trans e3, f4.trans e4⟩

example : ∃ (s : Sys 2 Nat Nat) (res : Fin 2 → Proc 2 Nat Nat × List Nat),
    tinyG.WF ∧ Reachable tinyG 0 146 s ∧ stopRefining tinyG 0 146 true s = .ok res ∧
    (s 0).owner 1 = some 0 ∧ Finer tinyG (exist (res 0).1.owner) 1 := by
  obtain ⟨s, res, h1, h2, h3, -, h4⟩ := tiny_finer
  exact ⟨s, res, tiny_wf, h1, h2, h3, h4⟩

/-- The demo: cell 1 has been refined, then process 0 updates its copies of remote cells. -/
example : ∃ s s' : Sys 2 Nat Nat, Reachable tinyG 0 146 s ∧ exist (s 0).owner 1 = false ∧
    Runs tinyG 0 146 (Op.Keeps 0 1) s s' := by
  obtain ⟨s, res, -, -, -, h1, h2⟩ := tiny_refined
  obtain ⟨s', h3, -⟩ := tiny_step h1 (.update defaultId) trivial (by intro i; unfold hoodFor; rw [if_pos rfl]; rfl)
  refine ⟨_, s', h1, ?_, .step (.update defaultId) (.refl _) trivial trivial h3⟩
  unfold exist
  rw [(h2 0).2.1]; rfl

/-! ## Pins and weights -/

/-- C29: requests to pin a cell to a process (`pins`: known to all processes since the last load balancing,
`newPins`: made since then on this process) and weights of cells after `stop_refining`. -/
theorem C29_pins_and_weights (hw : g.WF) (h : Reachable g dflt maxTag s)
    (hr : stopRefining g dflt maxTag sorted s = .ok res) (j : Fin n) {c : Nat}
    (hc : exist (s j).owner c = true) :
    (Finer g (exist (res j).1.owner) c → ∀ x ∈ g.children c,
      (res j).1.pins x = (s j).pins c ∧ (res j).1.newPins x = (s j).newPins c ∧
      ((s j).owner c = some j → (res j).1.weights x = (s j).weights c)) ∧
    (Coarser g (exist (res j).1.owner) c → (res j).1.pins (g.parent c) = none ∧
      (res j).1.newPins (g.parent c) = none ∧ (res j).1.weights (g.parent c) = none) ∧
    (Finer g (exist (res j).1.owner) c ∨ Coarser g (exist (res j).1.owner) c →
      (res j).1.pins c = none ∧ (res j).1.newPins c = none ∧ (res j).1.weights c = none) ∧
    (¬ Finer g (exist (res j).1.owner) c → ¬ Coarser g (exist (res j).1.owner) c →
      (res j).1.pins c = (s j).pins c ∧ (res j).1.newPins c = (s j).newPins c ∧
      (res j).1.weights c = (s j).weights c) := by
  obtain ⟨w, R, U, hi, hp, hx, h1, h2, -⟩ := h.stopped hw hr j
  have ht := hi.sys.tiled
  rw [hi.sys.owner] at hc ⊢
  rw [h1 j c hc, h2 j c hc]
  refine ⟨?_, ?_, ?_, ?_⟩
  · intro hR x hxc
    obtain ⟨e1, e2⟩ := hp.refE c hR
    have hpx := ((children_spec hw (ht.valid c e1) e2).1 hxc).2.2
    have hN : New g R x := ⟨c, hR, hxc⟩
    obtain ⟨a1, a2⟩ := (hx j).pinsNew x hN
    rw [hpx] at a1 a2
    refine ⟨a1, a2, fun ho => ?_⟩
    have := (hx j).weightsNew (hi.sys.weights j) x hN (by rw [newOwner_iff_new hw ht hp hN hR hxc]; exact ho)
    rw [hpx] at this; exact this
  · intro hF
    obtain ⟨-, -, e3, e4⟩ := hp.fam_exist hw ht hF
    have hne := hp.par_not_exist hw ht e3
    have hnn : ¬ New g R (g.parent c) := by
      intro hN
      have e5 := newOwner_new hw ht hp hN
      rw [newOwner_par hw ht hp e3] at e5
      obtain ⟨o, ho⟩ := hp.first_exist hw ht e3
      rw [ho] at e5
      obtain ⟨r, hR, hrc⟩ := hN
      obtain ⟨e6, e7⟩ := hp.refE r hR
      have hpr := ((children_spec hw (ht.valid r e6) e7).1 hrc)
      -- a point of the family is in the refined cell
      obtain ⟨u, hu, hup⟩ := e3
      obtain ⟨p1, p2, -⟩ := hp.parent hw ht hu
      rw [hup] at p1 p2
      have m1 := mem_of_mem_children hw p1 p2 e4 (mem_self c)
      have m2 := mem_of_mem_children hw (ht.valid r e6) e7 hrc m1
      have := ht.unique _ r c e6 hc m2 (mem_self c)
      subst this
      have := (hp.fam_exist hw ht hF).2.1
      exact this hR
    obtain ⟨a1, a2⟩ := (hx j).pinsOther (g.parent c) hnn (fun e => by rw [e.1] at hne; cases hne)
    exact ⟨a1, a2, (hx j).weightsOther (hi.sys.weights j) _ (Or.inr e3)⟩
  · intro hRF
    have hg := newOwner_gone (w := w) hw ht hp hRF
    have hnn : ¬ New g R c := fun hN => by rw [hp.new_not_exist hw ht hN] at hc; cases hc
    obtain ⟨a1, a2⟩ := (hx j).pinsOther c hnn (fun e => hRF.elim e.2.1 e.2.2)
    exact ⟨a1, a2, (hx j).weightsOther (hi.sys.weights j) _ (Or.inl (by rw [hg]; nofun))⟩
  · intro e1 e2
    obtain ⟨a1, a2⟩ := (hx j).pinsSame c hc e1 e2
    exact ⟨a1, a2, (hx j).weightsSame c hc e1 e2⟩

/-- The demo: a cell with weight is refined. -/
example : ∃ (s : Sys 2 Nat Nat) (res : Fin 2 → Proc 2 Nat Nat × List Nat),
    tinyG.WF ∧ Reachable tinyG 0 146 s ∧ stopRefining tinyG 0 146 true s = .ok res ∧
    exist (s 0).owner 1 = true ∧ Finer tinyG (exist (res 0).1.owner) 1 ∧ (s 0).weights 1 = some 7 := by
  obtain ⟨k, s, -, h1, h2, h3, -, h5, -, hi, -⟩ := tiny_history
  obtain ⟨s1, e1, e2⟩ := tiny_step h1.reachable (.setWeight 0 1 7) trivial trivial
  obtain ⟨s2, e3, -⟩ := tiny_step e2 (.stop true) trivial trivial
  obtain ⟨res, e4, -⟩ := Out.bind_inv e3
  have ho := (step_quiet (.setWeight 0 1 7) trivial e1 0).1
  refine ⟨s1, res, tiny_wf, e2, e4, by rw [ho]; exact exist_of h5,
    ((C24_least tiny_wf (.call (.setWeight 0 1 7) h1 trivial e1) e4 0).1 1 (Or.inl h2) (by decide)
      (Veto.none ?_)).2, ?_⟩
  · rintro x (h | ⟨i, h, -⟩)
    · exact h3 x h
    · cases h
  · injection e1 with e1
    rw [← e1, Sys.set_same]
    unfold setWeight
    have hl : ownLeaf tinyG 0 (s 0) 1 = true := by
      unfold ownLeaf
      rw [hi.sys.owner]; decide
    rw [hl]; rfl

end Dccrg
