import Verif.ObjectsSpec
import Verif.DebugLoad
/-!
# Objects in refinement and load balancing
-/
namespace Dccrg
open Cfg
variable {n : Nat} {D W X Y : Type} {g : Cfg} {w : Owner n} {dflt : D} {maxTag : Nat}

/-- Which cells have data after a transfer. -/
theorem transfer_isSome {snd rcv : Fin n → Fin n → List Nat} {data dest r : Fin n → Nat → Option D}
    (h : transfer maxTag snd rcv data dest = .ok r) (q : Fin n) (c : Nat) :
    (r q c).isSome = ((dest q c).isSome || decide (∃ p, c ∈ rcv q p)) := by
  unfold transfer at h
  split at h
  · cases h
  · split at h
    · cases h
    · rename_i hd
      split at h
      · cases h
      · rename_i hl
        injection h with h
        subst h
        have hlen : ∀ p, (snd p q).length = (rcv q p).length := fun p => by
          by_cases e : (snd p q).length = (rcv q p).length
          · exact e
          · exact absurd ⟨p, q, e⟩ hl
        show (match (List.finRange n).findSome? fun p => (((rcv q p).zip (snd p q)).lookup c).map fun s => (p, s) with
          | some (p, s) => data p s
          | none => dest q c).isSome = _
        cases hf : (List.finRange n).findSome? fun p => (((rcv q p).zip (snd p q)).lookup c).map fun s => (p, s) with
        | some x =>
          obtain ⟨p, s⟩ := x
          obtain ⟨p', -, e⟩ := List.exists_of_findSome?_eq_some hf
          rw [Option.map_eq_some_iff] at e
          obtain ⟨s', e1, e2⟩ := e
          injection e2 with e2 e3
          subst e2; subst e3
          obtain ⟨l1, l2, e4, -⟩ := List.lookup_eq_some_iff.1 e1
          have hm : (c, s') ∈ (rcv q p').zip (snd p' q) := by rw [e4]; simp
          obtain ⟨m1, m2⟩ := List.of_mem_zip hm
          have h1 : (data p' s').isSome = true := by
            cases hx : data p' s' with
            | some _ => rfl
            | none => exact absurd ⟨p', q, s', m2, by rw [hx]; rfl⟩ hd
          have h2 : decide (∃ p, c ∈ rcv q p) = true := decide_eq_true ⟨p', m1⟩
          rw [h2, Bool.or_true]; exact h1
        | none =>
          have h2 : ¬ ∃ p, c ∈ rcv q p := by
            rintro ⟨p, hp⟩
            rw [List.findSome?_eq_none_iff] at hf
            have e := hf p (List.mem_finRange p)
            rw [Option.map_eq_none_iff, List.lookup_eq_none_iff] at e
            obtain ⟨k, hk, e'⟩ := List.getElem_of_mem hp
            have hk' : k < (snd p q).length := by rw [hlen]; exact hk
            have hz : (c, (snd p q)[k]) ∈ (rcv q p).zip (snd p q) := by
              rw [List.mem_iff_getElem]
              refine ⟨k, by rw [List.length_zip]; omega, ?_⟩
              rw [List.getElem_zip, e']
            have := e _ hz
            simp at this
          show (dest q c).isSome = _
          rw [decide_eq_false h2, Bool.or_false]

theorem refineOne_req {i : Fin n} {c : Nat} {s s' : Proc n D W × List Nat} (hs : refineOne g dflt i c s = .ok s') :
    s'.1.req = s.1.req ∧ s'.1.remote = s.1.remote := by
  unfold refineOne at hs
  split at hs
  · cases hs
  · split at hs
    · cases hs
    · split at hs
      · cases hs
      · injection hs with hs; subst hs; exact ⟨rfl, rfl⟩

theorem unrefineOne_req {i : Fin n} {u : Nat} {s s' : Moving n D W} (hs : unrefineOne g i u s = .ok s') :
    s'.1.req = s.1.req ∧ s'.1.remote = s.1.remote := by
  unfold unrefineOne at hs
  split at hs
  · simp only at hs
    split at hs
    · split at hs
      · cases hs
      · injection hs with hs; subst hs; exact ⟨rfl, rfl⟩
    · split at hs
      · injection hs with hs; subst hs; exact ⟨rfl, rfl⟩
      · split at hs
        · injection hs with hs; subst hs; exact ⟨rfl, rfl⟩
        · injection hs with hs; subst hs; exact ⟨rfl, rfl⟩
  · cases hs

/-- Process and objects before data of unrefined cells are transferred. -/
theorem prepare_matches {i : Fin n} {p : Proc n D W} {h h' : Objs} {m : Moving n D W × List Nat} (hm : Matches p h)
    (h1 : prepare g dflt i p = .ok m) (h2 : prepareObjs g dflt i p h = .ok h') :
    Matches m.1.1 h' ∧ m.1.1.req = p.req ∧ ∀ c, m.1.1.remote c = none := by
  unfold prepare at h1
  unfold prepareObjs at h2
  simp only [] at h2
  obtain ⟨s, e1, h1⟩ := Out.bind_inv h1
  obtain ⟨s', e1', h2⟩ := Out.bind_inv h2
  rw [e1] at e1'
  injection e1' with e1'
  subst e1'
  obtain ⟨w, e2, h1⟩ := Out.bind_inv h1
  obtain ⟨w', e2', h2⟩ := Out.bind_inv h2
  rw [e2] at e2'
  injection e2' with e2'
  subst e2'
  obtain ⟨m', e3, h1⟩ := Out.bind_inv h1
  injection h1 with h1
  injection h2 with h2
  subst h1; subst h2
  have a1 : Matches s.1 _ := follow_inv (M := fun (b : Proc n D W × List Nat) c => Matches b.1 c)
    (f := refineOne g dflt i) (k := refineObjs g i) (l := dedup p.req.toRefine)
    (fun a _ b b' c hb hf => refineOne_matches hb hf)
    (b := (({ p with remote := fun _ => none, refinedData := fun _ => none, unrefinedData := fun _ => none } : Proc n D W), []))
    (c := ((h.clear .copy).clear .refined).clear .unrefined)
    (by
      intro m c
      cases m with
      | own => exact hm .own c
      | copy => rfl
      | refined => rfl
      | unrefined => rfl) e1
  have a2 : s.1.req = p.req ∧ ∀ c, s.1.remote c = none :=
    Out.fold_inv (f := refineOne g dflt i) (M := fun (b : Proc n D W × List Nat) => b.1.req = p.req ∧ ∀ c, b.1.remote c = none)
      (fun a _ b b' hb hf => by
        obtain ⟨f1, f2⟩ := refineOne_req hf
        rw [f1, f2]; exact hb) ⟨rfl, fun _ => rfl⟩ e1
  refine ⟨?_, ?_⟩
  · refine follow_inv (f := unrefineOne g i) (k := unrefineObjs g i) (M := fun (b : Moving n D W) c => Matches b.1 c) (fun a _ b b' c hb hf => unrefineOne_matches hb hf) ?_ e3
    intro m c
    have := a1 m c
    cases m <;> exact this
  · exact Out.fold_inv (f := unrefineOne g i) (M := fun (b : Moving n D W) => b.1.req = p.req ∧ ∀ c, b.1.remote c = none)
      (fun a _ b b' hb hf => by
        obtain ⟨f1, f2⟩ := unrefineOne_req hf
        rw [f1, f2]; exact hb) ⟨a2.1, a2.2⟩ e3

theorem prepareObjs_ok {i : Fin n} {p : Proc n D W} {m : Moving n D W × List Nat} (h1 : prepare g dflt i p = .ok m) (h : Objs) :
    ∃ h', prepareObjs g dflt i p h = .ok h' := by
  unfold prepare at h1
  unfold prepareObjs
  simp only []
  obtain ⟨s, e1, h1⟩ := Out.bind_inv h1
  obtain ⟨w, e2, h1⟩ := Out.bind_inv h1
  rw [e1, Out.bind_ok, e2, Out.bind_ok]
  exact ⟨_, rfl⟩

/-- Objects are made and erased in the same way as data, by `execute_refines` before copies of remote neighbors are allocated. -/
structure MatchesNew (g : Cfg) (i : Fin n) (p : Proc n D W) (h : Objs) : Prop where
  other : ∀ m c, m ≠ Pool.copy → (h.obj m c).isSome = (p.pool m c).isSome
  none : ∀ c, h.obj .copy c = none
  copy : ∀ c, (p.remote c).isSome = decide (c ∈ remoteBoundary g i p.owner p.has)

theorem execute_matches {s : Sys n D W} {h h' : Fin n → Objs} {res : Fin n → Proc n D W × List Nat} (hm : ∀ i, Matches (s i) (h i))
    (h1 : executeRefines g dflt maxTag s = .ok res) (h2 : executeObjs g dflt s h = .ok h') (i : Fin n) :
    MatchesNew g i (res i).1 (h' i) := by
  unfold executeRefines at h1
  unfold executeObjs at h2
  obtain ⟨m, e1, h1⟩ := Out.bind_inv h1
  obtain ⟨m', e1', h2⟩ := Out.bind_inv h2
  rw [e1] at e1'
  injection e1' with e1'
  subst e1'
  obtain ⟨un, e2, h1⟩ := Out.bind_inv h1
  obtain ⟨hs, e3, h2⟩ := Out.bind_inv h2
  injection h2 with h2
  obtain ⟨p1, e4, h3⟩ := Out.bind_inv (Out.collect_inv h1 i)
  obtain ⟨p2, e5, h3⟩ := Out.bind_inv h3
  injection h3 with h3
  obtain ⟨a1, a2, a3⟩ := prepare_matches (hm i) (Out.collect_inv e1 i) (Out.collect_inv e3 i)
  have hun := transfer_isSome e2 i
  have er : (res i).1 = p2 := by rw [← h3]
  rw [er, ← h2]
  unfold finishRefines at e4
  simp only [] at e4
  split at e4
  · cases e4
  · injection e4 with e4
    unfold rebuild at e5
    split at e5
    · cases e5
    · split at e5
      · cases e5
      · injection e5 with e5
        subst e5; subst e4
        refine ⟨?_, ?_, ?_⟩
        · intro k c hk
          rw [Objs.del_obj]
          have h0 := a1 k c
          cases k with
          | own =>
            show _ = (if c ∈ families g (m i).1.1.req.toUnrefine then none
              else if c ∈ parents g (m i).1.1.req.toUnrefine ∧ (m i).1.1.owner c = some i then some (((m i).1.1.data c).getD dflt)
              else (m i).1.1.data c).isSome
            by_cases hf : c ∈ families g (m i).1.1.req.toUnrefine
            · rw [if_pos ⟨rfl, hf⟩, if_pos hf]
              rfl
            · rw [if_neg (fun e => hf e.2), if_neg hf, Objs.addAll_isSome, Objs.addAll_isSome, h0]
              have e6 : (c ∈ (parents g (m i).1.1.req.toUnrefine).filter fun P => (m i).1.1.owner P == some i) ↔
                  c ∈ parents g (m i).1.1.req.toUnrefine ∧ (m i).1.1.owner c = some i := by
                rw [List.mem_filter, beq_iff_eq]
              by_cases hx : c ∈ parents g (m i).1.1.req.toUnrefine ∧ (m i).1.1.owner c = some i
              · rw [if_pos hx]
                rw [decide_eq_true (p := Pool.own = Pool.own ∧ _) ⟨rfl, e6.2 hx⟩, Bool.or_true]
                rfl
              · rw [if_neg hx]
                simp only [e6, hx, reduceCtorEq, false_and, and_false, decide_false, Bool.or_false]
                rfl
          | copy => exact absurd rfl hk
          | refined =>
            rw [if_neg (fun e => by cases e.1), Objs.addAll_isSome, Objs.addAll_isSome, h0]
            simp [Proc.pool]
          | unrefined =>
            rw [if_neg (fun e => by cases e.1), Objs.addAll_isSome, Objs.addAll_isSome, h0]
            show _ = (un i c).isSome
            rw [hun c]
            simp [Proc.pool]
        · intro c
          rw [Objs.del_obj, if_neg (fun e => by cases e.1)]
          have : ((hs i).obj .copy c).isSome = false := by rw [a1 .copy c]; show ((m i).1.1.remote c).isSome = _; rw [a3]; rfl
          rw [Objs.addAll_other _ _ _ (fun e => by cases e.1), Objs.addAll_other _ _ _ (fun e => by cases e.1)]
          cases hx : (hs i).obj .copy c with
          | none => rfl
          | some a => rw [hx] at this; cases this
        · intro c
          show (if c ∈ _ then some (((m i).1.1.remote c).getD dflt) else (m i).1.1.remote c : Option D).isSome = _
          split
          · rename_i hx; rw [decide_eq_true]; · rfl
            exact hx
          · rename_i hx; rw [decide_eq_false, a3]; · rfl
            exact hx

theorem executeObjs_ok {s : Sys n D W} {res : Fin n → Proc n D W × List Nat} (h1 : executeRefines g dflt maxTag s = .ok res)
    (h : Fin n → Objs) : ∃ h', executeObjs g dflt s h = .ok h' := by
  unfold executeRefines at h1
  unfold executeObjs
  obtain ⟨m, e1, h1⟩ := Out.bind_inv h1
  obtain ⟨h2, e2, -⟩ := Out.collect_all (f := fun i => prepareObjs g dflt i (s i) (h i)) (P := fun _ _ => True)
    (fun i => by
      obtain ⟨x, e⟩ := prepareObjs_ok (Out.collect_inv e1 i) (h i)
      exact ⟨x, e, trivial⟩)
  rw [e1, Out.bind_ok, e2, Out.bind_ok]
  exact ⟨_, rfl⟩

/-- A cell that is neither refined nor removed keeps its object. -/
theorem prepareObjs_keep {i : Fin n} {p : Proc n D W} {h h' : Objs} (h2 : prepareObjs g dflt i p h = .ok h') {c a : Nat}
    (hr : c ∉ p.req.toRefine) (hu : c ∉ families g p.req.toUnrefine) (ha : h.obj .own c = some a) : h'.obj .own c = some a := by
  unfold prepareObjs at h2
  simp only [] at h2
  obtain ⟨s, e1, h2⟩ := Out.bind_inv h2
  obtain ⟨w, e2, h2⟩ := Out.bind_inv h2
  injection h2 with h2
  subst h2
  refine follow_keep (M := fun h : Objs => h.obj .own c = some a) (fun u hu' b h hh => ?_)
    (follow_keep (M := fun h : Objs => h.obj .own c = some a) (fun r hr' b h hh => ?_) ha)
  · unfold unrefineObjs
    split
    · rw [Objs.del_obj, if_neg]
      · exact h.add_keep _ _ hh
      · rintro ⟨-, e⟩
        rw [List.mem_singleton] at e
        subst e; exact hu hu'
    · exact hh
  · unfold refineObjs
    split
    · refine Objs.addAll_keep _ _ _ ?_
      rw [Objs.del_obj, if_neg]
      · exact h.add_keep _ _ hh
      · rintro ⟨-, e⟩
        rw [List.mem_singleton] at e
        subst e; exact hr (mem_dedup.1 hr')
    · exact hh

theorem executeObjs_keep {s : Sys n D W} {h h' : Fin n → Objs} (h2 : executeObjs g dflt s h = .ok h') {i : Fin n} {c a : Nat}
    (hr : c ∉ (s i).req.toRefine) (hu : c ∉ families g (s i).req.toUnrefine) (ha : (h i).obj .own c = some a)
    (hs : ((h' i).obj .own c).isSome = true) : (h' i).obj .own c = some a := by
  unfold executeObjs at h2
  obtain ⟨m, e1, h2⟩ := Out.bind_inv h2
  obtain ⟨hs', e3, h2⟩ := Out.bind_inv h2
  injection h2 with h2
  subst h2
  replace hs : ((Objs.del Pool.own (families g (m i).1.1.req.toUnrefine) _).obj .own c).isSome = true := hs
  show (Objs.del Pool.own (families g (m i).1.1.req.toUnrefine) _).obj .own c = _
  rw [Objs.del_obj] at hs ⊢
  split at hs
  · cases hs
  · rename_i e
    rw [if_neg e]
    exact Objs.addAll_keep _ _ _ (Objs.addAll_keep _ _ _ (prepareObjs_keep (Out.collect_inv e3 i) hr hu ha))

theorem prepareObjs_distinct {i : Fin n} {p : Proc n D W} {h h' : Objs} (h2 : prepareObjs g dflt i p h = .ok h') (hd : h.Distinct) :
    h'.Distinct := by
  unfold prepareObjs at h2
  simp only [] at h2
  obtain ⟨s, e1, h2⟩ := Out.bind_inv h2
  obtain ⟨w, e2, h2⟩ := Out.bind_inv h2
  injection h2 with h2
  subst h2
  refine follow_keep (M := fun h : Objs => h.Distinct) (fun u hu' b h hh => ?_)
    (follow_keep (M := fun h : Objs => h.Distinct) (fun r hr' b h hh => ?_) (((hd.clear _).clear _).clear _))
  · unfold unrefineObjs
    split
    · exact (hh.add _ _).del _ _
    · exact hh
  · unfold refineObjs
    split
    · exact ((hh.add _ _).del _ _).addAll _ _
    · exact hh

theorem executeObjs_distinct {s : Sys n D W} {h h' : Fin n → Objs} (h2 : executeObjs g dflt s h = .ok h')
    (hd : ∀ i, (h i).Distinct) (i : Fin n) : (h' i).Distinct := by
  unfold executeObjs at h2
  obtain ⟨m, e1, h2⟩ := Out.bind_inv h2
  obtain ⟨hs', e3, h2⟩ := Out.bind_inv h2
  injection h2 with h2
  subst h2
  exact (((prepareObjs_distinct (Out.collect_inv e3 i) (hd i)).addAll _ _).addAll _ _).del _ _

/-! ## Stopping refinement -/

/-- What is executed. -/
theorem stop_split (hw : g.WF) {sorted : Bool} {s : Sys n D W} (hs : SysCore g w s) (hr : ∀ i, ReqOk g w (s i).req)
    {res : Fin n → Proc n D W × List Nat} (h : stopRefining g dflt maxTag sorted s = .ok res) :
    ∃ (q : Fin n → Req) (res' : Fin n → Proc n D W × List Nat),
      executeRefines g dflt maxTag (fun i => { s i with req := q i }) = .ok res' ∧ (∀ i, (res i).1 = (res' i).1) ∧
      (∀ h, stopObjs g dflt s h = executeObjs g dflt (fun i => { s i with req := q i }) h) ∧
      (∀ i c, c ∈ (q i).toRefine ↔ Refines g w s c) ∧ ∀ i c, c ∈ (q i).toUnrefine ↔ Unrefines g w s c := by
  have ht := hs.tiled
  have hb := hs.balanced
  obtain ⟨r, o1, o2⟩ := overrideRefines_spec hw ht hb (fun i => (s i).req)
  have hQ : ∀ c, ((∃ j, c ∈ (s j).req.toRefine) ∧ ¬ Vetoed g w s c) → exist w c = true := by
    rintro c ⟨⟨j, hj⟩, -⟩
    exact ((hr j).refine c hj).1
  obtain ⟨refs, i1, i2⟩ := induceRefines_spec hw ht hb (has := fun i c => ((s i).data c).isSome)
    hs.placed _ hQ (refs := fun i => (r i).toRefine) (fun i c => (o2 i).2.1 c)
  obtain ⟨un, u1, u2⟩ := overrideUnrefines_spec hw ht hb (notUnref := fun i => (r i).notUnrefine)
    (unref := fun i => (r i).toUnrefine) (R := Refines g w s) i2
    (by
      intro i u hu
      rw [(o2 i).2.2.1] at hu
      obtain ⟨e1, e2, e3⟩ := (hr i).unrefine u hu
      exact ⟨e1, e2, e3⟩)
  have hU : ∀ i u, u ∈ un i ↔ Unrefines g w s u := by
    intro i u
    rw [u2]
    unfold Unrefines
    constructor
    · rintro ⟨⟨j, h1⟩, h2, h3⟩
      refine ⟨⟨j, by rw [← (o2 j).2.2.1]; exact h1⟩, fun k hk => ⟨(h2 k hk).1, fun j => ?_⟩, h3⟩
      rw [← (o2 j).2.2.2]; exact (h2 k hk).2 j
    · rintro ⟨⟨j, h1⟩, h2, h3⟩
      refine ⟨⟨j, by rw [(o2 j).2.2.1]; exact h1⟩, fun k hk => ⟨(h2 k hk).1, fun j => ?_⟩, h3⟩
      rw [(o2 j).2.2.2]; exact (h2 k hk).2 j
  have e1 : (fun i => exist (s i).owner) = fun _ => exist w := funext fun i => by rw [hs.owner i]
  have e2 : (fun i => (s i).owner) = fun _ => w := funext hs.owner
  unfold stopRefining at h
  rw [e1, o1, e2] at h
  simp only [] at h
  rw [i1, Out.bind_ok, u1, Out.bind_ok] at h
  obtain ⟨res', h1, h2⟩ := Out.bind_inv h
  injection h2 with h2
  subst h2
  refine ⟨fun i => ⟨refs i, un i, (r i).notRefine, []⟩, res', h1, fun _ => rfl, fun h => ?_, i2, hU⟩
  unfold stopObjs
  rw [e1, o1, e2]
  simp only []
  rw [i1, Out.bind_ok, u1, Out.bind_ok]

/-! ## Load balancing -/

theorem balance_matches {z : Fin n → Moves n} {s s' : Sys n D W} {h h' : Fin n → Objs} (hm : ∀ i, Matches (s i) (h i))
    (h1 : balanceLoad g dflt maxTag z s = .ok s') (h2 : balanceObjs g dflt z s h = .ok h') (i : Fin n) :
    MatchesNew g i (s' i) (h' i) := by
  unfold balanceLoad at h1
  unfold balanceObjs at h2
  obtain ⟨b, e1, h1⟩ := Out.bind_inv h1
  obtain ⟨b', e1', h2⟩ := Out.bind_inv h2
  rw [e1] at e1'
  injection e1' with e1'
  subst e1'
  injection h2 with h2
  obtain ⟨b2, e2, h1⟩ := Out.bind_inv h1
  obtain ⟨d, e3, e2⟩ := Out.bind_inv e2
  injection e2 with e2
  have hd := transfer_isSome e3 i
  have h1 := Out.collect_inv h1 i
  split at h1
  · cases h1
  · unfold rebuild at h1
    split at h1
    · cases h1
    · split at h1
      · cases h1
      · injection h1 with h1
        subst h2; subst e2
        have hb := Out.collect_inv e1 i
        unfold initBalance at hb
        simp only [] at hb
        split at hb
        · cases hb
        · injection hb with hb
          rw [← h1]
          have hbp : (b i).proc.remote = fun _ => none := by rw [← hb]
          have hbr : (b i).proc.refinedData = fun _ => none := by rw [← hb]
          have hbu : (b i).proc.unrefinedData = fun _ => none := by rw [← hb]
          have hbd : ∀ c, ((b i).proc.data c).isSome = (((s i).data c).isSome || decide (∃ q, c ∈ (b i).recv q)) := by
            intro c
            rw [← hb]
            show (if ∃ q, c ∈ _ then some (((s i).data c).getD dflt) else (s i).data c).isSome = _
            split
            · rename_i hx; rw [decide_eq_true hx, Bool.or_true]; rfl
            · rename_i hx; rw [decide_eq_false hx, Bool.or_false]
          have ha : ∀ c, c ∈ (List.finRange n).flatMap (b i).recv ↔ ∃ q, c ∈ (b i).recv q := by
            intro c; rw [List.mem_flatMap]; simp
          have hl : ∀ c, c ∈ (List.finRange n).flatMap (b i).send ↔ ∃ q, c ∈ (b i).send q := by
            intro c; rw [List.mem_flatMap]; simp
          refine ⟨?_, ?_, ?_⟩
          · intro k c hk
            rw [Objs.del_obj]
            cases k with
            | own =>
              show _ = (if ∃ q, c ∈ (b i).send q then none else d i c).isSome
              by_cases hx : ∃ q, c ∈ (b i).send q
              · rw [if_pos ⟨rfl, (hl c).2 hx⟩, if_pos hx]; rfl
              · rw [if_neg (fun e => hx ((hl c).1 e.2)), if_neg hx, hd, hbd, Objs.addAll_isSome]
                simp only [Objs.clear_obj, reduceCtorEq, if_false]
                rw [Objs.addAll_isSome, hm i .own c]
                simp only [ha, true_and]
                rfl
            | copy => exact absurd rfl hk
            | refined =>
              rw [if_neg (fun e => by cases e.1), Objs.addAll_isSome]
              show _ = ((b i).proc.refinedData c).isSome
              rw [hbr]
              simp [Objs.clear_obj]
            | unrefined =>
              rw [if_neg (fun e => by cases e.1), Objs.addAll_isSome]
              show _ = ((b i).proc.unrefinedData c).isSome
              rw [hbu]
              simp [Objs.clear_obj]
          · intro c
            rw [Objs.del_obj, if_neg (fun e => by cases e.1), Objs.addAll_other _ _ _ (fun e => by cases e.1)]
            simp [Objs.clear_obj]
          · intro c
            show (if c ∈ _ then some (((b i).proc.remote c).getD dflt) else (b i).proc.remote c : Option D).isSome = _
            split
            · rename_i hx; rw [decide_eq_true]; · rfl
              exact hx
            · rename_i hx; rw [decide_eq_false, hbp]; · rfl
              exact hx

theorem balanceObjs_ok {z : Fin n → Moves n} {s s' : Sys n D W} (h1 : balanceLoad g dflt maxTag z s = .ok s') (h : Fin n → Objs) :
    ∃ h', balanceObjs g dflt z s h = .ok h' := by
  unfold balanceLoad at h1
  unfold balanceObjs
  obtain ⟨b, e1, h1⟩ := Out.bind_inv h1
  rw [e1, Out.bind_ok]
  exact ⟨_, rfl⟩

theorem balanceObjs_keep {z : Fin n → Moves n} {s : Sys n D W} {h h' : Fin n → Objs} (h2 : balanceObjs g dflt z s h = .ok h')
    {i : Fin n} {c a : Nat} (ha : (h i).obj .own c = some a) (hs : ((h' i).obj .own c).isSome = true) :
    (h' i).obj .own c = some a := by
  unfold balanceObjs at h2
  obtain ⟨b, e1, h2⟩ := Out.bind_inv h2
  injection h2 with h2
  subst h2
  replace hs : ((Objs.del Pool.own ((List.finRange n).flatMap (b i).send) _).obj .own c).isSome = true := hs
  show (Objs.del Pool.own ((List.finRange n).flatMap (b i).send) _).obj .own c = _
  rw [Objs.del_obj] at hs ⊢
  split at hs
  · cases hs
  · rename_i e
    rw [if_neg e]
    refine Objs.addAll_keep _ _ _ ?_
    simp only [Objs.clear_obj, reduceCtorEq, if_false]
    exact Objs.addAll_keep _ _ _ ha

theorem balanceObjs_distinct {z : Fin n → Moves n} {s : Sys n D W} {h h' : Fin n → Objs} (h2 : balanceObjs g dflt z s h = .ok h')
    (hd : ∀ i, (h i).Distinct) (i : Fin n) : (h' i).Distinct := by
  unfold balanceObjs at h2
  obtain ⟨b, e1, h2⟩ := Out.bind_inv h2
  injection h2 with h2
  subst h2
  exact ((((((hd i).addAll _ _).clear _).clear _).clear _).addAll _ _).del _ _

/-- Objects match when copies of remote neighbors have been allocated. -/
theorem MatchesNew.alloc {i : Fin n} {p : Proc n D W} {h : Objs} (hm : MatchesNew g i p h) {σ : Store n} {b : Bool} {a : Option Cache}
    (hc : Coherent g i p σ b a) : Matches p (h.alloc σ) := by
  intro k c
  unfold Objs.alloc
  rw [Objs.addAll_isSome]
  by_cases hk : k = .copy
  · subst hk
    rw [hm.none, hc.rem]
    show _ = (p.remote c).isSome
    rw [hm.copy]
    simp only [mem_dedup, true_and]
    rfl
  · rw [hm.other k c hk]
    simp [hk]

end Dccrg
