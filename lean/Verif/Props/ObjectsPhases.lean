import Verif.ObjectsPhases
import Verif.Props.Objects
import Verif.Props.StoredPhases
/-!
# C109: pointers to data of cells when load is balanced in phases

As C89, after histories in which load is also balanced in phases (`Viewing`), and which pointers are valid between phases.
-/
namespace Dccrg
open Cfg
variable {n : Nat} {D W X Y : Type} {g : Cfg} {w : Owner n} {dflt : D} {maxTag : Nat} {s s' t : Sys n D W} {σ σ' : Fin n → Store n}
  {e : Extras n X Y} {v v' : Fin n → Views n X Y} {k : Calls} {b0 b1 : Fin n → Balancing n D W} {z : Fin n → Moves n}
  {h h' h0 : Fin n → Objs} {b : Bool}

/-! ## Objects between phases -/

theorem MeanwhileObjs.meanwhile (hm : MeanwhileObjs g dflt maxTag σ b0 h0 k b1 h) :
    Meanwhile g dflt maxTag (fun _ => True) b0 k b1 := by
  induction hm with
  | start => exact .start
  | move m _ hr ih => exact .move m ih hr
  | call op i _ ho hs _ ih => exact .call op i ih ho trivial hs

theorem call_objs {op : Op n D W} {i : Fin n} (ho : op.caller = some i) (s : Sys n D W) (σ : Fin n → Store n) (h : Fin n → Objs) :
    ∃ h', objsAfter g dflt s σ h op = .ok h' ∧ ∀ j, h' j = h j ∨ h' j = ((h j).clear .refined).clear .unrefined := by
  cases op with
  | clearRefined i =>
    refine ⟨_, rfl, fun j => ?_⟩
    show (if j = i then _ else h j) = h j ∨ (if j = i then _ else h j) = _
    split
    · exact Or.inr rfl
    · exact Or.inl rfl
  | unpinAll => cases ho
  | update => cases ho
  | addHood => cases ho
  | removeHood => cases ho
  | stop => cases ho
  | balance => cases ho
  | _ => exact ⟨_, rfl, fun _ => Or.inl rfl⟩

theorem Meanwhile.objs {P : Op n D W → Prop} (hm : Meanwhile g dflt maxTag P b0 k b1) (σ : Fin n → Store n) (h0 : Fin n → Objs) :
    ∃ h, MeanwhileObjs g dflt maxTag σ b0 h0 k b1 h := by
  induction hm with
  | start => exact ⟨_, .start⟩
  | move m _ hr ih =>
    obtain ⟨h, ih⟩ := ih
    exact ⟨_, .move m ih hr⟩
  | call op i _ ho _ hs ih =>
    obtain ⟨h, ih⟩ := ih
    obtain ⟨h', e, -⟩ := call_objs ho _ _ h
    exact ⟨_, .call op i ih ho hs e⟩

theorem mem_flat {f : Fin n → List Nat} {c : Nat} : c ∈ (List.finRange n).flatMap f ↔ ∃ q, c ∈ f q := by
  rw [List.mem_flatMap]; simp

/-- Nothing that happens between phases changes objects. -/
theorem MeanwhileObjs.same (hm : MeanwhileObjs g dflt maxTag σ b0 h0 k b1 h) :
    (∀ i, (b1 i).recv = (b0 i).recv ∧ (b1 i).send = (b0 i).send) ∧ h = fun i => openObjs (b0 i) (h0 i) := by
  induction hm with
  | start => exact ⟨fun _ => ⟨rfl, rfl⟩, rfl⟩
  | @move k b1 b2 h m _ hr ih =>
    obtain ⟨h1, h2⟩ := ih
    obtain ⟨d, -, e⟩ := Out.bind_inv hr
    injection e with e
    subst e
    refine ⟨h1, ?_⟩
    funext i
    show moveObjs (b1 i) (h i) = _
    rw [h2]
    unfold moveObjs
    rw [(h1 i).1]
    refine Objs.addAll_same _ _ _ fun c hc => ?_
    unfold openObjs
    simp only [Objs.clear_obj, reduceCtorEq, if_false]
    rw [Objs.addAll_isSome, decide_eq_true ⟨rfl, hc⟩, Bool.or_true]
  | @call k b1 s2 h h' op i _ ho hs hh ih =>
    obtain ⟨h1, h2⟩ := ih
    refine ⟨h1, ?_⟩
    obtain ⟨h3, e1, e2⟩ := call_objs (g := g) (dflt := dflt) ho (inside b1) σ h
    rw [e1] at hh
    injection hh with hh
    rw [← hh]
    funext j
    rcases e2 j with e2 | e2
    · rw [e2, h2]
    · rw [e2, h2]
      unfold openObjs Objs.clear
      congr 1
      funext m c
      cases m <;> simp

theorem openObjs_other (b : Balancing n D W) (h : Objs) (c : Nat) :
    (openObjs b h).obj .copy c = none ∧ (openObjs b h).obj .refined c = none ∧ (openObjs b h).obj .unrefined c = none := by
  unfold openObjs
  simp [Objs.clear_obj]

theorem openObjs_own (b : Balancing n D W) (h : Objs) (c : Nat) :
    (openObjs b h).obj .own c = (h.addAll .own ((List.finRange n).flatMap b.recv)).obj .own c := by
  unfold openObjs
  simp [Objs.clear_obj]

theorem openObjs_access (b : Balancing n D W) (h : Objs) (c : Nat) : (openObjs b h).access c = (openObjs b h).obj .own c := by
  obtain ⟨h1, h2, h3⟩ := openObjs_other b h c
  unfold Objs.access
  rw [h1, h2, h3]
  cases (openObjs b h).obj .own c <;> rfl

theorem Objs.addAll_new (m : Pool) (l : List Nat) (h : Objs) {m' : Pool} {x a : Nat} (ha : (h.addAll m l).obj m' x = some a) :
    h.obj m' x = some a ∨ h.next ≤ a := by
  unfold Objs.addAll at ha
  induction l generalizing h with
  | nil => exact Or.inl ha
  | cons c l ih =>
    rw [List.foldl_cons] at ha
    have hn : h.next ≤ (h.add m c).next := by
      unfold Objs.add
      split
      · exact Nat.le_refl _
      · exact Nat.le_succ _
    rcases ih _ ha with h1 | h1
    · unfold Objs.add at h1
      split at h1
      · exact Or.inl h1
      · replace h1 : (if m' = m ∧ x = c then some h.next else h.obj m' x) = some a := h1
        split at h1
        · injection h1 with h1
          exact Or.inr (by omega)
        · exact Or.inl h1
    · exact Or.inr (by omega)

theorem openObjs_distinct (b : Balancing n D W) {h : Objs} (hd : h.Distinct) : (openObjs b h).Distinct :=
  (((hd.addAll _ _).clear _).clear _).clear _

theorem startBalance_some (h1 : startBalance g dflt maxTag z s = .ok b0) (i : Fin n) (c : Nat) :
    ((b0 i).proc.data c).isSome = (((s i).data c).isSome || decide (∃ q, c ∈ (b0 i).recv q)) := by
  unfold startBalance at h1
  obtain ⟨b', e1, e2⟩ := Out.bind_inv h1
  split at e2
  · cases e2
  · injection e2 with e2
    subst e2
    have hb := Out.collect_inv e1 i
    unfold initBalance at hb
    simp only [] at hb
    split at hb
    · cases hb
    · injection hb with hb
      rw [← hb]
      show (if ∃ q, c ∈ _ then some (((s i).data c).getD dflt) else (s i).data c).isSome = _
      split
      · rename_i hx; rw [decide_eq_true hx, Bool.or_true]; rfl
      · rename_i hx; rw [decide_eq_false hx, Bool.or_false]

/-- Objects are those of data also after load has been balanced in phases. -/
theorem phases_matches (hm : ∀ i, Matches (s i) (h i)) (h1 : startBalance g dflt maxTag z s = .ok b0)
    (hr : ∀ i, (b1 i).recv = (b0 i).recv ∧ (b1 i).send = (b0 i).send)
    (hd : ∀ i c, ((b1 i).proc.data c).isSome = ((b0 i).proc.data c).isSome) (h2 : ∀ i, (b1 i).proc.remote = fun _ => none)
    (h3 : ∀ i, (b1 i).proc.refinedData = fun _ => none) (h4 : ∀ i, (b1 i).proc.unrefinedData = fun _ => none)
    (h5 : finishBalance g dflt maxTag b1 = .ok t) (i : Fin n) :
    MatchesNew g i (t i) (closeObjs (b1 i) (openObjs (b0 i) (h i))) ∧
      (∀ c, (t i).refinedData c = none ∧ (t i).unrefinedData c = none) := by
  have hb0 := startBalance_some h1 i
  have hf := Out.collect_inv h5 i
  split at hf
  · cases hf
  · unfold rebuild at hf
    split at hf
    · cases hf
    · split at hf
      · cases hf
      · injection hf with hf
        rw [← hf]
        refine ⟨⟨?_, ?_, ?_⟩, fun c => ⟨by show (b1 i).proc.refinedData c = none; rw [h3], by
          show (b1 i).proc.unrefinedData c = none; rw [h4]⟩⟩
        · intro m c hmc
          unfold closeObjs
          rw [Objs.del_obj]
          cases m with
          | own =>
            show _ = (if ∃ q, c ∈ (b1 i).send q then none else (b1 i).proc.data c).isSome
            by_cases hx : ∃ q, c ∈ (b1 i).send q
            · rw [if_pos ⟨rfl, mem_flat.2 hx⟩, if_pos hx]; rfl
            · rw [if_neg (fun e => hx (mem_flat.1 e.2)), if_neg hx, hd, hb0, openObjs_own, Objs.addAll_isSome, hm i .own c]
              simp only [mem_flat, true_and]
              rfl
          | copy => exact absurd rfl hmc
          | refined =>
            rw [if_neg (fun e => by cases e.1), (openObjs_other _ _ c).2.1]
            show _ = ((b1 i).proc.refinedData c).isSome
            rw [h3]; rfl
          | unrefined =>
            rw [if_neg (fun e => by cases e.1), (openObjs_other _ _ c).2.2]
            show _ = ((b1 i).proc.unrefinedData c).isSome
            rw [h4]; rfl
        · intro c
          unfold closeObjs
          rw [Objs.del_obj, if_neg (fun e => by cases e.1), (openObjs_other _ _ c).1]
        · intro c
          show (if c ∈ _ then some (((b1 i).proc.remote c).getD dflt) else (b1 i).proc.remote c : Option D).isSome = _
          split
          · rename_i hx; rw [decide_eq_true]; · rfl
            exact hx
          · rename_i hx; rw [decide_eq_false, h2]; · rfl
            exact hx

/-- Shape of processes between phases. -/
theorem Loose.midOk (hw : g.WF) (hn : 0 < n) (hl : Loose g w s) (ho : (Op.balance z : Op n D W).Ok s)
    (h1 : startBalance g dflt maxTag z s = .ok b0) {P : Op n D W → Prop} (h2 : Meanwhile g dflt maxTag P b0 k b1) :
    Midway g w b0 k b1 := by
  have hz := hl.moves hn ho
  obtain ⟨t', f1, f0, -, f3⟩ := tidied hl.clean hl.pins ⟨0, hn⟩
  have e : startBalance g dflt maxTag z t' = .ok b0 := by
    rw [← h1]
    unfold startBalance
    rw [show (fun i => initBalance g dflt t' z i) = fun i => initBalance g dflt s z i from funext (f3 dflt z)]
  exact meanwhile_midway hw hz f1.sys e h2

theorem Reached.ready (hw : g.WF) (hr : Reached g dflt maxTag s) (hn : 0 < n) :
    ∃ w, SysCore g w s ∧ ∀ i, ReqOk g w (s i).req := by
  obtain ⟨w, hl⟩ := hr.loose hw hn
  exact ⟨w, hl.core, hl.req⟩

theorem balance_bare (h : balanceLoad g dflt maxTag z s = .ok s') (i : Fin n) :
    (s' i).hoods = (s i).hoods ∧ ∀ c, (s' i).refinedData c = none ∧ (s' i).unrefinedData c = none := by
  unfold balanceLoad at h
  obtain ⟨b, e1, h⟩ := Out.bind_inv h
  obtain ⟨b2, e2, h⟩ := Out.bind_inv h
  obtain ⟨d, -, e2⟩ := Out.bind_inv e2
  injection e2 with e2
  have h := Out.collect_inv h i
  split at h
  · cases h
  · unfold rebuild at h
    split at h
    · cases h
    · split at h
      · cases h
      · injection h with h
        subst e2
        have hb := Out.collect_inv e1 i
        unfold initBalance at hb
        simp only [] at hb
        split at hb
        · cases hb
        · injection hb with hb
          rw [← h]
          refine ⟨?_, fun c => ⟨?_, ?_⟩⟩
          · show (b i).proc.hoods = _
            rw [← hb]
          · show (b i).proc.refinedData c = _
            rw [← hb]
          · show (b i).proc.unrefinedData c = _
            rw [← hb]

/-- Objects and items in histories with phases. -/
theorem Viewing.ok (hw : g.WF) (h : Viewing e g dflt maxTag s σ v) :
    (∃ b, Storing g dflt maxTag s σ b) ∧ ∀ i, ViewOk e (s i) (σ i) (v i) := by
  induction h with
  | @init D dflt maxTag s σ hs hc =>
    obtain ⟨⟨b, h1⟩, h2⟩ := (WithViews.init (e := e) hs hc).ok hw
    exact ⟨⟨b, h1.storing⟩, h2⟩
  | @step D dflt maxTag s s' σ σ' v h op hv ho hs hh ih =>
    obtain ⟨⟨b, hst⟩, hv⟩ := ih
    have hst' := Storing.step op hst ho hs
    obtain ⟨hr, hc⟩ := hst.coherent hw
    obtain ⟨-, hc'⟩ := hst'.coherent hw
    refine ⟨⟨_, hst'⟩, fun i => ?_⟩
    obtain ⟨s2, h1, h2⟩ := Out.bind_inv hs
    obtain ⟨σ2, h3, h4⟩ := Out.bind_inv h2
    injection h4 with h4
    injection h4 with h4 h5
    subst h4; subst h5
    obtain ⟨w, h0, h0'⟩ := hr.ready hw (by have := i.2; omega)
    refine viewsAfter_ok hw (hr.good hw) h0 h0' h1 hc (fun i => Out.collect_inv h3 i) hc' hv hh i fun z e => ?_
    subst e
    exact balance_bare h1 i
  | @copy D D0 dflt dflt0 maxTag s σ σ' v hv hs ih =>
    obtain ⟨⟨b, hst⟩, hv⟩ := ih
    have hst' := Storing.copy (dflt := dflt) hst hs
    obtain ⟨hr, hc⟩ := hst'.coherent hw
    refine ⟨⟨_, hst'⟩, fun i => ?_⟩
    obtain ⟨w, hg⟩ := hr.good hw i
    exact viewsCopy_ok (hc i) hg (Out.collect_inv hs i)
  | @phases D dflt maxTag s t σ σ' v k b0 b1 h z hv ho h1 h2 h3 hs ih =>
    obtain ⟨⟨b, hst⟩, hv⟩ := ih
    have hst' := Storing.phases z hst ho h1 h2.meanwhile h3 hs
    obtain ⟨hr, hc⟩ := hst.coherent hw
    obtain ⟨-, hc'⟩ := hst'.coherent hw
    refine ⟨⟨_, hst'⟩, fun i => ?_⟩
    have hn : 0 < n := by have := i.2; omega
    obtain ⟨w, hl⟩ := hr.loose hw hn
    have hmid := hl.midOk hw hn ho h1 h2.meanwhile
    obtain ⟨e1, e2⟩ := h2.same
    have hmt := phases_matches (h := fun i => (v i).objs) (fun i => (hv i).objs) h1 e1 (fun i c => (hmid.proc i).some c)
      (fun i => (hmid.proc i).remote) (fun i => (hmid.proc i).refined) (fun i => (hmid.proc i).unrefined) h3 i
    have e3 : h i = openObjs (b0 i) (v i).objs := by rw [e2]
    show ViewOk e (t i) (σ' i) (viewsAfter e g (.balance z : Op n D W) (s i) (t i) (σ' i) (closeObjs (b1 i) (h i)) (v i))
    rw [e3]
    exact (hv i).rebuilt (hc i) (hc' i) hmt.1 ((openObjs_distinct _ (hv i).distinct).del _ _)
      (hl.phases_hoods hw hn ho h1 h2.meanwhile h3 i)
      (fun c hx => by rw [(hmt.2 c).1, (hmt.2 c).2] at hx; rcases hx with hx | hx <;> cases hx)

theorem Viewing.progress {D : Type} {dflt : D} {maxTag : Nat} {s s' : Sys n D W} {σ σ' : Fin n → Store n}
    {v : Fin n → Views n X Y} (hw : g.WF) (h : Viewing e g dflt maxTag s σ v) (op : Op n D W)
    (hs : stepStored g dflt maxTag s σ op = .ok (s', σ')) : ∃ h, objsAfter g dflt s σ (fun i => (v i).objs) op = .ok h := by
  obtain ⟨⟨b, hst⟩, hv⟩ := h.ok hw
  obtain ⟨hr, hc⟩ := hst.coherent hw
  obtain ⟨s2, h1, h2⟩ := Out.bind_inv hs
  exact objsAfter_ok hw (hr.good hw) (hr.ready hw) h1 hc (fun i => (hv i).objs)

theorem Storing.views {D : Type} {dflt : D} {maxTag : Nat} {s : Sys n D W} {σ : Fin n → Store n} {b : Bool} (hw : g.WF)
    (h : Storing g dflt maxTag s σ b) : ∃ v, Viewing e g dflt maxTag s σ v := by
  induction h with
  | init hs hc => exact ⟨_, .init hs hc⟩
  | step op hst ho hs ih =>
    obtain ⟨v, hv⟩ := ih
    obtain ⟨h, hh⟩ := hv.progress hw op hs
    exact ⟨_, .step op hv ho hs hh⟩
  | copy hst hs ih =>
    obtain ⟨v, hv⟩ := ih
    exact ⟨_, .copy hv hs⟩
  | phases z hst ho h1 h2 h3 hs ih =>
    obtain ⟨v, hv⟩ := ih
    obtain ⟨h, hh⟩ := h2.objs _ fun i => (v i).objs
    exact ⟨_, .phases z hv ho h1 hh h3 hs⟩

theorem Reached.iter_ranges (hw : g.WF) (hr : Reached g dflt maxTag s) (i : Fin n) {id : Int}
    (hid : (hoodFor g (s i) id).isSome = true) :
    ∃ k, updatePointers g i (s i) id = .ok k ∧
      Enumerates k k.inner (fun c => (s i).owner c = some i ∧ ¬ OnBoundary g i (s i) id c) ∧
      Enumerates k k.outer (OnBoundary g i (s i) id) ∧
      Enumerates k k.loc (fun c => (s i).owner c = some i) ∧
      Enumerates k k.remote (RemoteNbr g i (s i) defaultId) ∧
      Enumerates k k.all (fun c => (s i).owner c = some i ∨ RemoteNbr g i (s i) defaultId c) ∧
      (∀ x ∈ range k.cells k.all, NbrRanges g (s i) id k x ∧ (access (s i) x.id).isSome = true ∧
        ((s i).owner x.id = some i → ∀ y ∈ range k.nbrs x.all, (access (s i) y.1).isSome = true)) := by
  obtain ⟨w, hl⟩ := hr.loose hw (by have := i.2; omega)
  have hf := (hr.hoods_fresh hw i).2
  obtain ⟨k, h1, h2, h3, h4, h5, h6, h7⟩ := hl.clean.iter_ranges hw i
    (Alike.fresh (q := withNotes (s i) (s i).req (fun _ => none) (fun _ => none)) rfl hf) hid
  exact ⟨k, h1, h2, h3, h4, h5, h6, fun x hx => ⟨⟨(h7 x hx).1.of, (h7 x hx).1.to, (h7 x hx).1.all⟩, (h7 x hx).2⟩⟩

/-! ## The property -/

/-- C109: whatever can be done with a grid can be done with objects and items too, objects never make a call fail. -/
theorem C109_histories (hw : g.WF) :
    ((∃ b, Storing g dflt maxTag s σ b) ↔ ∃ v, Viewing e g dflt maxTag s σ v) ∧
    (Viewing e g dflt maxTag s σ v → ∀ op : Op n D W, stepStored g dflt maxTag s σ op = .ok (s', σ') →
      ∃ h, objsAfter g dflt s σ (fun i => (v i).objs) op = .ok h) ∧
    (Meanwhile g dflt maxTag (fun _ => True) b0 k b1 ↔ ∃ h, MeanwhileObjs g dflt maxTag σ b0 h0 k b1 h) :=
  ⟨⟨fun ⟨_, h⟩ => h.views hw, fun ⟨_, h⟩ => (h.ok hw).1⟩, fun h op hs => h.progress hw op hs,
    fun h => h.objs σ h0, fun ⟨_, h⟩ => h.meanwhile⟩

/-- C109: after any history with phases `operator[]` gives a pointer exactly for those cells whose data the process has, a cell of
the process has its own object, and pointers to different cells are different. -/
theorem C109_access (hw : g.WF) (h : Viewing e g dflt maxTag s σ v) (i : Fin n) (c : Nat) :
    ((v i).objs.access c).isSome = (access (s i) c).isSome ∧
    ((s i).owner c = some i → ∃ a, (v i).objs.access c = some a ∧ (v i).objs.obj .own c = some a) ∧
    ∀ c' a, (v i).objs.access c = some a → (v i).objs.access c' = some a → c = c' := by
  obtain ⟨⟨b, hst⟩, hv⟩ := h.ok hw
  obtain ⟨hr, -⟩ := hst.coherent hw
  obtain ⟨w, hg⟩ := hr.good hw i
  exact (hv i).pointers hg c

/-- C109: after any history with phases every item has the pointer which `operator[]` gives, as in C89. -/
theorem C109_items (hw : g.WF) (h : Viewing e g dflt maxTag s σ v) (i : Fin n) (id : Int) {l : List (CellView X Y)}
    (hl : (v i).items id = some l) :
    (hoodFor g (s i) id).isSome = true ∧ (l.map (·.id)).Nodup ∧
    (∀ c, c ∈ l.map (·.id) ↔ (s i).owner c = some i ∨ RemoteNbr g i (s i) defaultId c) ∧
    ∀ x ∈ l, x.data = (v i).objs.access x.id ∧ x.data.isSome = true ∧ x.extra = e.cell (s i).owner x.id ∧
      (∀ b, b ∈ x.nbrs.map (·.id) ↔ NbrAny g (s i) id x.id b) ∧
      ∀ y ∈ x.nbrs, y.data = (v i).objs.access y.id ∧ y.extra = e.nbr (s i).owner id x.id (y.id, y.off) ∧
        ((s i).owner x.id = some i → y.data.isSome = true) := by
  obtain ⟨⟨b, hst⟩, hv⟩ := h.ok hw
  obtain ⟨hr, hc⟩ := hst.coherent hw
  refine (hv i).views (hc i) (fun hid => ?_) hl
  obtain ⟨k, e1, -, -, -, -, e2, e3⟩ := hr.iter_ranges hw i hid
  exact ⟨k, e1, e2, e3⟩

/-- C109: pointers and items that stay valid after a call which is not part of balancing in phases, as in C89. -/
theorem C109_kept (hw : g.WF) (h : Viewing e g dflt maxTag s σ v) {op : Op n D W} (ho : op.Ok s)
    (hs : stepStored g dflt maxTag s σ op = .ok (s', σ')) {o : Fin n → Objs}
    (hh : objsAfter g dflt s σ (fun i => (v i).objs) op = .ok o) (i : Fin n)
    (hv' : v' i = viewsAfter e g op (s i) (s' i) (σ' i) (o i) (v i)) :
    (∀ c, (s i).owner c = some i → (s' i).owner c = some i → (v' i).objs.access c = (v i).objs.access c) ∧
    (op.changes = false →
      (∀ c, exist (s i).owner c = true → (v' i).objs.access c = (v i).objs.access c) ∧
      ((∀ j, op ≠ .clearRefined j) → (v' i).objs = (v i).objs) ∧
      (v' i).dflt = (v i).dflt ∧
      ∀ id, (∀ items, op ≠ .addHood id items) → op ≠ .removeHood id → (v' i).items id = (v i).items id) := by
  obtain ⟨⟨b, hst⟩, hv⟩ := h.ok hw
  obtain ⟨hr, hc⟩ := hst.coherent hw
  obtain ⟨w, h0, h0'⟩ := hr.ready hw (by have := i.2; omega)
  obtain ⟨w1, hg⟩ := hr.good hw i
  have hst' := Storing.step op hst ho hs
  obtain ⟨hr', hc'⟩ := hst'.coherent hw
  obtain ⟨w', hg'⟩ := hr'.good hw i
  have hv2 := ((Viewing.step op h ho hs hh).ok hw).2 i
  rw [← hv'] at hv2
  obtain ⟨s2, h1, h2⟩ := Out.bind_inv hs
  obtain ⟨σ2, h3, h4⟩ := Out.bind_inv h2
  injection h4 with h4
  injection h4 with h4 h5
  subst h4; subst h5
  exact objs_kept hw (hr.good hw) h0 h0' hc hv h1 i (Out.collect_inv h3 i) hg hg' hh hv' hv2

/-- C109: between phases `operator[]` gives the same pointers as before to cells of the process, also to those that are leaving, new
ones to cells that are arriving, and none to other cells. Pointers to arriving cells differ from every earlier pointer. -/
theorem C109_between (hw : g.WF) (h : Viewing e g dflt maxTag s σ v) (ho : (Op.balance z : Op n D W).Ok s)
    (h1 : startBalance g dflt maxTag z s = .ok b0)
    (h2 : MeanwhileObjs g dflt maxTag (fun i => openStore (b0 i) (σ i)) b0 (fun i => (v i).objs) k b1 h') (i : Fin n) (c : Nat) :
    ((h' i).access c).isSome = (access (inside b1 i) c).isSome ∧
    ((s i).owner c = some i → (h' i).access c = (v i).objs.access c) ∧
    (((h' i).access c).isSome = true ↔ (s i).owner c = some i ∨ ∃ q, c ∈ (b0 i).recv q) ∧
    ∀ a, (h' i).access c = some a → (s i).owner c ≠ some i → ∀ m c', (v i).objs.obj m c' ≠ some a := by
  obtain ⟨⟨b, hst⟩, hv⟩ := h.ok hw
  obtain ⟨hr, hc⟩ := hst.coherent hw
  have hn : 0 < n := by have := i.2; omega
  obtain ⟨w, hl⟩ := hr.loose hw hn
  obtain ⟨w1, hg⟩ := hr.good hw i
  have hmid := hl.midOk hw hn ho h1 h2.meanwhile
  obtain ⟨e1, e2⟩ := h2.same
  subst e2
  have hown : ((v i).objs.obj .own c).isSome = true ↔ (s i).owner c = some i := by
    rw [(hv i).objs .own c, hg.owner]
    exact hg.placed c
  have hkeep : (s i).owner c = some i → (openObjs (b0 i) (v i).objs).obj .own c = (v i).objs.obj .own c := by
    intro ho
    rw [openObjs_own]
    obtain ⟨a, ha⟩ := Option.isSome_iff_exists.1 (hown.2 ho)
    rw [ha]
    exact Objs.addAll_keep _ _ _ ha
  have hacc : ∀ c, (openObjs (b0 i) (v i).objs).access c = (openObjs (b0 i) (v i).objs).obj .own c := openObjs_access _ _
  have hsome : ((openObjs (b0 i) (v i).objs).obj .own c).isSome = true ↔ (s i).owner c = some i ∨ ∃ q, c ∈ (b0 i).recv q := by
    rw [openObjs_own, Objs.addAll_isSome, Bool.or_eq_true, hown, decide_eq_true_iff, mem_flat]
    exact ⟨fun h => h.imp id (·.2), fun h => h.imp id (⟨rfl, ·⟩)⟩
  refine ⟨?_, fun hx => ?_, ?_, fun a ha hx m c' hm => ?_⟩
  · show ((openObjs (b0 i) (v i).objs).access c).isSome = (access (b1 i).proc c).isSome
    have e3 : (access (b1 i).proc c).isSome = ((b0 i).proc.data c).isSome := by
      rw [← (hmid.proc i).some c]
      unfold access
      rw [(hmid.proc i).remote, (hmid.proc i).refined, (hmid.proc i).unrefined]
      cases (b1 i).proc.data c <;> rfl
    rw [e3, hacc]
    have := startBalance_some h1 i c
    rw [this, openObjs_own, Objs.addAll_isSome, (hv i).objs .own c]
    simp only [mem_flat, true_and]
    rfl
  · show (openObjs (b0 i) (v i).objs).access c = _
    rw [hacc, hkeep hx]
    obtain ⟨a, ha⟩ := Option.isSome_iff_exists.1 (hown.2 hx)
    unfold Objs.access
    rw [ha]
  · show ((openObjs (b0 i) (v i).objs).access c).isSome = true ↔ _
    rw [hacc, hsome]
  · replace ha : (openObjs (b0 i) (v i).objs).access c = some a := ha
    rw [hacc, openObjs_own] at ha
    rcases Objs.addAll_new _ _ _ ha with hb | hb
    · exact hx (hown.1 (by rw [hb]; rfl))
    · have := (hv i).distinct.used _ _ _ hm
      omega

/-- C109: pointers in items made before the first phase: between phases those to cells of the process are the ones `operator[]`
gives, but those to cells of other processes point to objects that no longer exist. -/
theorem C109_between_items (hw : g.WF) (h : Viewing e g dflt maxTag s σ v) (ho : (Op.balance z : Op n D W).Ok s)
    (h1 : startBalance g dflt maxTag z s = .ok b0)
    (h2 : MeanwhileObjs g dflt maxTag (fun i => openStore (b0 i) (σ i)) b0 (fun i => (v i).objs) k b1 h') (i : Fin n) (id : Int)
    {l : List (CellView X Y)} (hl : (v i).items id = some l) :
    ∀ x ∈ l, ((s i).owner x.id = some i → x.data = (h' i).access x.id) ∧
      ((s i).owner x.id ≠ some i → ∃ a, x.data = some a ∧ ∀ m c, (h' i).obj m c ≠ some a) ∧
      ∀ y ∈ x.nbrs, ((s i).owner y.id = some i → y.data = (h' i).access y.id) ∧
        ((s i).owner y.id ≠ some i → ∀ a, y.data = some a → ∀ m c, (h' i).obj m c ≠ some a) := by
  obtain ⟨⟨b, hst⟩, hv⟩ := h.ok hw
  obtain ⟨hr, hc⟩ := hst.coherent hw
  obtain ⟨w, hl'⟩ := hr.loose hw (by have := i.2; omega)
  obtain ⟨w1, hg⟩ := hr.good hw i
  obtain ⟨-, -, -, hx⟩ := C109_items hw h i id hl
  obtain ⟨e1, e2⟩ := h2.same
  have hsame : ∀ c, (s i).owner c = some i → (h' i).access c = (v i).objs.access c := fun c hc =>
    (C109_between hw h ho h1 h2 i c).2.1 hc
  have hgone : ∀ c a, (s i).owner c ≠ some i → (v i).objs.access c = some a → ∀ m c', (h' i).obj m c' ≠ some a := by
    intro c a hc ha m c' hm
    rw [e2] at hm
    have h3 : m = .own := by
      cases m with
      | own => rfl
      | copy => rw [(openObjs_other _ _ _).1] at hm; cases hm
      | refined => rw [(openObjs_other _ _ _).2.1] at hm; cases hm
      | unrefined => rw [(openObjs_other _ _ _).2.2] at hm; cases hm
    subst h3
    rw [openObjs_own] at hm
    have h4 : ∃ m, (v i).objs.obj m c = some a ∧ m ≠ .own := by
      have h5 : (v i).objs.obj .own c = none := by
        cases h6 : (v i).objs.obj .own c with
        | none => rfl
        | some a' =>
          refine absurd ?_ hc
          rw [hg.owner]
          refine (hg.placed c).1 ?_
          have := (hv i).objs .own c
          rw [h6] at this
          exact this.symm
      unfold Objs.access at ha
      rw [h5] at ha
      simp only [] at ha
      split at ha
      · rename_i h7; exact ⟨.copy, h7.trans ha, by decide⟩
      · split at ha
        · rename_i h7; exact ⟨.refined, h7.trans ha, by decide⟩
        · exact ⟨.unrefined, ha, by decide⟩
    obtain ⟨m, h4, h5⟩ := h4
    rcases Objs.addAll_new _ _ _ hm with hb | hb
    · exact h5 ((hv i).distinct.once _ _ _ _ _ h4 hb).1
    · have := (hv i).distinct.used _ _ _ h4
      omega
  intro x hx'
  obtain ⟨f1, f2, -, -, f3⟩ := hx x hx'
  refine ⟨fun hc => by rw [f1, hsame _ hc], fun hc => ?_, fun y hy => ⟨fun hc => by rw [(f3 y hy).1, hsame _ hc], fun hc a ha => ?_⟩⟩
  · obtain ⟨a, ha⟩ := Option.isSome_iff_exists.1 f2
    exact ⟨a, ha, hgone _ _ hc (f1.symm.trans ha)⟩
  · exact hgone _ _ hc ((f3 y hy).1.symm.trans ha)

/-- C109: a pointer to a cell obtained before or between phases is valid after the last phase if the cell is on the process then. -/
theorem C109_phases (hw : g.WF) (h : Viewing e g dflt maxTag s σ v) (ho : (Op.balance z : Op n D W).Ok s)
    (h1 : startBalance g dflt maxTag z s = .ok b0)
    (h2 : MeanwhileObjs g dflt maxTag (fun i => openStore (b0 i) (σ i)) b0 (fun i => (v i).objs) k b1 h')
    (h3 : finishBalance g dflt maxTag b1 = .ok t)
    (h4 : (Out.collect fun i => closeStore g maxTag i (t i) (openStore (b0 i) (σ i))) = .ok σ')
    (hv' : v' = fun i => viewsAfter e g (.balance z : Op n D W) (s i) (t i) (σ' i) (closeObjs (b1 i) (h' i)) (v i))
    (i : Fin n) (c : Nat) (hc : (t i).owner c = some i) :
    Viewing e g dflt maxTag t σ' v' ∧ (v' i).objs.access c = (h' i).access c ∧
    ((s i).owner c = some i → (v' i).objs.access c = (v i).objs.access c) := by
  have hV : Viewing e g dflt maxTag t σ' v' := by rw [hv']; exact .phases z h ho h1 h2 h3 h4
  obtain ⟨a, e1, e2⟩ := (C109_access hw hV i c).2.1 hc
  have e3 : (v' i).objs.obj .own c = (h' i).obj .own c := by
    rw [hv'] at e2 ⊢
    show (((closeObjs (b1 i) (h' i)).addAll .copy (σ' i).rem).obj .own c) = _
    replace e2 : (((closeObjs (b1 i) (h' i)).addAll .copy (σ' i).rem).obj .own c) = some a := e2
    rw [Objs.addAll_other _ _ _ (fun e => by cases e.1)] at e2 ⊢
    unfold closeObjs at e2 ⊢
    rw [Objs.del_obj] at e2 ⊢
    split at e2
    · cases e2
    · rename_i hx; rw [if_neg hx]
  have e4 : (v' i).objs.access c = (h' i).access c := by
    rw [e1]
    unfold Objs.access
    rw [← e3, e2]
  exact ⟨hV, e4, fun hx => by rw [e4, (C109_between hw h ho h1 h2 i c).2.1 hx]⟩

/-- Both cells of the demo grid are known to both processes, cell 1 of process 0 is moving to process 1. -/
theorem tiny_moving : ∃ (s t : Sys 2 Nat Nat) (σ σ' : Fin 2 → Store 2) (v : Fin 2 → Views 2 Nat Nat) (b0 b1 : Fin 2 → Balancing 2 Nat Nat)
    (h : Fin 2 → Objs), Viewing ⟨fun _ c => c, fun _ _ c b => c + b.1⟩ tinyG 0 146 s σ v ∧ (Op.balance move1 : Op 2 Nat Nat).Ok s ∧
    startBalance tinyG 0 146 move1 s = .ok b0 ∧
    MeanwhileObjs tinyG 0 146 (fun i => openStore (b0 i) (σ i)) b0 (fun i => (v i).objs) Calls.none b1 h ∧
    finishBalance tinyG 0 146 b1 = .ok t ∧ (Out.collect fun i => closeStore tinyG 146 i (t i) (openStore (b0 i) (σ i))) = .ok σ' ∧
    (s 0).owner 1 = some 0 ∧ (s 0).owner 2 = some 1 ∧ RemoteNbr tinyG 0 (s 0) defaultId 2 := by
  obtain ⟨s, h1, h2, h3, -, -, -, h4, h5⟩ := tiny_init
  obtain ⟨σ, b, hst⟩ := h2.stored tiny_wf
  have hst := hst.storing
  obtain ⟨v, hv⟩ := hst.views (e := (⟨fun _ c => c, fun _ _ c b => c + b.1⟩ : Extras 2 Nat Nat)) tiny_wf
  obtain ⟨hr, -⟩ := hst.coherent tiny_wf
  have hw' : ∀ i, (s i).owner = (createLevel0 2 2).2 := h3.sys.owner
  have ho : (Op.balance move1 : Op 2 Nat Nat).Ok s := fun i => by
    refine move1_ok (?_ : (s i).owner 1 = some 0)
    rw [hw']; exact h4
  obtain ⟨b0, e2, e3⟩ := (C105_returns tiny_wf (by omega) hr (by decide)).2 move1 ho
  obtain ⟨-, f1, -⟩ := e3 _ _ .start
  obtain ⟨b1, f1⟩ := f1 fun _ _ _ x _ => x
  have hm : Meanwhile tinyG 0 146 (fun _ => True) b0 Calls.none b1 := .move (fun _ _ _ x _ => x) .start f1
  obtain ⟨-, -, t, f3⟩ := e3 _ _ hm
  obtain ⟨σ', f4⟩ := hst.phases_ok tiny_wf ho e2 hm f3
  obtain ⟨h, f5⟩ := hm.objs (fun i => openStore (b0 i) (σ i)) (fun i => (v i).objs)
  have hn : NbrOf tinyG (s 0) defaultId 1 2 :=
    (h3.nbrOf_iff tiny_wf (if_pos rfl) (exist_of h4)).2 ⟨exist_of h5, tiny_linked.1⟩
  exact ⟨s, t, σ, σ', v, b0, b1, h, hv, ho, e2, f5, f3, f4, by rw [hw']; exact h4, by rw [hw']; exact h5,
    ⟨1, by rw [hw']; exact h5, by decide⟩, 1, by rw [hw']; exact h4, Or.inl hn⟩

/-- C109 does not hold between phases: an item of a cell on another process, which is in the range of all cells, has a pointer to
an object that doesn't exist. -/
theorem C109_false : ¬ ∀ (s : Sys 2 Nat Nat) (σ : Fin 2 → Store 2) (v : Fin 2 → Views 2 Nat Nat) (z : Fin 2 → Moves 2)
    (b0 b1 : Fin 2 → Balancing 2 Nat Nat) (k : Calls) (h : Fin 2 → Objs),
    Viewing ⟨fun _ c => c, fun _ _ c b => c + b.1⟩ tinyG 0 146 s σ v → (Op.balance z : Op 2 Nat Nat).Ok s →
    startBalance tinyG 0 146 z s = .ok b0 →
    MeanwhileObjs tinyG 0 146 (fun i => openStore (b0 i) (σ i)) b0 (fun i => (v i).objs) k b1 h →
    ∀ (i : Fin 2) (id : Int) (l : List (CellView Nat Nat)), (v i).items id = some l → ∀ x ∈ l,
      x.data.isSome = true → ∃ m c, (h i).obj m c = x.data := by
  intro hx
  obtain ⟨s, t, σ, σ', v, b0, b1, h, h1, h2, h3, h4, h5, -, h6, h7, h8⟩ := tiny_moving
  have hl : (v 0).items defaultId = some (v 0).dflt := if_pos rfl
  obtain ⟨-, -, e1, e2⟩ := C109_items tiny_wf h1 0 defaultId hl
  obtain ⟨x, e3, e4⟩ := List.mem_map.1 ((e1 2).2 (Or.inr h8))
  obtain ⟨m, c, e5⟩ := hx s σ v move1 b0 b1 _ h h1 h2 h3 h4 0 defaultId _ hl x e3 (e2 x e3).2.1
  obtain ⟨a, e6, e7⟩ := (C109_between_items tiny_wf h1 h2 h3 h4 0 defaultId hl x e3).2.1 (by rw [e4, h7]; decide)
  exact e7 m c (e5.trans e6)

/-- Between phases process 0 has the same pointer to cell 1, which is leaving, as before them. -/
example : ∃ (s t : Sys 2 Nat Nat) (σ σ' : Fin 2 → Store 2) (v : Fin 2 → Views 2 Nat Nat) (b0 b1 : Fin 2 → Balancing 2 Nat Nat)
    (h : Fin 2 → Objs), Viewing ⟨fun _ c => c, fun _ _ c b => c + b.1⟩ tinyG 0 146 s σ v ∧ (Op.balance move1 : Op 2 Nat Nat).Ok s ∧
    startBalance tinyG 0 146 move1 s = .ok b0 ∧
    MeanwhileObjs tinyG 0 146 (fun i => openStore (b0 i) (σ i)) b0 (fun i => (v i).objs) Calls.none b1 h ∧
    finishBalance tinyG 0 146 b1 = .ok t ∧ (Out.collect fun i => closeStore tinyG 146 i (t i) (openStore (b0 i) (σ i))) = .ok σ' ∧
    ((h 0).access 1).isSome = true ∧ (h 0).access 1 = (v 0).objs.access 1 ∧
    ((v 0).objs.access 2).isSome = true := by
  obtain ⟨s, t, σ, σ', v, b0, b1, h, h1, h2, h3, h4, h5, h5', h6, h7, h8⟩ := tiny_moving
  have hl : (v 0).items defaultId = some (v 0).dflt := if_pos rfl
  obtain ⟨-, -, e1, e2⟩ := C109_items tiny_wf h1 0 defaultId hl
  obtain ⟨x, e3, e4⟩ := List.mem_map.1 ((e1 2).2 (Or.inr h8))
  have hb := C109_between tiny_wf h1 h2 h3 h4 0
  refine ⟨s, t, σ, σ', v, b0, b1, h, h1, h2, h3, h4, h5, h5', (hb 1).2.2.1.2 (Or.inl h6), (hb 1).2.1 h6, ?_⟩
  have := (e2 x e3).2.1
  rw [(e2 x e3).1, e4] at this
  exact this

end Dccrg
