import Verif.ObjectsHist
import Verif.Props.Stored
/-!
# C89: pointers to data of cells
-/
namespace Dccrg
open Cfg
variable {n : Nat} {D W X Y : Type} {g : Cfg} {dflt : D} {maxTag : Nat} {s s' : Sys n D W} {σ σ' : Fin n → Store n}
  {e : Extras n X Y} {v v' : Fin n → Views n X Y}

/-- Items behind iterators of a neighborhood, `none` if there are no iterators. -/
def Views.items (v : Views n X Y) (id : Int) : Option (List (CellView X Y)) := if id = defaultId then some v.dflt else v.user id

theorem WithViews.progress {D : Type} {dflt : D} {maxTag : Nat} {s s' : Sys n D W} {σ σ' : Fin n → Store n}
    {v : Fin n → Views n X Y} (hw : g.WF) (h : WithViews e g dflt maxTag s σ v) (op : Op n D W) (ho : op.Ok s)
    (hs : stepStored g dflt maxTag s σ op = .ok (s', σ')) : ∃ h, objsAfter g dflt s σ (fun i => (v i).objs) op = .ok h := by
  obtain ⟨⟨b, hst⟩, hv⟩ := h.ok hw
  obtain ⟨hr, hc⟩ := hst.coherent hw
  obtain ⟨s2, h1, h2⟩ := Out.bind_inv hs
  exact objsAfter_ok hw (hr.good hw) (fun hn => by
    obtain ⟨w, hi⟩ := hr.inv hw hn
    exact ⟨w, hi.sys.core, hi.req⟩) h1 hc (fun i => (hv i).objs)

theorem WithStore.views {D : Type} {dflt : D} {maxTag : Nat} {s : Sys n D W} {σ : Fin n → Store n} {b : Bool} (hw : g.WF)
    (h : WithStore g dflt maxTag s σ b) : ∃ v, WithViews e g dflt maxTag s σ v := by
  induction h with
  | init hs hc => exact ⟨_, .init hs hc⟩
  | step op hst ho hs ih =>
    obtain ⟨v, hv⟩ := ih
    obtain ⟨h, hh⟩ := hv.progress hw op ho hs
    exact ⟨_, .step op hv ho hs hh⟩
  | copy hst hs ih =>
    obtain ⟨v, hv⟩ := ih
    exact ⟨_, .copy hv hs⟩

/-- C89: all histories are covered: nothing about objects makes a call fail. -/
theorem C89_histories (hw : g.WF) :
    ((∃ b, WithStore g dflt maxTag s σ b) ↔ ∃ v, WithViews e g dflt maxTag s σ v) ∧
    (WithViews e g dflt maxTag s σ v → ∀ op : Op n D W, op.Ok s → stepStored g dflt maxTag s σ op = .ok (s', σ') →
      ∃ h, objsAfter g dflt s σ (fun i => (v i).objs) op = .ok h) :=
  ⟨⟨fun ⟨_, h⟩ => h.views hw, fun ⟨_, h⟩ => (h.ok hw).1⟩, fun h op ho hs => h.progress hw op ho hs⟩

theorem ViewOk.pointers {p : Proc n D W} {τ : Store n} {u : Views n X Y} {w : Owner n} {i : Fin n} (hv : ViewOk e p τ u)
    (hg : Good g w maxTag i p) (c : Nat) :
    (u.objs.access c).isSome = (access p c).isSome ∧
    (p.owner c = some i → ∃ a, u.objs.access c = some a ∧ u.objs.obj .own c = some a) ∧
    ∀ c' a, u.objs.access c = some a → u.objs.access c' = some a → c = c' := by
  have hof : ∀ c a, u.objs.access c = some a → ∃ m, u.objs.obj m c = some a := by
    intro c a ha
    unfold Objs.access at ha
    split at ha
    · rename_i h1; exact ⟨.own, h1.trans ha⟩
    · split at ha
      · rename_i h1; exact ⟨.copy, h1.trans ha⟩
      · split at ha
        · rename_i h1; exact ⟨.refined, h1.trans ha⟩
        · exact ⟨.unrefined, ha⟩
  refine ⟨hv.objs.access c, fun ho => ?_, fun c' a h1 h2 => ?_⟩
  · have h1 : (u.objs.obj .own c).isSome = true := by
      rw [hv.objs .own c]
      exact (hg.placed c).2 (by rw [← hg.owner]; exact ho)
    obtain ⟨a, ha⟩ := Option.isSome_iff_exists.1 h1
    refine ⟨a, ?_, ha⟩
    unfold Objs.access
    rw [ha]
  · obtain ⟨m, hm⟩ := hof c a h1
    obtain ⟨m', hm'⟩ := hof c' a h2
    exact (hv.distinct.once m c m' c' a hm hm').2

/-- C89: `operator[]` gives a pointer exactly for cells whose data the process has. For local cells it is the object of the cell.
Pointers to data of different cells differ. -/
theorem C89_access (hw : g.WF) (h : WithViews e g dflt maxTag s σ v) (i : Fin n) (c : Nat) :
    ((v i).objs.access c).isSome = (access (s i) c).isSome ∧
    ((s i).owner c = some i → ∃ a, (v i).objs.access c = some a ∧ (v i).objs.obj .own c = some a) ∧
    ∀ c' a, (v i).objs.access c = some a → (v i).objs.access c' = some a → c = c' := by
  obtain ⟨⟨b, hst⟩, hv⟩ := h.ok hw
  obtain ⟨hr, -⟩ := hst.coherent hw
  obtain ⟨w, hg⟩ := hr.good hw i
  exact (hv i).pointers hg c

theorem updatePointers_all {i : Fin n} {p : Proc n D W} {id : Int} {k : Cache} (hk : updatePointers g i p id = .ok k) :
    range k.cells k.all = k.cells := by
  unfold updatePointers at hk
  split at hk
  · cases hk
  · simp only [] at hk
    split at hk
    · cases hk
    · split at hk
      · cases hk
      · injection hk with hk
        subst hk
        unfold range
        simp only [List.drop_zero]
        refine List.take_of_length_le ?_
        rw [← List.length_map (f := fun x : CellItem => x.id), cellItems_ids]
        simp only [List.length_append]
        exact Nat.le_refl _

theorem ViewOk.views {p : Proc n D W} {τ : Store n} {u : Views n X Y} {i : Fin n} {b : Bool} {id : Int}
    (hv : ViewOk e p τ u) (hc : Coherent g i p τ b) (hR : (hoodFor g p id).isSome = true →
      ∃ k, updatePointers g i p id = .ok k ∧ Enumerates k k.all (fun c => p.owner c = some i ∨ RemoteNbr g i p defaultId c) ∧
        ∀ x ∈ range k.cells k.all, NbrRanges g p id k x ∧ (access p x.id).isSome = true ∧
          (p.owner x.id = some i → ∀ y ∈ range k.nbrs x.all, (access p y.1).isSome = true))
    {l : List (CellView X Y)} (hl : u.items id = some l) :
    (hoodFor g p id).isSome = true ∧ (l.map (·.id)).Nodup ∧
    (∀ c, c ∈ l.map (·.id) ↔ p.owner c = some i ∨ RemoteNbr g i p defaultId c) ∧
    ∀ x ∈ l, x.data = u.objs.access x.id ∧ x.data.isSome = true ∧ x.extra = e.cell p.owner x.id ∧
      (∀ b, b ∈ x.nbrs.map (·.id) ↔ NbrAny g p id x.id b) ∧
      ∀ y ∈ x.nbrs, y.data = u.objs.access y.id ∧ y.extra = e.nbr p.owner id x.id (y.id, y.off) ∧
        (p.owner x.id = some i → y.data.isSome = true) := by
  have hk : ∃ k, updatePointers g i p id = .ok k ∧ l = viewOf e p.owner u.objs id k := by
    unfold Views.items at hl
    split at hl
    · rename_i hid; subst hid
      injection hl with hl
      exact ⟨_, hc.ptr.1 rfl, by rw [← hl]; exact hv.dflt⟩
    · rw [hv.user, Option.map_eq_some_iff] at hl
      obtain ⟨k, hk, e1⟩ := hl
      exact ⟨k, (hc.userPtr id k hk).2.1, e1.symm⟩
  obtain ⟨k, hk, rfl⟩ := hk
  have hid : (hoodFor g p id).isSome = true := by
    cases hx : hoodFor g p id with
    | some _ => rfl
    | none => unfold updatePointers at hk; rw [hx] at hk; cases hk
  obtain ⟨k', e1, e2, e3⟩ := hR hid
  rw [hk] at e1
  injection e1 with e1
  subst e1
  have hall := updatePointers_all hk
  rw [Enumerates, hall] at e2
  rw [hall] at e3
  have hids : (viewOf e p.owner u.objs id k).map (·.id) = k.cells.map (·.id) := by
    unfold viewOf
    rw [List.map_map]
    rfl
  rw [hids]
  refine ⟨hid, e2.1, e2.2, ?_⟩
  intro x hx
  unfold viewOf at hx
  obtain ⟨z, hz, rfl⟩ := List.mem_map.1 hx
  obtain ⟨f1, f2, f3⟩ := e3 z hz
  refine ⟨rfl, ?_, rfl, fun b => ?_, fun y hy => ?_⟩
  · rw [hv.objs.access]; exact f2
  · show b ∈ List.map _ (List.map _ _) ↔ _
    rw [List.map_map, List.mem_map]
    constructor
    · rintro ⟨y, hy, rfl⟩
      rcases (f1.all.2 y).1 hy with hy | hy
      · obtain ⟨l, h1, h2⟩ := (f1.of.2 y).1 hy
        exact Or.inl ⟨l, y.2, h1, h2⟩
      · exact Or.inr ((f1.to.2 y).1 hy).1
    · rintro (hb | hb)
      · obtain ⟨l, off, h1, h2⟩ := hb
        exact ⟨(b, off), (f1.all.2 _).2 (Or.inl ((f1.of.2 _).2 ⟨l, h1, h2⟩)), rfl⟩
      · by_cases ho : NbrOf g p id z.id b
        · obtain ⟨l, off, h1, h2⟩ := ho
          exact ⟨(b, off), (f1.all.2 _).2 (Or.inl ((f1.of.2 _).2 ⟨l, h1, h2⟩)), rfl⟩
        · exact ⟨(b, fun _ => 0), (f1.all.2 _).2 (Or.inr ((f1.to.2 _).2 ⟨hb, Or.inr ⟨ho, rfl⟩⟩)), rfl⟩
  · replace hy : y ∈ (range k.nbrs z.all).map _ := hy
    obtain ⟨t, ht, rfl⟩ := List.mem_map.1 hy
    refine ⟨rfl, rfl, fun ho => ?_⟩
    rw [hv.objs.access]
    exact f3 ho t ht

/-- C89: items behind iterators are up to date: they have exactly local cells and remote neighbors, each once, pointers in them are
those given by `operator[]` and never null for cells and neighbors of local cells, and members added by users have values of
current owners of cells. -/
theorem C89_items (hw : g.WF) (h : WithViews e g dflt maxTag s σ v) (i : Fin n) (id : Int) {l : List (CellView X Y)}
    (hl : (v i).items id = some l) :
    (hoodFor g (s i) id).isSome = true ∧ (l.map (·.id)).Nodup ∧
    (∀ c, c ∈ l.map (·.id) ↔ (s i).owner c = some i ∨ RemoteNbr g i (s i) defaultId c) ∧
    ∀ x ∈ l, x.data = (v i).objs.access x.id ∧ x.data.isSome = true ∧ x.extra = e.cell (s i).owner x.id ∧
      (∀ b, b ∈ x.nbrs.map (·.id) ↔ NbrAny g (s i) id x.id b) ∧
      ∀ y ∈ x.nbrs, y.data = (v i).objs.access y.id ∧ y.extra = e.nbr (s i).owner id x.id (y.id, y.off) ∧
        ((s i).owner x.id = some i → y.data.isSome = true) := by
  obtain ⟨⟨b, hst⟩, hv⟩ := h.ok hw
  obtain ⟨hr, hc⟩ := hst.coherent hw
  refine (hv i).views (hc i) (fun hid => ?_) hl
  obtain ⟨k, e1, -, -, -, -, e2, e3⟩ := C38_ranges hw hr i hid
  exact ⟨k, e1, e2, e3⟩

/-- Operations which change the grid or its partition. -/
def Op.changes : Op n D W → Bool
  | .stop _ => true
  | .balance _ => true
  | _ => false

theorem objs_kept (hw : g.WF) {w w1 w' : Owner n} {b : Bool} (hr : ∀ i, ∃ w, Good g w maxTag i (s i)) (h0 : SysCore g w s)
    (h0' : ∀ i, ReqOk g w (s i).req) (hc : ∀ i, Coherent g i (s i) (σ i) b) (hv : ∀ i, ViewOk e (s i) (σ i) (v i)) {op : Op n D W}
    (h1 : step g dflt maxTag s op = .ok s') (i : Fin n) (hσ : storeAfter g maxTag op i (s i) (s' i) (σ i) = .ok (σ' i))
    (hg : Good g w1 maxTag i (s i)) (hg' : Good g w' maxTag i (s' i)) {o : Fin n → Objs}
    (hh : objsAfter g dflt s σ (fun i => (v i).objs) op = .ok o)
    (hv' : v' i = viewsAfter e g op (s i) (s' i) (σ' i) (o i) (v i)) (hv2 : ViewOk e (s' i) (σ' i) (v' i)) :
    (∀ c, (s i).owner c = some i → (s' i).owner c = some i → (v' i).objs.access c = (v i).objs.access c) ∧
    (op.changes = false →
      (∀ c, exist (s i).owner c = true → (v' i).objs.access c = (v i).objs.access c) ∧
      ((∀ j, op ≠ .clearRefined j) → (v' i).objs = (v i).objs) ∧
      (v' i).dflt = (v i).dflt ∧
      ∀ id, (∀ items, op ≠ .addHood id items) → op ≠ .removeHood id → (v' i).items id = (v i).items id) := by
  have hm : ∀ i, Matches (s i) (v i).objs := fun i => (hv i).objs
  have hown : ∀ {h : Objs} {c a : Nat}, h.obj .own c = some a → h.access c = some a := by
    intro h c a ha; unfold Objs.access; rw [ha]
  have hsome : ∀ c, (s i).owner c = some i → ∃ a, (v i).objs.obj .own c = some a := by
    intro c hc0
    refine Option.isSome_iff_exists.1 ?_
    rw [(hv i).objs .own c]
    exact (hg.placed c).2 (by rw [← hg.owner]; exact hc0)
  have hsome' : ∀ c, (s' i).owner c = some i → ((v' i).objs.obj .own c).isSome = true := by
    intro c hc0
    rw [hv2.objs .own c]
    exact (hg'.placed c).2 (by rw [← hg'.owner]; exact hc0)
  -- everything if the grid does not change
  have calm : (∀ c, exist (s i).owner c = true → (v' i).objs.access c = (v i).objs.access c) →
      ((∀ j, op ≠ .clearRefined j) → (v' i).objs = (v i).objs) → (v' i).dflt = (v i).dflt →
      (∀ id, (∀ items, op ≠ .addHood id items) → op ≠ .removeHood id → (v' i).user id = (v i).user id) →
      (∀ c, (s i).owner c = some i → (s' i).owner c = some i → (v' i).objs.access c = (v i).objs.access c) ∧
      (op.changes = false →
        (∀ c, exist (s i).owner c = true → (v' i).objs.access c = (v i).objs.access c) ∧
        ((∀ j, op ≠ .clearRefined j) → (v' i).objs = (v i).objs) ∧ (v' i).dflt = (v i).dflt ∧
        ∀ id, (∀ items, op ≠ .addHood id items) → op ≠ .removeHood id → (v' i).items id = (v i).items id) := by
    intro k1 k2 k3 k4
    refine ⟨fun c hc0 _ => k1 c (exist_of hc0), fun _ => ⟨k1, k2, k3, fun id a1 a2 => ?_⟩⟩
    unfold Views.items
    split
    · rw [k3]
    · exact k4 id a1 a2
  have plain : v' i = { v i with objs := o i } → o i = (v i).objs →
      (∀ c, exist (s i).owner c = true → (v' i).objs.access c = (v i).objs.access c) ∧
      ((∀ j, op ≠ .clearRefined j) → (v' i).objs = (v i).objs) ∧ (v' i).dflt = (v i).dflt ∧
      (∀ id, (∀ items, op ≠ .addHood id items) → op ≠ .removeHood id → (v' i).user id = (v i).user id) := by
    intro k1 k2
    rw [k1]
    refine ⟨fun c _ => ?_, fun _ => k2, rfl, fun _ _ _ => rfl⟩
    show (o i).access c = _
    rw [k2]
  have quiet : v' i = { v i with objs := o i } → objsAfter g dflt s σ (fun i => (v i).objs) op = .ok (fun i => (v i).objs) →
      (∀ c, exist (s i).owner c = true → (v' i).objs.access c = (v i).objs.access c) ∧
      ((∀ j, op ≠ .clearRefined j) → (v' i).objs = (v i).objs) ∧ (v' i).dflt = (v i).dflt ∧
      (∀ id, (∀ items, op ≠ .addHood id items) → op ≠ .removeHood id → (v' i).user id = (v i).user id) := by
    intro k1 k2
    rw [k2] at hh
    injection hh with hh
    exact plain k1 (by rw [← hh])
  have changed : op.changes = true → (∀ c a, (v i).objs.obj .own c = some a → (s i).owner c = some i → (s' i).owner c = some i →
      (v' i).objs.obj .own c = some a) →
      (∀ c, (s i).owner c = some i → (s' i).owner c = some i → (v' i).objs.access c = (v i).objs.access c) ∧
      (op.changes = false →
        (∀ c, exist (s i).owner c = true → (v' i).objs.access c = (v i).objs.access c) ∧
        ((∀ j, op ≠ .clearRefined j) → (v' i).objs = (v i).objs) ∧ (v' i).dflt = (v i).dflt ∧
        ∀ id, (∀ items, op ≠ .addHood id items) → op ≠ .removeHood id → (v' i).items id = (v i).items id) := by
    intro k1 k2
    refine ⟨fun c c1 c2 => ?_, fun k => by rw [k1] at k; cases k⟩
    obtain ⟨a, ha⟩ := hsome c c1
    rw [hown ha, hown (k2 c a ha c1 c2)]
  cases op with
  | refine j c => obtain ⟨k1, k2, k3, k4⟩ := quiet hv' rfl; exact calm k1 k2 k3 k4
  | unrefine j c => obtain ⟨k1, k2, k3, k4⟩ := quiet hv' rfl; exact calm k1 k2 k3 k4
  | dontRefine j c => obtain ⟨k1, k2, k3, k4⟩ := quiet hv' rfl; exact calm k1 k2 k3 k4
  | dontUnrefine j c => obtain ⟨k1, k2, k3, k4⟩ := quiet hv' rfl; exact calm k1 k2 k3 k4
  | pin j c q => obtain ⟨k1, k2, k3, k4⟩ := quiet hv' rfl; exact calm k1 k2 k3 k4
  | unpin j c => obtain ⟨k1, k2, k3, k4⟩ := quiet hv' rfl; exact calm k1 k2 k3 k4
  | unpinLocal j => obtain ⟨k1, k2, k3, k4⟩ := quiet hv' rfl; exact calm k1 k2 k3 k4
  | setWeight j c x => obtain ⟨k1, k2, k3, k4⟩ := quiet hv' rfl; exact calm k1 k2 k3 k4
  | write j c x => obtain ⟨k1, k2, k3, k4⟩ := quiet hv' rfl; exact calm k1 k2 k3 k4
  | unpinAll => obtain ⟨k1, k2, k3, k4⟩ := quiet hv' rfl; exact calm k1 k2 k3 k4
  | update id =>
    obtain ⟨k1, k2, k3, k4⟩ := quiet hv' (update_objs hw hr h1 hc hm)
    exact calm k1 k2 k3 k4
  | clearRefined j =>
    injection hh with hh
    subst hh
    replace hv' : v' i = { v i with objs := if i = j then ((v i).objs.clear .refined).clear .unrefined else (v i).objs } := hv'
    refine calm (fun c he => ?_) (fun k => absurd rfl (k j)) (by rw [hv']) (fun id _ _ => by rw [hv'])
    rw [hv']
    show Objs.access (if i = j then _ else _) c = _
    split
    · have k1 : (v i).objs.obj .refined c = none := by
        cases hx : (v i).objs.obj .refined c with
        | none => rfl
        | some a =>
          have := (hv i).gone c (Or.inl (by rw [show ((s i).refinedData c).isSome = _ from (hm i .refined c).symm, hx]; rfl))
          rw [he] at this; cases this
      have k2 : (v i).objs.obj .unrefined c = none := by
        cases hx : (v i).objs.obj .unrefined c with
        | none => rfl
        | some a =>
          have := (hv i).gone c (Or.inr (by rw [show ((s i).unrefinedData c).isSome = _ from (hm i .unrefined c).symm, hx]; rfl))
          rw [he] at this; cases this
      unfold Objs.access
      simp only [Objs.clear_obj, reduceCtorEq, if_false, if_true, k1, k2]
    · rfl
  | removeHood id =>
    injection hh with hh
    subst hh
    unfold viewsAfter at hv'
    simp only [] at hv'
    by_cases hid : id = defaultId
    · rw [if_pos hid] at hv'
      exact calm (fun _ _ => by rw [hv']) (fun _ => by rw [hv']) (by rw [hv']) (fun _ _ _ => by rw [hv'])
    · rw [if_neg hid] at hv'
      refine calm (fun _ _ => by rw [hv']) (fun _ => by rw [hv']) (by rw [hv']) (fun x _ hx => ?_)
      rw [hv']
      show eraseAt (v i).user id x = _
      unfold eraseAt
      rw [if_neg]
      rintro rfl
      exact hx rfl
  | addHood id items =>
    injection hh with hh
    subst hh
    unfold viewsAfter at hv'
    unfold storeAfter at hσ
    simp only [] at hv' hσ
    by_cases hcond : id = defaultId ∨ ((s i).hoods.lookup id).isSome = true ∨ items.all (itemOk g) = false
    · rw [if_pos hcond] at hv'
      exact calm (fun _ _ => by rw [hv']) (fun _ => by rw [hv']) (by rw [hv']) (fun _ _ _ => by rw [hv'])
    · rw [if_neg hcond] at hσ hv'
      have hal : ((v i).objs.alloc (σ' i)) = (v i).objs := by
        refine Objs.addAll_same _ _ _ fun c hc0 => ?_
        rw [(addStore_keep hσ).1, (hc i).rem, mem_dedup] at hc0
        rw [hm i .copy c]
        exact hg.fresh.copies c hc0
      rw [hal] at hv'
      refine calm (fun _ _ => by rw [hv']) (fun _ => by rw [hv']) (by rw [hv']) (fun x hx _ => ?_)
      rw [hv']
      show (if x = id then _ else _) = _
      rw [if_neg]
      rintro rfl
      exact hx items rfl
  | stop z =>
    refine changed rfl fun c a ha c1 c2 => ?_
    obtain ⟨r, e1, e2⟩ := Out.bind_inv h1
    obtain ⟨q, res, e3, e4, e5, e6, e7⟩ := stop_split hw h0 h0' e1
    have hx := (stopRefining_sound hw h0 h0' e1).1.exec i
    injection e2 with e2
    subst e2
    replace hh : stopObjs g dflt s _ = .ok o := hh
    rw [e5] at hh
    replace c2 : (r i).1.owner c = some i := c2
    rw [hx.owner] at c2
    have hno : ¬ (Refines g w s c ∨ Fam g (Unrefines g w s) c) := by
      intro k
      unfold newOwner at c2
      rw [if_pos k] at c2; cases c2
    have n1 : c ∉ (q i).toRefine := fun k => hno (Or.inl ((e6 i c).1 k))
    have n2 : c ∉ families g (q i).toUnrefine := by
      unfold families
      rw [mem_dedup, List.mem_flatMap]
      rintro ⟨u, hu, hcu⟩
      exact hno (Or.inr ⟨u, (e7 i u).1 hu, hcu⟩)
    have k1 : (v' i).objs = (o i).alloc (σ' i) := by rw [hv']; rfl
    rw [k1]
    refine Objs.addAll_keep _ _ _ (executeObjs_keep hh n1 n2 ha ?_)
    have := hsome' c (by show (r i).1.owner c = _; rw [hx.owner]; exact c2)
    rw [k1, Objs.alloc, Objs.addAll_other _ _ _ (fun e => by cases e.1)] at this
    exact this
  | balance z =>
    refine changed rfl fun c a ha c1 c2 => ?_
    have k1 : (v' i).objs = (o i).alloc (σ' i) := by rw [hv']; rfl
    rw [k1]
    refine Objs.addAll_keep _ _ _ (balanceObjs_keep hh ha ?_)
    have := hsome' c c2
    rw [k1, Objs.alloc, Objs.addAll_other _ _ _ (fun e => by cases e.1)] at this
    exact this

/-- C89: pointers that the user has kept stay valid. A cell which is on the same process before and after an operation keeps its
object. Unless the grid or its partition changes also copies of remote neighbors keep theirs, and only
`clear_refined_unrefined_data` erases data of refined cells. Items of iterators change only when the grid or its partition does,
or the neighborhood is added or removed. -/
theorem C89_kept (hw : g.WF) (h : WithViews e g dflt maxTag s σ v) {op : Op n D W} (ho : op.Ok s)
    (hs : stepStored g dflt maxTag s σ op = .ok (s', σ')) {o : Fin n → Objs}
    (hh : objsAfter g dflt s σ (fun i => (v i).objs) op = .ok o) (i : Fin n)
    (hv' : v' i = viewsAfter e g op (s i) (s' i) (σ' i) (o i) (v i)) :
    (∀ c, (s i).owner c = some i → (s' i).owner c = some i → (v' i).objs.access c = (v i).objs.access c) ∧
    (op.changes = false →
      (∀ c, exist (s i).owner c = true → (v' i).objs.access c = (v i).objs.access c) ∧
      ((∀ j, op ≠ .clearRefined j) → (v' i).objs = (v i).objs) ∧
      (v' i).dflt = (v i).dflt ∧
      ∀ id, (∀ items, op ≠ .addHood id items) → op ≠ .removeHood id → (v' i).items id = (v i).items id) := by
  obtain ⟨⟨b, hst⟩, hv⟩ := h.ok hw
  obtain ⟨hr, hc⟩ := hst.coherent hw
  obtain ⟨w, hi⟩ := hr.inv hw (by have := i.2; omega)
  obtain ⟨w1, hg⟩ := hr.good hw i
  have hst' := WithStore.step op hst ho hs
  obtain ⟨hr', hc'⟩ := hst'.coherent hw
  obtain ⟨w', hg'⟩ := hr'.good hw i
  have hv2 := ((WithViews.step op h ho hs hh).ok hw).2 i
  rw [← hv'] at hv2
  obtain ⟨s2, h1, h2⟩ := Out.bind_inv hs
  obtain ⟨σ2, h3, h4⟩ := Out.bind_inv h2
  injection h4 with h4
  injection h4 with h4 h5
  subst h4; subst h5
  exact objs_kept hw (hr.good hw) hi.sys.core hi.req hc hv h1 i (Out.collect_inv h3 i) hg hg' hh hv' hv2

/-- The demo grid with a neighborhood meets hypotheses of the theorems; a member for cells is the number of the process. -/
example : ∃ (s : Sys 2 Nat Nat) (σ : Fin 2 → Store 2) (v : Fin 2 → Views 2 (Option (Fin 2)) Nat),
    WithViews (e := ⟨fun w c => w c, fun _ _ c b => c + b.1⟩) tinyG 0 146 s σ v ∧
    (∃ l, (v 0).items 5 = some l) ∧ ∃ l, (v 0).items defaultId = some l := by
  obtain ⟨s, σ, h1, h2⟩ := tiny_hood
  obtain ⟨v, hv⟩ := h1.views (e := (⟨fun w c => w c, fun _ _ c b => c + b.1⟩ : Extras 2 (Option (Fin 2)) Nat)) tiny_wf
  refine ⟨s, σ, v, hv, ?_, _, rfl⟩
  obtain ⟨k, e, -⟩ := C80_iterators_partial tiny_wf h1 0 5 (by unfold hoodFor; rw [if_neg (by decide), h2 0]; rfl) (Or.inl rfl)
  have hx := (hv.ok tiny_wf).2 0
  refine ⟨viewOf ⟨fun w c => w c, fun _ _ c b => c + b.1⟩ (s 0).owner (v 0).objs 5 k, ?_⟩
  unfold Views.items
  rw [if_neg (by decide), hx.user]
  have e1 : (σ 0).userPtr 5 = some k := by
    unfold storedPtr at e
    rw [if_neg (by decide)] at e
    unfold Out.at at e
    cases hx : (σ 0).userPtr 5 with
    | none => rw [hx] at e; cases e
    | some k' => rw [hx] at e; injection e with e; rw [e]
  rw [e1]
  rfl

end Dccrg
