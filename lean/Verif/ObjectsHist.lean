import Verif.ObjectsExec
import Verif.LoadStored
/-!
# Objects and items of iterators in histories
-/
namespace Dccrg
open Cfg
variable {n : Nat} {D W X Y : Type} {g : Cfg} {w : Owner n} {dflt : D} {maxTag : Nat} {s : Sys n D W}

/-- Cells behind iterators and their neighbors exist. -/
theorem cache_exist (hw : g.WF) {i : Fin n} {p : Proc n D W} (hg : Good g w maxTag i p) {id : Int} {k : Cache}
    (hk : updatePointers g i p id = .ok k) :
    ∀ x ∈ k.cells, exist w x.id = true ∧ ∀ y ∈ range k.nbrs x.all, exist w y.1 = true := by
  unfold updatePointers at hk
  cases hH : hoodFor g p id with
  | none => rw [hH] at hk; cases hk
  | some H =>
    rw [hH] at hk
    simp only [] at hk
    have hs := hg.hoodFor_sub hH
    split at hk
    · cases hk
    · split at hk
      · cases hk
      · rename_i h0
        injection hk with hk
        subst hk
        simp only []
        intro x hx
        have hid := List.mem_map_of_mem (f := fun x : CellItem => x.id) hx
        rw [cellItems_ids] at hid
        have hex : exist w x.id = true := by
          cases he : exist w x.id with
          | true => rfl
          | false =>
            refine absurd ⟨x.id, hid, Or.inr (Or.inl ?_)⟩ h0
            unfold getNeighborsOf
            rw [hg.owner, if_neg (by simp [he])]; rfl
        refine ⟨hex, ?_⟩
        obtain ⟨-, -, e3⟩ := cellItems_nbrs _ _ [] x hx
        simp only [List.nil_append, List.length_nil] at e3
        rw [e3, getOf_eq hw hg hH hs hex, getTo_eq hw hg hH hs hex]
        simp only [Option.getD_some]
        intro y hy
        obtain ⟨h1, h2, h3, -⟩ := neighborSets_spec (of := ofList g w H x.id) (to := toList g w H x.id)
          (fun x hx => (ofList_facts hw hg.tiled hg.balanced hs hex hx).2.1)
          (fun x hx => ⟨(toList_facts hw hg.tiled hg.balanced hs hex hx).2.1, toList_zero hx⟩)
        rcases List.mem_append.1 hy with hy | hy
        · rcases List.mem_append.1 hy with hy | hy
          · exact (ofList_facts hw hg.tiled hg.balanced hs hex ((h1 y).1 hy).1).1
          · exact (ofList_facts hw hg.tiled hg.balanced hs hex ((h2 y).1 hy).1).1
        · obtain ⟨z, hz, e⟩ := List.mem_map.1 ((h3 y).1 hy).2.1
          have := (toList_facts hw hg.tiled hg.balanced hs hex hz).1
          rw [e] at this; exact this

/-- Items depend on objects of existing cells. -/
theorem viewOf_congr {e : Extras n X Y} {h h' : Objs} {id : Int} {k : Cache}
    (hk : ∀ x ∈ k.cells, exist w x.id = true ∧ ∀ y ∈ range k.nbrs x.all, exist w y.1 = true)
    (hh : ∀ c, exist w c = true → h'.access c = h.access c) : viewOf e w h' id k = viewOf e w h id k := by
  unfold viewOf
  refine List.map_congr_left fun x hx => ?_
  rw [hh x.id (hk x hx).1]
  congr 1
  refine List.map_congr_left fun y hy => ?_
  rw [hh y.1 ((hk x hx).2 y hy)]

/-- What holds for a process. -/
structure ViewOk (e : Extras n X Y) (p : Proc n D W) (σ : Store n) (v : Views n X Y) : Prop where
  objs : Matches p v.objs
  distinct : v.objs.Distinct
  gone : ∀ c, (p.refinedData c).isSome = true ∨ (p.unrefinedData c).isSome = true → exist p.owner c = false
  dflt : v.dflt = viewOf e p.owner v.objs defaultId σ.ptr
  user : ∀ id, v.user id = (σ.userPtr id).map (viewOf e p.owner v.objs id)

/-- Nothing changes in items if owners and objects of existing cells stay the same. -/
theorem ViewOk.same (hw : g.WF) {i : Fin n} {p p' : Proc n D W} {σ : Store n} {v : Views n X Y} {e : Extras n X Y} {b : Bool}
    (hv : ViewOk e p σ v) (hc : Coherent g i p σ b) (hg : Good g w maxTag i p) {h : Objs} (ho : p'.owner = p.owner)
    (hm : Matches p' h) (hd : h.Distinct) (hh : ∀ c, exist w c = true → h.access c = v.objs.access c)
    (hgone : ∀ c, (p'.refinedData c).isSome = true ∨ (p'.unrefinedData c).isSome = true → exist p'.owner c = false) :
    ViewOk e p' σ { v with objs := h } := by
  refine ⟨hm, hd, hgone, ?_, fun id => ?_⟩
  · show v.dflt = _
    rw [hv.dflt, ho, hg.owner, viewOf_congr (cache_exist hw hg (hc.ptr.1 rfl)) hh]
  · show v.user id = _
    rw [hv.user, ho, hg.owner]
    cases hk : σ.userPtr id with
    | none => rfl
    | some k =>
      show some _ = some _
      rw [viewOf_congr (cache_exist hw hg (hc.userPtr id k hk).2.1) hh]

theorem ViewOk.rebuilt {i : Fin n} {p p' : Proc n D W} {σ σ' : Store n} {v : Views n X Y} {e : Extras n X Y} {b b' : Bool}
    (hv : ViewOk e p σ v) (hc : Coherent g i p σ b) (hc' : Coherent g i p' σ' b') {h : Objs} (hm : MatchesNew g i p' h) (hd : h.Distinct)
    (hh : p'.hoods = p.hoods)
    (hgone : ∀ c, (p'.refinedData c).isSome = true ∨ (p'.unrefinedData c).isSome = true → exist p'.owner c = false) :
    ViewOk e p' σ' ⟨h.alloc σ', viewOf e p'.owner (h.alloc σ') defaultId σ'.ptr, fun id =>
      if (p'.hoods.lookup id).isSome then (σ'.userPtr id).map (viewOf e p'.owner (h.alloc σ') id) else v.user id⟩ := by
  refine ⟨hm.alloc hc', hd.addAll _ _, hgone, rfl, fun id => ?_⟩
  show (if _ then _ else v.user id) = _
  split
  · rfl
  · rename_i hx
    have h1 : σ'.userPtr id = none := by
      cases hk : σ'.userPtr id with
      | none => rfl
      | some k => exact absurd (hc'.userPtr id k hk).1 hx
    have h2 : σ.userPtr id = none := by
      cases hk : σ.userPtr id with
      | none => rfl
      | some k => exact absurd (by rw [hh]; exact (hc.userPtr id k hk).1) hx
    rw [h1, hv.user, h2]; rfl

/-- Objects and items of a new grid or a copy. -/
theorem viewsStart_ok {i : Fin n} {p : Proc n D W} {σ : Store n} {e : Extras n X Y} {b : Bool} (hc : Coherent g i p σ b)
    (hg : Good g w maxTag i p) (hr : ∀ c, (p.remote c).isSome = decide (c ∈ remoteBoundary g i p.owner p.has))
    (h1 : ∀ c, p.refinedData c = none) (h2 : ∀ c, p.unrefinedData c = none) (hu : ∀ id, σ.userPtr id = none) :
    ViewOk e p σ (viewsStart e g p σ) := by
  have hm : MatchesNew g i p (Objs.empty.addAll .own (heldBy g p)) := by
    refine ⟨fun k c hk => ?_, fun c => ?_, hr⟩
    · rw [Objs.addAll_isSome]
      cases k with
      | own =>
        show (false || decide (Pool.own = Pool.own ∧ c ∈ heldBy g p)) = p.has c
        rw [Bool.false_or, Bool.eq_iff_iff, decide_eq_true_eq]
        unfold heldBy
        rw [List.mem_filter]
        exact ⟨fun h => h.2.2, fun h => ⟨rfl, mem_ids.2 (hg.tiled.valid c (exist_of ((hg.placed c).1 h))).2, h⟩⟩
      | copy => exact absurd rfl hk
      | refined => show _ = (p.refinedData c).isSome; rw [h1]; simp [Objs.empty]
      | unrefined => show _ = (p.unrefinedData c).isSome; rw [h2]; simp [Objs.empty]
    · rw [Objs.addAll_other _ _ _ (fun e => by cases e.1)]; rfl
  refine ⟨hm.alloc hc, (Objs.Distinct.empty.addAll _ _).addAll _ _, fun c h => ?_, rfl, fun id => ?_⟩
  · rw [h1, h2] at h
    rcases h with h | h <;> cases h
  · rw [hu]; rfl

theorem addStore_keep {i : Fin n} {p : Proc n D W} {id : Int} {items : List (V3 Int)} {σ σ' : Store n}
    (h : addStore g maxTag i p id items σ = .ok σ') :
    σ'.rem = σ.rem ∧ σ'.ptr = σ.ptr ∧ ∀ x, x ≠ id → σ'.userPtr x = σ.userPtr x := by
  unfold addStore at h
  obtain ⟨σ1, h1, h⟩ := Out.bind_inv h
  obtain ⟨σ2, h2, h⟩ := Out.bind_inv h
  obtain ⟨σ3, h3, h⟩ := Out.bind_inv h
  have e1 : σ1.rem = σ.rem ∧ σ1.ptr = σ.ptr ∧ σ1.userPtr = σ.userPtr :=
    Out.fold_inv (M := fun a : Store n => a.rem = σ.rem ∧ a.ptr = σ.ptr ∧ a.userPtr = σ.userPtr)
      (fun c _ a a' ha hf => by
        unfold updateUserLists at hf
        obtain ⟨l, -, hf⟩ := Out.bind_inv hf
        obtain ⟨r, -, hf⟩ := Out.bind_inv hf
        injection hf with hf
        subst hf
        exact ha) ⟨rfl, rfl, rfl⟩ h1
  have e2 : σ2.rem = σ1.rem ∧ σ2.ptr = σ1.ptr ∧ σ2.userPtr = σ1.userPtr := by
    unfold updateUserInfo at h2
    obtain ⟨l, -, hf⟩ := Out.bind_inv h2
    injection hf with hf
    subst hf
    exact ⟨rfl, rfl, rfl⟩
  have e3 : σ3.rem = σ2.rem ∧ σ3.ptr = σ2.ptr ∧ σ3.userPtr = σ2.userPtr := by
    unfold updateUserSends at h3
    obtain ⟨l, -, hf⟩ := Out.bind_inv h3
    obtain ⟨l, -, hf⟩ := Out.bind_inv hf
    obtain ⟨l, -, hf⟩ := Out.bind_inv hf
    obtain ⟨l, -, hf⟩ := Out.bind_inv hf
    injection hf with hf
    subst hf
    exact ⟨rfl, rfl, rfl⟩
  unfold updateUserPtr at h
  split at h
  · cases h
  · obtain ⟨l, -, hf⟩ := Out.bind_inv h
    obtain ⟨l, -, hf⟩ := Out.bind_inv hf
    injection hf with hf
    subst hf
    refine ⟨e3.1.trans (e2.1.trans e1.1), e3.2.1.trans (e2.2.1.trans e1.2.1), fun x hx => ?_⟩
    show setAt σ3.userPtr id _ x = _
    unfold setAt
    rw [if_neg hx, e3.2.2, e2.2.2, e1.2.2]

theorem pool_ext {p p' : Proc n D W} (h1 : ∀ c, (p'.data c).isSome = (p.data c).isSome) (h2 : ∀ c, (p'.remote c).isSome = (p.remote c).isSome)
    (h3 : ∀ c, (p'.refinedData c).isSome = (p.refinedData c).isSome)
    (h4 : ∀ c, (p'.unrefinedData c).isSome = (p.unrefinedData c).isSome) (m : Pool) (c : Nat) :
    (p'.pool m c).isSome = (p.pool m c).isSome := by
  cases m with
  | own => exact h1 c
  | copy => exact h2 c
  | refined => exact h3 c
  | unrefined => exact h4 c

/-- Whether something is in containers and owners of cells. -/
structure SameIn (p p' : Proc n D W) : Prop where
  owner : p'.owner = p.owner
  pool : ∀ m c, (p'.pool m c).isSome = (p.pool m c).isSome

theorem SameIn.refl (p : Proc n D W) : SameIn p p := ⟨rfl, fun _ _ => rfl⟩

theorem pool_of {p p' : Proc n D W} (h1 : p'.data = p.data) (h2 : p'.remote = p.remote) (h3 : p'.refinedData = p.refinedData)
    (h4 : p'.unrefinedData = p.unrefinedData) (ho : p'.owner = p.owner) : SameIn p p' :=
  ⟨ho, pool_ext (fun c => by rw [h1]) (fun c => by rw [h2]) (fun c => by rw [h3]) (fun c => by rw [h4])⟩

theorem SameIn.unpin {i : Fin n} {p : Proc n D W} (c : Nat) : SameIn p (Dccrg.unpin g i p c).2 := by
  unfold Dccrg.unpin
  split
  · exact .refl _
  · split <;> exact pool_of rfl rfl rfl rfl rfl

theorem SameIn.trans {p p' p'' : Proc n D W} (h : SameIn p p') (h' : SameIn p' p'') : SameIn p p'' :=
  ⟨h'.owner.trans h.owner, fun m c => (h'.pool m c).trans (h.pool m c)⟩

theorem SameIn.unpinLocal {i : Fin n} {p : Proc n D W} : SameIn p (Dccrg.unpinLocal g i p).2 := by
  unfold Dccrg.unpinLocal
  suffices h : ∀ (l : List Nat) (x : Bool × Proc n D W), SameIn p x.2 →
      SameIn p (l.foldl (fun s c => let r := Dccrg.unpin g i s.2 c; (s.1 && r.1, r.2)) x).2 from h _ _ (.refl _)
  intro l
  induction l with
  | nil => intro x h; exact h
  | cons c l ih => intro x h; exact ih _ (h.trans (SameIn.unpin c))

theorem SameIn.write {p : Proc n D W} (c : Nat) (v : D) : SameIn p (Dccrg.write p c v) := by
  have key : ∀ (f : Nat → Option D), (f c).isSome = true → ∀ x, (if x = c then some v else f x : Option D).isSome = (f x).isSome := by
    intro f hf x
    split
    · rename_i e; subst e; rw [hf]; rfl
    · rfl
  unfold Dccrg.write
  split
  · rename_i h; exact ⟨rfl, pool_ext (key _ h) (fun _ => rfl) (fun _ => rfl) (fun _ => rfl)⟩
  · split
    · rename_i h; exact ⟨rfl, pool_ext (fun _ => rfl) (key _ h) (fun _ => rfl) (fun _ => rfl)⟩
    · split
      · rename_i h; exact ⟨rfl, pool_ext (fun _ => rfl) (fun _ => rfl) (key _ h) (fun _ => rfl)⟩
      · split
        · rename_i h; exact ⟨rfl, pool_ext (fun _ => rfl) (fun _ => rfl) (fun _ => rfl) (key _ h)⟩
        · exact .refl _

/-- Operations which neither make nor erase objects. -/
def Op.quiet : Op n D W → Bool
  | .update _ => false
  | .clearRefined _ => false
  | .addHood _ _ => false
  | .stop _ => false
  | .balance _ => false
  | _ => true

theorem quiet_same {s' : Sys n D W} {op : Op n D W} (hp : op.quiet = true) (hs : step g dflt maxTag s op = .ok s') (i : Fin n) :
    SameIn (s i) (s' i) := by
  have hset : ∀ (j : Fin n) (p' : Proc n D W), SameIn (s j) p' → SameIn (s i) (s.set j p' i) := by
    intro j p' h
    unfold Sys.set
    split
    · rename_i e; subst e; exact h
    · exact .refl _
  have hask : ∀ (j : Fin n) (o : Out (Bool × Req)), s.ask j o = .ok s' → SameIn (s i) (s' i) := by
    intro j o h
    obtain ⟨⟨b, r⟩, h1, h2⟩ := Out.bind_inv h
    injection h2 with h2
    subst h2
    exact hset j _ (pool_of rfl rfl rfl rfl rfl)
  cases op with
  | refine j c => exact hask j _ hs
  | unrefine j c => exact hask j _ hs
  | dontRefine j c => exact hask j _ hs
  | dontUnrefine j c => exact hask j _ hs
  | pin j c q =>
    injection hs with hs; subst hs
    refine hset j _ ?_
    unfold Dccrg.pin
    split
    · exact .refl _
    · split
      · split
        · exact .refl _
        · exact pool_of rfl rfl rfl rfl rfl
      · exact .refl _
  | unpin j c => injection hs with hs; subst hs; exact hset j _ (.unpin c)
  | unpinLocal j => injection hs with hs; subst hs; exact hset j _ .unpinLocal
  | setWeight j c x =>
    injection hs with hs; subst hs
    refine hset j _ ?_
    unfold Dccrg.setWeight
    split
    · exact .refl _
    · exact pool_of rfl rfl rfl rfl rfl
  | write j c v => injection hs with hs; subst hs; exact hset j _ (.write c v)
  | unpinAll => injection hs with hs; subst hs; exact pool_of rfl rfl rfl rfl rfl
  | removeHood id =>
    injection hs with hs; subst hs
    show SameIn (s i) (Dccrg.removeHood (s i) id)
    unfold Dccrg.removeHood
    split
    · exact .refl _
    · exact pool_of rfl rfl rfl rfl rfl
  | clearRefined j => cases hp
  | update id => cases hp
  | addHood id items => cases hp
  | stop z => cases hp
  | balance z => cases hp

theorem SameIn.matches {p p' : Proc n D W} {h : Objs} (hs : SameIn p p') (hm : Matches p h) : Matches p' h :=
  fun m c => (hm m c).trans (hs.pool m c).symm

theorem SameIn.gone {p p' : Proc n D W} (hs : SameIn p p')
    (h : ∀ c, (p.refinedData c).isSome = true ∨ (p.unrefinedData c).isSome = true → exist p.owner c = false) :
    ∀ c, (p'.refinedData c).isSome = true ∨ (p'.unrefinedData c).isSome = true → exist p'.owner c = false := by
  intro c hc
  rw [hs.owner]
  refine h c ?_
  have h1 : (p'.refinedData c).isSome = (p.refinedData c).isSome := hs.pool .refined c
  have h2 : (p'.unrefinedData c).isSome = (p.unrefinedData c).isSome := hs.pool .unrefined c
  rwa [h1, h2] at hc

/-- Copies of cells received in an update of remote neighbors exist. -/
theorem recv_copies (hw : g.WF) {i : Fin n} {p : Proc n D W} (hg : Good g w maxTag i p) {id : Int} {H : List (V3 Int)}
    (hH : hoodFor g p id = some H) {q : Fin n} {c : Nat} (hc : c ∈ recvList g H i p.owner p.has q) : (p.remote c).isSome = true := by
  have hs := hg.hoodFor_sub hH
  rw [hg.owner] at hc
  obtain ⟨h1, h2, d, h3, h4⟩ := (mem_recvList hw hg.tiled hg.balanced hs hg.placed).1 hc
  refine hg.fresh.copies c ?_
  rw [hg.owner]
  refine (mem_remoteBoundaryH hw hg.tiled hg.balanced (fun o h => h) hg.placed).2 ⟨⟨q, h2, h1⟩, d, h3, Or.inl ?_⟩
  obtain ⟨o, h5, h6⟩ := h4
  exact ⟨o, hs o h5, h6⟩

theorem update_same (hw : g.WF) (hr : ∀ i, ∃ w, Good g w maxTag i (s i)) {id : Int} {s' : Sys n D W}
    (hs : step g dflt maxTag s (.update id) = .ok s') (i : Fin n) :
    SameIn (s i) (s' i) ∧ ∃ H, hoodFor g (s i) id = some H := by
  obtain ⟨r, h1, h2⟩ := Out.bind_inv hs
  injection h2 with h2
  subst h2
  obtain ⟨w, hg⟩ := hr i
  unfold updateRemote at h1
  split at h1
  · cases h1
  · rename_i hn
    obtain ⟨d, h3, h4⟩ := Out.bind_inv h1
    injection h4 with h4
    subst h4
    have hH : ∃ H, hoodFor g (s i) id = some H := by
      cases hx : hoodFor g (s i) id with
      | some H => exact ⟨H, rfl⟩
      | none => exact absurd ⟨i, by rw [hx]; rfl⟩ hn
    refine ⟨⟨rfl, pool_ext (fun _ => rfl) (fun c => ?_) (fun _ => rfl) (fun _ => rfl)⟩, hH⟩
    show (d i c).isSome = _
    rw [transfer_isSome h3]
    obtain ⟨H, hH⟩ := hH
    rw [hH]
    cases hx : ((s i).remote c).isSome with
    | true => rfl
    | false =>
      rw [Bool.false_or, decide_eq_false]
      rintro ⟨q, hq⟩
      have := recv_copies hw hg hH (q := q) (c := c) hq
      rw [hx] at this; cases this

/-- Objects after an update are those before it. -/
theorem update_objs (hw : g.WF) (hr : ∀ i, ∃ w, Good g w maxTag i (s i)) {id : Int} {s' : Sys n D W}
    (hs : step g dflt maxTag s (.update id) = .ok s') {σ : Fin n → Store n} {b : Bool} (hc : ∀ i, Coherent g i (s i) (σ i) b)
    {h : Fin n → Objs} (hm : ∀ i, Matches (s i) (h i)) : objsAfter g dflt s σ h (.update id : Op n D W) = .ok h := by
  have hH : ∀ i, ∃ H, hoodFor g (s i) id = some H := fun i => (update_same hw hr hs i).2
  obtain ⟨m, h1, h2⟩ := Out.collect_all (f := fun i => storedSends (σ i) id)
    (P := fun i m => ∀ q, ∀ c ∈ m.2 q, ((h i).obj .copy c).isSome = true) (fun i => by
      obtain ⟨H, hH⟩ := hH i
      refine ⟨_, by rw [storedSends_coherent (hc i), hH], fun q c hq => ?_⟩
      obtain ⟨w, hg⟩ := hr i
      rw [hm i .copy c]
      exact recv_copies hw hg hH hq)
  show (Out.collect fun i => storedSends (σ i) id).bind _ = _
  rw [h1, Out.bind_ok]
  congr 1
  funext i
  refine Objs.addAll_same _ _ _ fun c hq => ?_
  obtain ⟨q, -, hq⟩ := List.mem_flatMap.1 hq
  exact h2 i q c hq

theorem objsAfter_ok (hw : g.WF) (hr : ∀ i, ∃ w, Good g w maxTag i (s i))
    (hi : 0 < n → ∃ w, SysCore g w s ∧ ∀ i, ReqOk g w (s i).req) {op : Op n D W} {s' : Sys n D W}
    (hs : step g dflt maxTag s op = .ok s') {σ : Fin n → Store n} {b : Bool} (hc : ∀ i, Coherent g i (s i) (σ i) b)
    {h : Fin n → Objs} (hm : ∀ i, Matches (s i) (h i)) : ∃ h', objsAfter g dflt s σ h op = .ok h' := by
  cases op with
  | update id => exact ⟨h, update_objs hw hr hs hc hm⟩
  | stop z =>
    by_cases hn : 0 < n
    · obtain ⟨w, h0, h0'⟩ := hi hn
      obtain ⟨r, h1, -⟩ := Out.bind_inv hs
      obtain ⟨q, res, h2, -, h3, -⟩ := stop_split hw h0 h0' h1
      show ∃ h', stopObjs g dflt s h = _
      rw [h3]
      exact executeObjs_ok h2 h
    · have : ∀ i : Fin n, False := fun i => hn (by have := i.2; omega)
      obtain ⟨r, h1, -⟩ := Out.bind_inv hs
      unfold stopRefining at h1
      show ∃ h', stopObjs g dflt s h = _
      unfold stopObjs
      split at h1
      · cases h1
      · rename_i r e
        rw [e]
        simp only []
        obtain ⟨x, e1, h1⟩ := Out.bind_inv h1
        obtain ⟨y, e2, h1⟩ := Out.bind_inv h1
        obtain ⟨z, e3, h1⟩ := Out.bind_inv h1
        rw [e1, Out.bind_ok, e2, Out.bind_ok]
        exact executeObjs_ok e3 h
  | balance z => exact balanceObjs_ok hs h
  | _ => exact ⟨_, rfl⟩

/-- Refined and unrefined cells do not exist. -/
theorem stop_gone (hw : g.WF) (h0 : SysCore g w s) (h0' : ∀ i, ReqOk g w (s i).req) {z : Bool} {s' : Sys n D W} (hs : step g dflt maxTag s (.stop z) = .ok s') (i : Fin n) :
    ∀ c, ((s' i).refinedData c).isSome = true ∨ ((s' i).unrefinedData c).isSome = true → exist (s' i).owner c = false := by
  obtain ⟨r, h1, h2⟩ := Out.bind_inv hs
  injection h2 with h2
  subst h2
  have hx := (stopRefining_sound hw h0 h0' h1).1.exec i
  intro c hc
  have key : Refines g w s c ∨ Fam g (Unrefines g w s) c := by
    rcases hc with hc | hc
    · by_cases e : Refines g w s c
      · exact Or.inl e
      · rw [hx.refinedOnly c (fun h => e h.1)] at hc; cases hc
    · by_cases e : Fam g (Unrefines g w s) c
      · exact Or.inr e
      · rw [hx.unrefinedOnly c (fun h => e h.1)] at hc; cases hc
  rw [hx.owner]
  unfold exist newOwner
  rw [if_pos key]; rfl

theorem viewsAfter_ok (hw : g.WF) (hr : ∀ i, ∃ w, Good g w maxTag i (s i)) (h0 : SysCore g w s)
    (h0' : ∀ i, ReqOk g w (s i).req) {op : Op n D W} {s' : Sys n D W}
    (hs : step g dflt maxTag s op = .ok s') {σ σ' : Fin n → Store n} {b b' : Bool} (hc : ∀ i, Coherent g i (s i) (σ i) b)
    (hσ : ∀ i, storeAfter g maxTag op i (s i) (s' i) (σ i) = .ok (σ' i)) (hc' : ∀ i, Coherent g i (s' i) (σ' i) b')
    {e : Extras n X Y} {v : Fin n → Views n X Y} (hv : ∀ i, ViewOk e (s i) (σ i) (v i)) {h : Fin n → Objs}
    (hh : objsAfter g dflt s σ (fun i => (v i).objs) op = .ok h) (i : Fin n)
    (hb : ∀ z, op = .balance z → (s' i).hoods = (s i).hoods ∧ ∀ c, (s' i).refinedData c = none ∧ (s' i).unrefinedData c = none) :
    ViewOk e (s' i) (σ' i) (viewsAfter e g op (s i) (s' i) (σ' i) (h i) (v i)) := by
  obtain ⟨w1, hg⟩ := hr i
  have hσ := hσ i
  have hm : ∀ i, Matches (s i) (v i).objs := fun i => (hv i).objs
  have quiet : SameIn (s i) (s' i) → σ' i = σ i → h i = (v i).objs → ViewOk e (s' i) (σ' i) { v i with objs := h i } := by
    intro h1 h2 h3
    rw [h2, h3]
    exact (hv i).same hw (hc i) hg h1.owner (h1.matches (hm i)) (hv i).distinct (fun _ _ => rfl) (h1.gone (hv i).gone)
  have plain : op.quiet = true → storeAfter g maxTag op i (s i) (s' i) (σ i) = .ok (σ i) →
      objsAfter g dflt s σ (fun i => (v i).objs) op = .ok (fun i => (v i).objs) →
      ViewOk e (s' i) (σ' i) { v i with objs := h i } := by
    intro h1 h2 h3
    rw [h2] at hσ
    rw [h3] at hh
    injection hσ with hσ
    injection hh with hh
    exact quiet (quiet_same h1 hs i) hσ.symm (by rw [← hh])
  cases op with
  | refine j c => exact plain rfl rfl rfl
  | unrefine j c => exact plain rfl rfl rfl
  | dontRefine j c => exact plain rfl rfl rfl
  | dontUnrefine j c => exact plain rfl rfl rfl
  | pin j c q => exact plain rfl rfl rfl
  | unpin j c => exact plain rfl rfl rfl
  | unpinLocal j => exact plain rfl rfl rfl
  | setWeight j c x => exact plain rfl rfl rfl
  | write j c v => exact plain rfl rfl rfl
  | unpinAll => exact plain rfl rfl rfl
  | update id =>
    rw [update_objs hw hr hs hc hm] at hh
    injection hh with hh
    injection hσ with hσ
    exact quiet (update_same hw hr hs i).1 hσ.symm (by rw [← hh])
  | clearRefined j =>
    injection hs with hs
    injection hσ with hσi
    injection hh with hh
    subst hs; subst hh
    rw [← hσi]
    show ViewOk e (s.set j (Dccrg.clearRefined (s j)) i) (σ i) { v i with objs := if i = j then _ else _ }
    unfold Sys.set
    split
    · rename_i e; subst e
      refine (hv i).same hw (hc i) hg rfl ?_ (((hv i).distinct.clear _).clear _) (fun c he => ?_) ?_
      · intro m c
        have := hm i m c
        cases m with
        | own => exact this
        | copy => exact this
        | refined => rfl
        | unrefined => rfl
      · have h1 : ((v i).objs.obj .refined c) = none := by
          cases hx : (v i).objs.obj .refined c with
          | none => rfl
          | some a =>
            have := (hv i).gone c (Or.inl (by rw [show ((s i).refinedData c).isSome = _ from (hm i .refined c).symm, hx]; rfl))
            rw [hg.owner, he] at this; cases this
        have h2 : ((v i).objs.obj .unrefined c) = none := by
          cases hx : (v i).objs.obj .unrefined c with
          | none => rfl
          | some a =>
            have := (hv i).gone c (Or.inr (by rw [show ((s i).unrefinedData c).isSome = _ from (hm i .unrefined c).symm, hx]; rfl))
            rw [hg.owner, he] at this; cases this
        unfold Objs.access
        simp only [Objs.clear_obj, reduceCtorEq, if_false, if_true, h1, h2]
      · intro c h; rcases h with h | h <;> cases h
    · exact hv i
  | removeHood id =>
    injection hσ with hσ
    injection hh with hh
    subst hh
    have h1 := quiet_same (op := (.removeHood id : Op n D W)) rfl hs i
    have h2 := (hv i).same hw (hc i) hg h1.owner (h1.matches (hm i)) (hv i).distinct (fun _ _ => rfl) (h1.gone (hv i).gone)
    rw [← hσ]
    unfold removeStore viewsAfter
    simp only []
    split
    · exact h2
    · refine ⟨h2.objs, h2.distinct, h2.gone, h2.dflt, fun x => ?_⟩
      show eraseAt (v i).user id x = (eraseAt (σ i).userPtr id x).map _
      unfold eraseAt
      split
      · rfl
      · exact h2.user x
  | addHood id items =>
    injection hh with hh
    subst hh
    obtain ⟨r, h1, h2⟩ := Out.bind_inv hs
    injection h2 with h2
    subst h2
    have hx := Out.collect_inv h1 i
    have h3 := addHood_inv (b := (r i).1) (p' := (r i).2) hx
    have hsame : SameIn (s i) (r i).2 := by
      cases hb : (r i).1 with
      | false => rw [h3.2.1 hb]; exact .refl _
      | true =>
        rw [h3.2.2 hb]
        refine ⟨rfl, pool_ext (fun _ => rfl) (fun c => ?_) (fun _ => rfl) (fun _ => rfl)⟩
        show (if _ then _ else _ : Option D).isSome = _
        split
        · rename_i hx; rw [hg.fresh.copies c hx]; rfl
        · rfl
    show ViewOk e (r i).2 (σ' i) (viewsAfter e g (.addHood id items) (s i) (r i).2 (σ' i) (v i).objs (v i))
    unfold storeAfter at hσ
    unfold viewsAfter
    simp only [] at hσ ⊢
    by_cases hcond : id = defaultId ∨ ((s i).hoods.lookup id).isSome = true ∨ items.all (itemOk g) = false
    · rw [if_pos hcond] at hσ ⊢
      injection hσ with hσ
      exact quiet hsame hσ.symm rfl
    · rw [if_neg hcond] at hσ ⊢
      have e1 := addStore_keep hσ
      have hal : ((v i).objs.alloc (σ' i)) = (v i).objs := by
        refine Objs.addAll_same _ _ _ fun c hc0 => ?_
        rw [e1.1, (hc i).rem, mem_dedup] at hc0
        rw [hm i .copy c]
        exact hg.fresh.copies c hc0
      rw [hal]
      have h2 := (hv i).same hw (hc i) hg hsame.owner (hsame.matches (hm i)) (hv i).distinct (fun _ _ => rfl) (hsame.gone (hv i).gone)
      refine ⟨h2.objs, h2.distinct, h2.gone, ?_, fun x => ?_⟩
      · show (v i).dflt = _
        rw [e1.2.1]; exact h2.dflt
      · show (if x = id then _ else _) = _
        split
        · rename_i e; subst e; rfl
        · rename_i hne
          rw [e1.2.2 x hne]; exact h2.user x
  | stop z =>
    obtain ⟨r, h1, h2⟩ := Out.bind_inv hs
    obtain ⟨q, res, h3, h4, h5, -⟩ := stop_split hw h0 h0' h1
    have hst : (s' i).hoods = (s i).hoods := by
      injection h2 with h2
      rw [← h2]
      exact ((stopRefining_sound hw h0 h0' h1).1.exec i).hoods
    have hgo := stop_gone hw h0 h0' hs i
    injection h2 with h2
    replace hh : stopObjs g dflt s _ = .ok h := hh
    rw [h5] at hh
    have hm' := execute_matches (fun j => show Matches { s j with req := q j } _ from fun m c => by
      have := hm j m c
      cases m <;> exact this) h3 hh i
    rw [← h4 i] at hm'
    have e' : s' i = (r i).1 := by rw [← h2]
    rw [← e'] at hm'
    exact (hv i).rebuilt (hc i) (hc' i) hm' (executeObjs_distinct hh (fun j => (hv j).distinct) i) hst hgo
  | balance z =>
    obtain ⟨hst, hre⟩ := hb z rfl
    exact (hv i).rebuilt (hc i) (hc' i) (balance_matches hm hs hh i) (balanceObjs_distinct hh (fun j => (hv j).distinct) i) hst
      (fun c h => by rw [(hre c).1, (hre c).2] at h; rcases h with h | h <;> cases h)

/-- What the copy constructor makes. -/
theorem viewsCopy_ok {D0 : Type} {i : Fin n} {p : Proc n D0 W} {dflt : D} {σ σ' : Store n} {e : Extras n X Y} {b : Bool}
    (hc : Coherent g i (copyProc g dflt i p) σ' b) (hg : Good g w maxTag i (copyProc g dflt i p))
    (hs : copyStore g (copyProc g dflt i p) σ = .ok σ') : ViewOk e (copyProc g dflt i p) σ' (viewsStart e g (copyProc g dflt i p) σ') := by
  refine viewsStart_ok hc hg (fun c => ?_) (fun _ => rfl) (fun _ => rfl) fun id => ?_
  · have hh : (copyProc g dflt i p).has = fun c => (p.data c).isSome := by
      funext c
      show ((p.data c).map fun _ => dflt).isSome = _
      cases p.data c <;> rfl
    show _ = decide (c ∈ remoteBoundary g i p.owner (copyProc g dflt i p).has)
    rw [hh]
    show (if _ then some dflt else none : Option D).isSome = _
    split
    · rename_i hx; rw [decide_eq_true hx]; rfl
    · rename_i hx; rw [decide_eq_false hx]; rfl
  · have h1 := hs
    unfold copyStore updatePtr at h1
    obtain ⟨k, -, h2⟩ := Out.bind_inv h1
    injection h2 with h2
    rw [← h2]

/-- Everything about objects and items in histories. -/
theorem WithViews.ok (hw : g.WF) {σ : Fin n → Store n} {e : Extras n X Y} {v : Fin n → Views n X Y}
    (h : WithViews e g dflt maxTag s σ v) : (∃ b, WithStore g dflt maxTag s σ b) ∧ ∀ i, ViewOk e (s i) (σ i) (v i) := by
  induction h with
  | @init D dflt maxTag s σ hs hc =>
    have hst : WithStore g dflt maxTag s σ true := .init hs hc
    obtain ⟨hr, hc⟩ := hst.coherent hw
    refine ⟨⟨_, hst⟩, fun i => ?_⟩
    have hn : 0 < n := by have := i.2; omega
    obtain ⟨w, hg⟩ := hr.good hw i
    have hbare := createGrid_bare hw hn hs
    refine viewsStart_ok (hc i) hg (fun c => ?_) (fun c => ?_) (fun c => ?_) fun id => ?_
    · rw [hbare.remote i c]
      show _ = decide (c ∈ remoteBoundary g i (s i).owner fun c => ((s i).data c).isSome)
      split
      · rename_i hx; rw [decide_eq_true hx]; rfl
      · rename_i hx; rw [decide_eq_false hx]; rfl
    · exact hbare.refined i c
    · exact hbare.unrefined i c
    · cases hk : (σ i).userPtr id with
      | none => rfl
      | some k =>
        have := ((hc i).userPtr id k hk).1
        rw [createGrid_hoods hw hn hs i] at this; cases this
  | @step D dflt maxTag s s' σ σ' v h op hv ho hs hh ih =>
    obtain ⟨⟨b, hst⟩, hv⟩ := ih
    have hst' := WithStore.step op hst ho hs
    obtain ⟨hr, hc⟩ := hst.coherent hw
    obtain ⟨-, hc'⟩ := hst'.coherent hw
    refine ⟨⟨_, hst'⟩, fun i => ?_⟩
    obtain ⟨s2, h1, h2⟩ := Out.bind_inv hs
    obtain ⟨σ2, h3, h4⟩ := Out.bind_inv h2
    injection h4 with h4
    injection h4 with h4 h5
    subst h4; subst h5
    obtain ⟨w, hi⟩ := hr.inv hw (by have := i.2; omega)
    refine viewsAfter_ok hw (hr.good hw) hi.sys.core hi.req h1 hc (fun i => Out.collect_inv h3 i) hc' hv hh i fun z e => ?_
    subst e
    have hst := balance_hoods hw hi ⟨z, rfl⟩ ho h1 i
    have hz := ho i
    rw [hi.sys.owner] at hz
    have hre := balanceLoad_sound hw hz hi.sys h1 i
    exact ⟨hst, fun c => by rw [hre.refinedData, hre.unrefinedData]; exact ⟨rfl, rfl⟩⟩
  | @copy D D0 dflt dflt0 maxTag s σ σ' v hv hs ih =>
    obtain ⟨⟨b, hst⟩, hv⟩ := ih
    have hst' := WithStore.copy (dflt := dflt) hst hs
    obtain ⟨hr, hc⟩ := hst'.coherent hw
    refine ⟨⟨_, hst'⟩, fun i => ?_⟩
    obtain ⟨w, hg⟩ := hr.good hw i
    exact viewsCopy_ok (hc i) hg (Out.collect_inv hs i)

end Dccrg
