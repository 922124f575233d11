import Verif.DebugExec
/-!
# Checks of debug builds in balance_load always succeed
-/
namespace Dccrg
open Cfg
variable {n : Nat} {D W α β : Type} {g : Cfg} {w : Owner n}

theorem dbgOnce_true {pins : Nat → Option (Fin n)} {i : Fin n} {l : List (Nat × Fin n)} (h : (l.map Prod.fst).Nodup) :
    dbgOnce pins i l = true := by
  unfold dbgOnce
  rw [decide_eq_true_eq]
  exact List.Nodup.sublist (List.Sublist.map _ List.filter_sublist) h

theorem finishBalanceD_eq {dflt : D} {maxTag : Nat} {b : Fin n → Balancing n D W} {w' : Owner n} (h1 : ∀ i, (b i).proc.owner = w)
    (h2 : dbgMoves b w = true) (h3 : movedOwner b w = w') (h4 : ∀ i c q, (b i).proc.pins c = some q → w' c = some q) :
    finishBalanceD g dflt maxTag b = finishBalance g dflt maxTag b := by
  unfold finishBalanceD
  rw [if_neg, if_neg, Out.collect_ok (x := fun _ => ()) (by
    intro i
    rw [dbgPins_true, Out.check_true]
    intro c q hq
    show movedOwner b (b i).proc.owner c = some q
    rw [h1, h3]
    exact h4 i c q hq), Out.bind_ok]
  · rw [dbgConsistent_true (w := w') (fun i => by
      show movedOwner b (b i).proc.owner = w'
      rw [h1, h3])]; simp
  · rintro ⟨i, h⟩
    rw [h1, h2] at h; cases h

theorem balanceLoadD_eq (hw : g.WF) (dflt : D) {maxTag : Nat} {z : Fin n → Moves n} (hz : MovesOk w z)
    {s : Sys n D W} (hs : SysOk g w s) {σ : Fin n → Store n} (hk : ∀ i, Knows g w i (s i) (σ i)) :
    balanceLoadD g dflt maxTag z s σ = balanceLoad g dflt maxTag z s := by
  have ht := hs.tiled
  have hb := hs.balanced
  have hpins : ∀ i, updatePins s i = pinned w s := fun i => funext (updatePins_eq hs i)
  have hmemR : ∀ p q c, c ∈ moveRecv g q w (pinned w s) (z q) p ↔ Goes w (pinned w s) z p q c :=
    fun p q c => mem_moveRecv hz ht.valid
  have hmemS : ∀ p q c, c ∈ moveSend g p w (pinned w s) (z p) q ↔ Goes w (pinned w s) z p q c :=
    fun p q c => mem_moveSend hz ht.valid
  have hinit : ∀ i, ∃ b, initBalance g dflt s z i = .ok b ∧ b.proc.owner = w ∧ b.proc.pins = pinned w s ∧
      b.recv = moveRecv g i w (pinned w s) (z i) ∧ b.send = moveSend g i w (pinned w s) (z i) := by
    intro i
    unfold initBalance
    simp only [hpins, hs.owner]
    rw [if_neg]
    · exact ⟨_, rfl, rfl, rfl, rfl, rfl⟩
    · rintro ⟨c, -, h1, h2⟩
      unfold pinned at h1
      rw [h2] at h1; cases h1
  have e1 : (fun i => initBalanceD g dflt s σ z i) = fun i => initBalance g dflt s z i := by
    funext i
    unfold initBalanceD
    rw [dbgInfo_true hw ht hb (hs.owner i) (hs.placed i) (hk i).six (hk i).loc (hk i).rem, Out.check_true, if_neg]
    rintro (h | h | h | h)
    · rw [dbgData_true (hs.owner i) (hs.placed i)] at h; cases h
    · unfold dbgNewPins at h
      rw [decide_eq_false_iff_not] at h
      apply h
      intro p c _ hp
      rw [hs.owner i]
      apply Classical.byContradiction
      intro hne
      rw [hs.newPins p c hne] at hp; cases hp
    · rw [dbgOnce_true (hz.recv i)] at h; cases h
    · rw [dbgOnce_true (hz.send i)] at h; cases h
  obtain ⟨b, b1, b2⟩ := Out.collect_all hinit
  have hmoves : ∀ b' : Fin n → Balancing n D W, (∀ i, (b' i).recv = (b i).recv ∧ (b' i).send = (b i).send) →
      dbgMoves b' w = true := by
    intro b' h
    unfold dbgMoves
    rw [decide_eq_true_eq]
    refine ⟨fun p q p' q' c h1 h2 => ?_, fun p q p' q' c h1 h2 => ?_, fun p q c h1 => ?_⟩
    · rw [(h p).2, (b2 p).2.2.2] at h1
      rw [(h p').2, (b2 p').2.2.2] at h2
      exact (Goes.unique hz ((hmemS p q c).1 h1) ((hmemS p' q' c).1 h2)).1
    · rw [(h p).1, (b2 p).2.2.1] at h1
      rw [(h p').1, (b2 p').2.2.1] at h2
      exact (Goes.unique hz ((hmemR q p c).1 h1) ((hmemR q' p' c).1 h2)).2
    · rw [(h p).2, (b2 p).2.2.2] at h1
      exact ((hmemS p q c).1 h1).2.1
  unfold balanceLoadD balanceLoad
  rw [e1, b1, Out.bind_ok, Out.bind_ok, if_neg, if_neg]
  · unfold continueBalance
    cases htr : transfer maxTag (fun p => (b p).send) (fun q => (b q).recv) (fun p => (b p).proc.data)
      (fun p => (b p).proc.data) with
    | throws => rfl
    | hangs => rfl
    | undef => rfl
    | ok d =>
      rw [Out.bind_ok]
      simp only [Out.bind_ok]
      refine finishBalanceD_eq (w := w) (w' := newHome w (pinned w s) z) (fun i => (b2 i).1) (hmoves _ fun i => ⟨rfl, rfl⟩)
        (movedOwner_eq hz fun p q c => ?_) (fun i c q hq => ?_)
      · show c ∈ (b q).recv p ↔ _
        rw [(b2 q).2.2.1, hmemR]
      · have hq : pinned w s c = some q := by rw [← (b2 i).2.1]; exact hq
        unfold newHome
        cases hc : w c with
        | none => unfold pinned at hq; rw [hc] at hq; cases hq
        | some p => simp only []; rw [hq]
  · unfold dbgSelf
    rw [decide_eq_false_iff_not, Classical.not_not]
    intro i
    constructor
    · rw [List.eq_nil_iff_forall_not_mem]
      intro x hx
      have hx : x ∈ (b i).send i := hx
      rw [(b2 i).2.2.2] at hx
      exact ((hmemS i i x).1 hx).1 rfl
    · rw [List.eq_nil_iff_forall_not_mem]
      intro x hx
      have hx : x ∈ (b i).recv i := hx
      rw [(b2 i).2.2.1] at hx
      exact ((hmemR i i x).1 hx).1 rfl
  · rintro ⟨i, h⟩
    rw [hs.owner i, hmoves b (fun i => ⟨rfl, rfl⟩)] at h; cases h

/-! ## Operations -/

variable {dflt : D} {maxTag : Nat} {s : Sys n D W}

/-- Levels of cells and neighbors behind iterators are possible, also if there are no iterators. -/
theorem Coherent.levels' (hw : g.WF) {i : Fin n} {p : Proc n D W} {σ : Store n} (hg : Good g w maxTag i p) {b : Bool}
    {a : Option Cache} (ha : a = none ∨ a = some Cache.none) (h : Coherent g i p σ b a) : dbgLevels g σ.ptr = true := by
  rcases ha with ha | ha
  · exact dbgLevels_true hw hg (h.ptr.1 ha)
  · rw [h.ptr.2 _ ha]; rfl

theorem inv_storeAfterD (hw : g.WF) {s' : Sys n D W} (hi : Inv g w s) {op : Op n D W} (ho : op.Ok s)
    (hs : step g dflt maxTag s op = .ok s') {i : Fin n} {w1 w' : Owner n} (hg : Good g w1 maxTag i (s i))
    (hg' : Good g w' maxTag i (s' i)) {σ : Store n} {b : Bool} {a : Option Cache}
    (ha : a = none ∨ a = some Cache.none) (hc : Coherent g i (s i) σ b a) :
    storeAfterD g maxTag op i (s i) (s' i) σ = storeAfter g maxTag op i (s i) (s' i) σ := by
  cases op with
  | addHood id items =>
    obtain ⟨r, h1, h2⟩ := Out.bind_inv hs
    injection h2 with h2
    have e' : s' i = (r i).2 := by rw [← h2]
    have hx := Out.collect_inv h1 i
    have h3 := addHood_inv (b := (r i).1) (p' := (r i).2) hx
    unfold storeAfterD storeAfter
    simp only []
    by_cases hcond : id = defaultId ∨ ((s i).hoods.lookup id).isSome = true ∨ items.all (itemOk g) = false
    · rw [if_pos hcond, if_pos hcond]
    · rw [if_neg hcond, if_neg hcond]
      have hb : (r i).1 = true := by
        unfold Dccrg.addHood at hx
        rw [if_neg (fun e => hcond (Or.inl e)), if_neg (fun e => hcond (Or.inr (Or.inl e))),
          if_neg (fun e => hcond (Or.inr (Or.inr e)))] at hx
        split at hx
        · cases hx
        · split at hx
          · cases hx
          · injection hx with hx; rw [← hx]
      have h4 := h3.1.1 hb
      have h5 := h3.2.2 hb
      rw [← e'] at h5
      have ew : w' = w1 := by rw [← hg'.owner, ← hg.owner, h5]
      subst ew
      exact addStoreD_eq hw hg hc hg' (by rw [h5]) (by rw [h5]; rfl) h4.2.1 (by rw [h5])
  | stop z =>
    have e := stop_hoods hw hi hs i
    have hk := hc.keyed
    have hl := hc.levels' hw hg ha
    rw [← e] at hk
    exact rebuildStoreD_eq (σ := { σ with send := fun _ => [], recv := fun _ => [] }) hw hg' ⟨hk.userOf, hk.userTo, hk.userLoc, hk.userRem, hk.userSend, hk.userRecv, hk.userPtr⟩
      hl true
  | balance z =>
    have e := balance_hoods hw hi ⟨z, rfl⟩ ho hs i
    have hk := hc.keyed
    have hl := hc.levels' hw hg ha
    rw [← e] at hk
    exact rebuildStoreD_eq (σ := clearStore σ) hw hg' ⟨hk.userOf, hk.userTo, fun _ _ => rfl, fun _ _ => rfl, fun _ _ => rfl, fun _ _ => rfl,
      hk.userPtr⟩ hl false
  | _ => rfl

theorem storeAfterD_eq (hw : g.WF) {s' : Sys n D W} (hr : Reachable g dflt maxTag s) {op : Op n D W} (ho : op.Ok s)
    (hs : step g dflt maxTag s op = .ok s') {i : Fin n} {σ : Store n} {b : Bool} {a : Option Cache}
    (ha : a = none ∨ a = some Cache.none) (hc : Coherent g i (s i) σ b a) :
    storeAfterD g maxTag op i (s i) (s' i) σ = storeAfter g maxTag op i (s i) (s' i) σ := by
  obtain ⟨w, hi⟩ := hr.inv hw (by have := i.2; omega)
  obtain ⟨w1, hg⟩ := hr.good hw i
  obtain ⟨w', hg'⟩ := (Reachable.step op hr ho hs).good hw i
  exact inv_storeAfterD hw hi ho hs hg hg' ha hc

theorem storedSends_coherent {i : Fin n} {p : Proc n D W} {σ : Store n} {b : Bool} {a : Option Cache} (hc : Coherent g i p σ b a)
    (id : Int) : storedSends σ id = match hoodFor g p id with
      | some H => .ok (sendList g H i p.owner p.has, recvList g H i p.owner p.has)
      | none => .throws := by
  unfold storedSends hoodFor
  by_cases h : id = defaultId
  · rw [if_pos h, if_pos h, hc.send, hc.recv]
  · rw [if_neg h, if_neg h, hc.userSend, hc.userRecv]
    unfold Out.at
    simp only []
    cases p.hoods.lookup id <;> rfl

theorem dbgAll_true (hw : g.WF) (hn : 0 < n) (hg : ∀ i, ∃ w, Good g w maxTag i (s i)) (hs : ∀ i, (s i).owner = w)
    {σ : Fin n → Store n} {b : Bool} {a : Option Cache}
    (ha : a = none ∨ a = some Cache.none) (hc : ∀ i, Coherent g i (s i) (σ i) b a) : dbgAll g s σ = .ok true := by
  unfold dbgAll
  rw [dbgConsistent_true hs, if_neg (by simp), Out.collect_ok (x := fun _ => true), Out.bind_ok]
  · simp
  · intro i
    obtain ⟨w', hg⟩ := hg i
    have ew : w' = w := by rw [← hg.owner, hs]
    subst ew
    have ho := hg.owner
    have h := hc i
    rw [dbgNeighbors_true hw hg (ho ▸ h.six) (ho ▸ h.of) (ho ▸ h.to) (ho ▸ h.userOf) (ho ▸ h.userTo) (h.levels' hw hg ha),
      Out.bind_ok, dbgInfo_true hw hg.tiled hg.balanced ho hg.placed (ho ▸ h.six) h.loc h.rem, Out.bind_ok,
      dbgData_true ho hg.placed]
    rfl

/-- Operations other than load balancing. -/
theorem stepD_core (hw : g.WF) (hn : 0 < n) (hs : SysCore g w s) (hr : ∀ i, ReqOk g w (s i).req)
    (hh : ∀ i j, (s i).hoods = (s j).hoods) (hg : ∀ i, ∃ w, Good g w maxTag i (s i)) {σ : Fin n → Store n} {b : Bool}
    {a : Option Cache} (hc : ∀ i, Coherent g i (s i) (σ i) b a) {op : Op n D W} (ho : ∀ z, op ≠ .balance z) :
    stepD g dflt maxTag s σ op = step g dflt maxTag s op := by
  have hk : ∀ i, Knows g w i (s i) (σ i) := fun i => (hc i).knows (hs.owner i)
  cases op with
  | unpinLocal i =>
    show (if dbgLocal g i (s i) then _ else _) = _
    rw [if_pos (dbgLocal_true hw hs.tiled (hs.owner i) (hs.placed i))]
  | stop sorted =>
    show (stopRefiningD g dflt maxTag sorted s σ).bind _ = (stopRefining g dflt maxTag sorted s).bind _
    rw [stopRefiningD_eq hw dflt sorted hs hr hk]
  | balance z => exact absurd rfl (ho z)
  | update id =>
    show ((Out.collect fun i => storedSends (σ i) id).bind fun m =>
      if dbgSelf (fun i => (m i).1) (fun i => (m i).2) then step g dflt maxTag s (.update id) else .throws) = _
    have e : ∀ i, storedSends (σ i) id = match hoodFor g (s i) id with
      | some H => .ok (sendList g H i (s i).owner (s i).has, recvList g H i (s i).owner (s i).has)
      | none => .throws := fun i => storedSends_coherent (hc i) id
    have hh : ∀ i, hoodFor g (s i) id = hoodFor g (s ⟨0, hn⟩) id := by
      intro i; unfold hoodFor; rw [hh i ⟨0, hn⟩]
    cases hx : hoodFor g (s ⟨0, hn⟩) id with
    | none =>
      have e2 : step g dflt maxTag s (.update id) = .throws := by
        show (updateRemote g maxTag id s).bind _ = _
        unfold updateRemote
        rw [if_pos ⟨⟨0, hn⟩, by rw [hx]; rfl⟩]
        rfl
      have e3 : (Out.collect fun i => storedSends (σ i) id) = .throws := by
        unfold Out.collect
        rw [dif_neg, if_neg, if_neg]
        · rintro ⟨i, h⟩
          replace h : (storedSends (σ i) id).isHang = true := h
          rw [e i, hh, hx] at h; cases h
        · rintro ⟨i, h⟩
          replace h : (storedSends (σ i) id).isUndef = true := h
          rw [e i, hh, hx] at h; cases h
        · intro h
          have : (storedSends (σ ⟨0, hn⟩) id).isOk = true := h ⟨0, hn⟩
          rw [e, hx] at this; cases this
      rw [e2, e3]; rfl
    | some H =>
      rw [Out.collect_ok (x := fun i => (sendList g H i (s i).owner (s i).has, recvList g H i (s i).owner (s i).has))
        (fun i => by rw [e i, hh, hx]), Out.bind_ok, if_pos]
      unfold dbgSelf
      rw [decide_eq_true_eq]
      obtain ⟨w', hg⟩ := hg ⟨0, hn⟩
      have hH := hg.hoodFor_sub hx
      intro i
      simp only []
      rw [hs.owner i]
      constructor
      · rw [List.eq_nil_iff_forall_not_mem]
        intro x h
        exact ((mem_sendList hw hs.tiled hs.balanced hH (hs.placed i)).1 h).1 rfl
      · rw [List.eq_nil_iff_forall_not_mem]
        intro x h
        exact ((mem_recvList hw hs.tiled hs.balanced hH (hs.placed i)).1 h).1 rfl
  | _ => rfl

theorem stepD_eq (hw : g.WF) (hn : 0 < n) (hr : Reachable g dflt maxTag s) {σ : Fin n → Store n} {b : Bool} {a : Option Cache}
    (hc : ∀ i, Coherent g i (s i) (σ i) b a) {op : Op n D W} (ho : op.Ok s) :
    stepD g dflt maxTag s σ op = step g dflt maxTag s op := by
  obtain ⟨w, hi⟩ := hr.inv hw hn
  by_cases hb : ∃ z, op = .balance z
  · obtain ⟨z, rfl⟩ := hb
    have hz : MovesOk w z := hi.sys.owner ⟨0, hn⟩ ▸ ho ⟨0, hn⟩
    exact balanceLoadD_eq hw dflt hz hi.sys fun i => (hc i).knows (hi.sys.owner i)
  · exact stepD_core hw hn hi.sys.core hi.req hi.hoods (fun i => hr.good hw i) hc fun z e => hb ⟨z, e⟩

/-- Debug builds do the same as release builds. -/
theorem stepStoredD_eq (hw : g.WF) (hn : 0 < n) (hr : Reachable g dflt maxTag s) {σ : Fin n → Store n} {b : Bool} {a : Option Cache}
    (ha : a = none ∨ a = some Cache.none) (hc : ∀ i, Coherent g i (s i) (σ i) b a) {op : Op n D W} (ho : op.Ok s) :
    stepStoredD g dflt maxTag s σ op = stepStored g dflt maxTag s σ op := by
  unfold stepStoredD stepStored
  rw [stepD_eq hw hn hr hc ho]
  cases hs : step g dflt maxTag s op with
  | throws => rfl
  | hangs => rfl
  | undef => rfl
  | ok s' =>
    have hr' : Reachable g dflt maxTag s' := .step op hr ho hs
    obtain ⟨w', hi'⟩ := hr'.inv hw hn
    rw [Out.bind_ok, Out.bind_ok, show (fun i => storeAfterD g maxTag op i (s i) (s' i) (σ i)) =
      fun i => storeAfter g maxTag op i (s i) (s' i) (σ i) from funext fun i => storeAfterD_eq hw hr ho hs ha (hc i)]
    obtain ⟨σ', e1, e2⟩ := Out.collect_all fun i => storeAfter_ok hw hr ho hs (hc i)
    rw [e1, Out.bind_ok, Out.bind_ok]
    have : (if op.verifies g s then dbgAll g s' σ' else .ok true) = .ok true := by
      split
      · refine dbgAll_true (w := w') hw hn (fun i => hr'.good hw i) hi'.sys.owner ?_ e2
        split
        · exact Or.inl rfl
        · exact ha
      · rfl
    rw [this, Out.check_true]

theorem copyStoreD_eq (hw : g.WF) {D0 : Type} {q : Proc n D0 W} {i : Fin n} {σ : Store n} {b : Bool} {a : Option Cache}
    (h : Coherent g i q σ b a) (hg' : Good g w maxTag i (copyProc g dflt i q)) :
    copyStoreD g (copyProc g dflt i q) σ = copyStore g (copyProc g dflt i q) σ := by
  have hh : (copyProc g dflt i q).has = q.has := by
    funext c
    show ((q.data c).map fun _ => dflt).isSome = _
    rw [Option.isSome_map]; rfl
  unfold copyStoreD copyStore
  refine updatePtrD_eq hw hg' ?_
  constructor
  · exact h.six
  · exact h.of
  · exact h.to
  · exact h.userOf
  · exact h.userTo
  · rw [hh]; exact h.loc
  · rw [hh]; exact h.rem
  · rw [hh]; exact h.userLoc
  · rw [hh]; exact h.userRem
  · rw [hh]; exact h.send
  · rw [hh]; exact h.recv
  · rw [hh]; exact h.userSend
  · rw [hh]; exact h.userRecv

end Dccrg
