import Verif.ExecSpec
/-!
# Results of execute_refines on all processes
-/
namespace Dccrg
open Cfg
variable {n : Nat} {D W : Type} {g : Cfg} {w : Owner n} {R U : Nat → Prop}

/-- State of process `i` after `execute_refines`. `w'` are new owners of cells, `nc` the returned cells. -/
structure Executed (g : Cfg) (w w' : Owner n) (R U : Nat → Prop) (dflt : D) (s : Sys n D W) (i : Fin n)
    (p' : Proc n D W) (nc : List Nat) : Prop where
  owner : p'.owner = w'
  placed : ∀ c, (p'.data c).isSome = true ↔ w' c = some i
  dataNew : ∀ c, New g R c → w' c = some i → p'.data c = some dflt
  dataPar : ∀ c, Par g U c → w' c = some i → p'.data c = some dflt
  dataSame : ∀ c, exist w c = true → ¬ R c → ¬ Fam g U c → p'.data c = (s i).data c
  refinedData : ∀ c, R c → w c = some i → p'.refinedData c = (s i).data c
  refinedOnly : ∀ c, ¬ (R c ∧ w c = some i) → p'.refinedData c = none
  unrefinedData : ∀ c j, Fam g U c → w c = some j → w' (g.parent c) = some i →
    p'.unrefinedData c = (s j).data c
  unrefinedOnly : ∀ c, ¬ (Fam g U c ∧ w' (g.parent c) = some i) → p'.unrefinedData c = none
  pinsNew : ∀ c, New g R c → p'.pins c = (s i).pins (g.parent c) ∧
    p'.newPins c = (s i).newPins (g.parent c)
  pinsSame : ∀ c, exist w c = true → ¬ R c → ¬ Fam g U c →
    p'.pins c = (s i).pins c ∧ p'.newPins c = (s i).newPins c
  pinsOther : ∀ c, ¬ New g R c → ¬ (exist w c = true ∧ ¬ R c ∧ ¬ Fam g U c) →
    p'.pins c = none ∧ p'.newPins c = none
  weightsNew : (∀ c, w c ≠ some i → (s i).weights c = none) → ∀ c, New g R c → w' c = some i → p'.weights c = (s i).weights (g.parent c)
  weightsSame : ∀ c, exist w c = true → ¬ R c → ¬ Fam g U c → p'.weights c = (s i).weights c
  weightsOther : (∀ c, w c ≠ some i → (s i).weights c = none) → ∀ c, w' c ≠ some i ∨ Par g U c → p'.weights c = none
  remote : ∀ c, p'.remote c = if c ∈ remoteBoundary g i w' (fun c => (p'.data c).isSome)
    then some dflt else none
  hoods : p'.hoods = (s i).hoods
  newNodup : nc.Nodup
  newCells : ∀ c, c ∈ nc ↔ New g R c ∧ w' c = some i

theorem newOwner_iff_new (hw : g.WF) (ht : Tiled g (exist w)) (hp : Plan g (exist w) R U) {x : Nat}
    (hx : New g R x) {r : Nat} (hr : R r) (hrx : x ∈ g.children r) : newOwner g w R U x = w r := by
  rw [newOwner_new hw ht hp hx]
  obtain ⟨e1, e2⟩ := hp.refE r hr
  rw [((children_spec hw (ht.valid r e1) e2).1 hrx).2.2]

/-- Searches of neighbors succeed in a consistent grid. -/
theorem neighborsFound_ok (hw : g.WF) {p : Proc n D W} (ht : Tiled g (exist p.owner))
    (hb : Balanced g (exist p.owner)) (hh : ∀ h ∈ p.hoods, ∀ o ∈ h.2, o ∈ hoodOf g) :
    neighborsFound g p = true := by
  unfold neighborsFound
  rw [List.all_eq_true]
  intro c _
  cases hc : exist p.owner c with
  | false => rfl
  | true =>
    simp only [Bool.not_true, Bool.false_or]
    rw [List.all_eq_true]
    intro H hH
    have hHo : ∀ o ∈ H, o ∈ hoodOf g := by
      rcases List.mem_cons.1 hH with rfl | hH
      · exact fun o h => h
      · obtain ⟨h, h1, rfl⟩ := List.mem_map.1 hH
        exact hh h h1
    obtain ⟨f, h1, -⟩ := C15_neighbors_of hw ht ((balanced_iff hw ht).1 hb) hc hHo
    obtain ⟨r, h2, -⟩ := C16_neighbors_to hw ht ((balanced_iff hw ht).1 hb) hc hHo
    rw [h1, h2]; rfl

theorem tagsFit_ok (hw : g.WF) {maxTag : Nat} {i : Fin n} {p : Proc n D W}
    (ht : Tiled g (exist p.owner)) (hb : Balanced g (exist p.owner))
    (hh : ∀ h ∈ p.hoods, ∀ o ∈ h.2, o ∈ hoodOf g)
    (hd : ∀ c, (p.data c).isSome = true ↔ p.owner c = some i) (hm : FitsTags maxTag p.owner) :
    tagsFit g maxTag i p = true := by
  unfold tagsFit
  rw [List.all_eq_true]
  intro H hH
  have hHo : ∀ o ∈ H, o ∈ hoodOf g := by
    rcases List.mem_cons.1 hH with rfl | hH
    · exact fun o h => h
    · obtain ⟨h, h1, rfl⟩ := List.mem_map.1 hH
      exact hh h h1
  rw [List.all_eq_true]
  intro q _
  rw [Bool.and_eq_true, decide_eq_true_eq, decide_eq_true_eq]
  exact ⟨hm i _ sendList_nodup fun c hc => ((mem_sendList hw ht hb hHo hd).1 hc).2.1,
    hm q _ recvList_nodup fun c hc => ((mem_recvList hw ht hb hHo hd).1 hc).2.1⟩

theorem rebuild_ok (hw : g.WF) (dflt : D) {maxTag : Nat} {i : Fin n} {p : Proc n D W}
    (ht : Tiled g (exist p.owner)) (hb : Balanced g (exist p.owner))
    (hh : ∀ h ∈ p.hoods, ∀ o ∈ h.2, o ∈ hoodOf g)
    (hd : ∀ c, (p.data c).isSome = true ↔ p.owner c = some i) (hm : FitsTags maxTag p.owner) :
    rebuild g dflt maxTag i p = .ok { p with
      remote := fun c =>
        if c ∈ remoteBoundary g i p.owner (fun c => (p.data c).isSome) then some ((p.remote c).getD dflt)
      else p.remote c } := by
  unfold rebuild
  rw [if_neg (by rw [neighborsFound_ok hw ht hb hh]; simp),
    if_neg (by rw [tagsFit_ok hw ht hb hh hd hm]; simp)]

open Classical in
theorem executeRefines_spec (hw : g.WF) (dflt : D) {maxTag : Nat} {s : Sys n D W} (hs : SysCore g w s)
    (hp : Plan g (exist w) R U) (hR : ∀ i c, c ∈ (s i).req.toRefine ↔ R c)
    (hU : ∀ i c, c ∈ (s i).req.toUnrefine ↔ U c) (hm : FitsTags maxTag w)
    (hm' : FitsTags maxTag (newOwner g w R U)) :
    ∃ res, executeRefines g dflt maxTag s = .ok res ∧
      ∀ i, Executed g w (newOwner g w R U) R U dflt s i (res i).1 (res i).2 ∧
        (res i).1.req = { (s i).req with toRefine := [], toUnrefine := [] } := by
  have ht := hs.tiled
  have ht' : Tiled g (exist (newOwner g w R U)) := hp.tiled hw ht (newOwner_exist hw ht hp)
  have hb' : Balanced g (exist (newOwner g w R U)) :=
    hp.balanced hw ht hs.balanced (newOwner_exist hw ht hp)
  have hprep : ∀ i, ∃ x : Moving n D W × List Nat, prepare g dflt i (s i) = .ok x ∧
      Prepared g w R U dflt i (s i) x.1 x.2 := by
    intro i
    obtain ⟨m, nc, h1, h2⟩ := prepare_spec hw dflt hs hp i (hR i) (hU i)
    exact ⟨(m, nc), h1, h2⟩
  let m : Fin n → Moving n D W × List Nat := fun i => Classical.choose (hprep i)
  have hm1 : ∀ i, prepare g dflt i (s i) = .ok (m i) := fun i => (Classical.choose_spec (hprep i)).1
  have hm2 : ∀ i, Prepared g w R U dflt i (s i) (m i).1 (m i).2 :=
    fun i => (Classical.choose_spec (hprep i)).2
  generalize m = m at hm1 hm2
  have hnodata : ∀ i c, w c ≠ some i → (s i).data c = none := by
    intro i c h
    cases hx : (s i).data c with
    | none => rfl
    | some v => exact absurd ((hs.placed i c).1 (by rw [hx]; rfl)) h
  -- the transfer
  have hmatch : ListsMatch (fun p q => isort ((m p).1.2.1 q)) (fun q p => isort ((m q).1.2.2 p)) := by
    constructor
    · intro p q
      apply isort_eq ((hm2 p).send q).1 ((hm2 q).recv p).1
      intro c
      rw [((hm2 p).send q).2, ((hm2 q).recv p).2]
      exact and_congr_left' ⟨Ne.symm, Ne.symm⟩
    · intro q p p' c h1 h2
      rw [mem_isort, ((hm2 q).recv _).2] at h1 h2
      have := h1.2.2.1.symm.trans h2.2.2.1
      injection this
  obtain ⟨un, hu1, hu2, hu3⟩ := transfer_spec (maxTag := maxTag) hmatch
    (data := fun p => (m p).1.1.data) (dest := fun p => (m p).1.1.unrefinedData)
    (by
      intro p q
      refine hm p _ ((isort_perm _).nodup_iff.2 ((hm2 p).send q).1) ?_
      intro c hc
      rw [mem_isort, ((hm2 p).send q).2] at hc
      exact hc.2.2.1)
    (by
      intro p q c hc
      rw [mem_isort, ((hm2 p).send q).2] at hc
      rw [(hm2 p).dataFam c hc.2.1 (by
        rw [hc.2.2.2]; intro e; injection e with e; exact hc.1 e)]
      exact (hs.placed p c).2 hc.2.2.1)
  have hunfam : ∀ i c j, Fam g U c → w c = some j → w (firstChild g (g.parent c)) = some i →
      un i c = (s j).data c := by
    intro i c j hf hj hi
    by_cases hij : j = i
    · subst hij
      rw [hu3, ((hm2 j).unrefinedData c).1 hf hj hi]
      intro p hp'
      rw [mem_isort, ((hm2 j).recv p).2] at hp'
      have := hp'.2.2.1.symm.trans hj
      injection this with this
      exact hp'.1 this
    · have hmem : c ∈ isort ((m i).1.2.2 j) := by
        rw [mem_isort, ((hm2 i).recv j).2]
        exact ⟨hij, hf, hj, hi⟩
      rw [hu2 i j c hmem]
      exact (hm2 j).dataFam c hf (by rw [hi]; intro e; injection e with e; exact hij e.symm)
  have hunother : ∀ i c, ¬ (Fam g U c ∧ w (firstChild g (g.parent c)) = some i) → un i c = none := by
    intro i c h
    rw [hu3, ((hm2 i).unrefinedData c).2 (fun h' => h ⟨h'.1, h'.2.2⟩)]
    intro p hp'
    rw [mem_isort, ((hm2 i).recv p).2] at hp'
    exact h ⟨hp'.2.1, hp'.2.2.2⟩
  -- the rest
  have hreq : ∀ i, (m i).1.1.req = (s i).req := fun i => (hm2 i).req
  have hRl : ∀ i c, c ∈ (m i).1.1.req.toRefine ↔ R c := fun i c => by rw [hreq]; exact hR i c
  have hfam : ∀ i x, x ∈ families g (m i).1.1.req.toUnrefine ↔ Fam g U x := by
    intro i x; rw [hreq]; unfold families Fam; rw [mem_dedup, List.mem_flatMap]; simp only [hU]
  have hpar : ∀ i x, x ∈ parents g (m i).1.1.req.toUnrefine ↔ Par g U x := by
    intro i x; rw [hreq]; unfold parents Par; rw [mem_dedup, List.mem_map]; simp only [hU]
  have howner : ∀ i, put (m i).1.1.owner (m i).1.1.req.toRefine none = newOwner g w R U := by
    intro i
    funext x
    unfold put
    by_cases hr : R x
    · rw [if_pos ((hRl i x).2 hr), newOwner_gone hw ht hp (Or.inl hr)]
    · rw [if_neg (fun h => hr ((hRl i x).1 h)), (hm2 i).owner x hr]
  have hpar_owner : ∀ i x, Par g U x → (m i).1.1.owner x = newOwner g w R U x := by
    intro i x hx
    apply (hm2 i).owner x
    intro hr
    have := hp.par_not_exist hw ht hx
    rw [(hp.refE x hr).1] at this; cases this
  let fin : Fin n → Proc n D W := fun i => { (m i).1.1 with
    unrefinedData := un i
    data := fun x => if x ∈ families g (m i).1.1.req.toUnrefine then none
      else if x ∈ parents g (m i).1.1.req.toUnrefine ∧ (m i).1.1.owner x = some i then
        some (((m i).1.1.data x).getD dflt) else (m i).1.1.data x
    owner := put (m i).1.1.owner (m i).1.1.req.toRefine none
    req := { (m i).1.1.req with toRefine := [], toUnrefine := [] } }
  have hfin : ∀ i, finishRefines g dflt i { (m i).1.1 with unrefinedData := un i } = .ok (fin i) := by
    intro i
    unfold finishRefines
    simp only
    rw [if_neg]
    rintro ⟨P, h1, h2⟩
    have hP := (hpar i P).1 h1
    rw [hpar_owner i P hP, newOwner_par hw ht hp hP] at h2
    obtain ⟨o, ho⟩ := hp.first_exist hw ht hP
    rw [ho] at h2; cases h2
  have hfo : ∀ i, (fin i).owner = newOwner g w R U := howner
  have hfd : ∀ i c, (fin i).data c = if Fam g U c then none
      else if Par g U c ∧ newOwner g w R U c = some i then
        some (((m i).1.1.data c).getD dflt) else (m i).1.1.data c := by
    intro i c
    show (if _ then _ else if _ then _ else _) = _
    by_cases h1 : Fam g U c
    · rw [if_pos ((hfam i c).2 h1), if_pos h1]
    · rw [if_neg (fun h => h1 ((hfam i c).1 h)), if_neg h1]
      by_cases h2 : Par g U c
      · have e := hpar_owner i c h2
        by_cases h3 : newOwner g w R U c = some i
        · rw [if_pos ⟨(hpar i c).2 h2, e.trans h3⟩, if_pos ⟨h2, h3⟩]
        · rw [if_neg (fun h => h3 (e.symm.trans h.2)), if_neg (fun h => h3 h.2)]
      · rw [if_neg (fun h => h2 ((hpar i c).1 h.1)), if_neg (fun h => h2 h.1)]
  have hnewfam : ∀ c, New g R c → ¬ Fam g U c ∧ ¬ R c := by
    intro c hn
    have := hp.new_not_exist hw ht hn
    constructor
    · intro hf; rw [(hp.fam_exist hw ht hf).1] at this; cases this
    · intro hr; rw [(hp.refE c hr).1] at this; cases this
  have hnewpar : ∀ c, New g R c → ¬ Par g U c := by
    intro c hn hpc
    have a := newOwner_par hw ht hp hpc
    rw [newOwner_new hw ht hp hn] at a
    obtain ⟨u, h1, rfl⟩ := hpc
    obtain ⟨r, h2, h3⟩ := hn
    obtain ⟨e1, e2⟩ := hp.refE r h2
    obtain ⟨e3, e4, e5⟩ := hp.parent hw ht h1
    have hv := ht.valid u (hp.unE u h1).1
    have hm := mem_of_mem_children hw (ht.valid r e1) e2 h3 (mem_parent hw hv (mem_idx u))
    have := ht.unique _ r u e1 (hp.unE u h1).1 hm (mem_idx u)
    have h6 := ((children_spec hw (ht.valid r e1) e2).1 h3).2.1
    rw [this] at h6
    omega
  have hparfam : ∀ c, Par g U c → ¬ Fam g U c ∧ ¬ R c ∧ ¬ New g R c := by
    intro c hpc
    have := hp.par_not_exist hw ht hpc
    refine ⟨?_, ?_, fun hn => hnewpar c hn hpc⟩
    · intro hf; rw [(hp.fam_exist hw ht hf).1] at this; cases this
    · intro hr; rw [(hp.refE c hr).1] at this; cases this
  have hdn : ∀ i c, New g R c → (fin i).data c = if newOwner g w R U c = some i then some dflt else none := by
    intro i c hn
    rw [hfd, if_neg (hnewfam c hn).1, if_neg (fun h => hnewpar c hn h.1), (hm2 i).dataNew c hn,
      newOwner_new hw ht hp hn]
    have hx := hp.new_not_exist hw ht hn
    have hnd : (s i).data c = none := hnodata i c (fun h => by rw [exist_of h] at hx; cases hx)
    rw [hnd]; rfl
  have hdp : ∀ i c, Par g U c → (fin i).data c = if newOwner g w R U c = some i then some dflt else none := by
    intro i c hpc
    obtain ⟨a1, a2, a3⟩ := hparfam c hpc
    have hx := hp.par_not_exist hw ht hpc
    have hnd : (s i).data c = none := hnodata i c (fun h => by rw [exist_of h] at hx; cases hx)
    rw [hfd, if_neg a1, (hm2 i).dataOther c a3 a2 a1, hnd]
    by_cases h : newOwner g w R U c = some i
    · rw [if_pos ⟨hpc, h⟩, if_pos h]; rfl
    · rw [if_neg (fun h' => h h'.2), if_neg h]
  have hds : ∀ i c, ¬ New g R c → ¬ Par g U c → ¬ R c → ¬ Fam g U c → (fin i).data c = (s i).data c := by
    intro i c h1 h2 h3 h4
    rw [hfd, if_neg h4, if_neg (fun h => h2 h.1), (hm2 i).dataOther c h1 h3 h4]
  have hdr : ∀ i c, R c → (fin i).data c = none := by
    intro i c hr
    have h4 : ¬ Fam g U c := fun h => (hp.fam_exist hw ht h).2.1 hr
    rw [hfd, if_neg h4, if_neg (fun h => (hparfam c h.1).2.1 hr), (hm2 i).dataRef c hr]
    by_cases h : w c = some i
    · rw [if_pos h]
    · rw [if_neg h]; exact hnodata i c h
  have hplaced : ∀ i c, ((fin i).data c).isSome = true ↔ newOwner g w R U c = some i := by
    intro i c
    by_cases h1 : R c
    · rw [hdr i c h1, newOwner_gone hw ht hp (Or.inl h1)]; simp
    by_cases h2 : Fam g U c
    · rw [hfd, if_pos h2, newOwner_gone hw ht hp (Or.inr h2)]; simp
    by_cases h3 : New g R c
    · rw [hdn i c h3]; split <;> simp [*]
    by_cases h4 : Par g U c
    · rw [hdp i c h4]; split <;> simp [*]
    · rw [hds i c h3 h4 h1 h2, hs.placed]
      have : newOwner g w R U c = w c := by
        unfold newOwner
        simp only [h1, h2, h3, h4, or_self, if_false]
      rw [this]
  have hsame : ∀ c, exist w c = true → ¬ R c → ¬ Fam g U c → ¬ New g R c ∧ ¬ Par g U c := by
    intro c hc _ _
    constructor
    · intro h; rw [hp.new_not_exist hw ht h] at hc; cases hc
    · intro h; rw [hp.par_not_exist hw ht h] at hc; cases hc
  have hre : ∀ i, rebuild g dflt maxTag i (fin i) = _ := fun i =>
    rebuild_ok hw dflt (by rw [hfo i]; exact ht') (by rw [hfo i]; exact hb')
      (by
        intro h hh
        have e : (fin i).hoods = (s i).hoods := (hm2 i).hoods
        rw [e] at hh; exact hs.hoods i h hh)
      (by intro c; rw [hfo i]; exact hplaced i c) (by rw [hfo i]; exact hm')
  refine ⟨fun i => ({ fin i with
      remote := fun c =>
        if c ∈ remoteBoundary g i (fin i).owner (fun c => ((fin i).data c).isSome)
      then some (((fin i).remote c).getD dflt) else (fin i).remote c }, (m i).2), ?_, ?_⟩
  · unfold executeRefines
    rw [Out.collect_ok hm1, Out.bind_ok, hu1, Out.bind_ok]
    apply Out.collect_ok
    intro i
    rw [hfin i, Out.bind_ok, hre i, Out.bind_ok]
  · intro i
    have hnewown : ∀ c, New g R c → newOwner g w R U c = w (g.parent c) :=
      fun c h => newOwner_new hw ht hp h
    have hnopin : ∀ c, exist w c = false → (s i).pins c = none ∧ (s i).newPins c = none := hs.pins i
    refine ⟨?_, ?_⟩
    rotate_left
    · show ({ (m i).1.1.req with toRefine := [], toUnrefine := [] } : Req) = _
      rw [hreq i]
    constructor
    · exact hfo i
    · exact hplaced i
    · intro c hn ho
      exact (hdn i c hn).trans (if_pos ho)
    · intro c hn ho
      exact (hdp i c hn).trans (if_pos ho)
    · intro c hc h1 h2
      obtain ⟨h3, h4⟩ := hsame c hc h1 h2
      exact hds i c h3 h4 h1 h2
    · intro c hr ho; exact ((hm2 i).refinedData c).1 hr ho
    · intro c h; exact ((hm2 i).refinedData c).2 h
    · intro c j hf hj hi
      have hpc := (hp.fam_exist hw ht hf).2.2.1
      rw [newOwner_par hw ht hp hpc] at hi
      exact hunfam i c j hf hj hi
    · intro c h
      apply hunother i c
      rintro ⟨h1, h2⟩
      apply h
      refine ⟨h1, ?_⟩
      rw [newOwner_par hw ht hp (hp.fam_exist hw ht h1).2.2.1]
      exact h2
    · intro c hn
      obtain ⟨e1, e2⟩ := hnopin c (hp.new_not_exist hw ht hn)
      have a := ((hm2 i).pins c).2.1 hn
      have b := ((hm2 i).newPins c).2.1 hn
      rw [e1, Option.or_none] at a
      rw [e2, Option.or_none] at b
      exact ⟨a, b⟩
    · intro c hc h1 h2
      obtain ⟨h3, h4⟩ := hsame c hc h1 h2
      exact ⟨((hm2 i).pins c).2.2 h1 h2 h3, ((hm2 i).newPins c).2.2 h1 h2 h3⟩
    · intro c hn h
      by_cases hrf : R c ∨ Fam g U c
      · exact ⟨((hm2 i).pins c).1 hrf, ((hm2 i).newPins c).1 hrf⟩
      · have h1 : ¬ R c := fun h => hrf (Or.inl h)
        have h2 : ¬ Fam g U c := fun h => hrf (Or.inr h)
        have hc : exist w c = false := by
          cases hx : exist w c with
          | false => rfl
          | true => exact absurd ⟨hx, h1, h2⟩ h
        obtain ⟨e1, e2⟩ := hnopin c hc
        exact ⟨(((hm2 i).pins c).2.2 h1 h2 hn).trans e1, (((hm2 i).newPins c).2.2 h1 h2 hn).trans e2⟩
    · intro hW c hn ho
      have a := ((hm2 i).weights c).2.1 hn
      rw [hnewown c hn] at ho
      rw [if_pos ho, hW c (fun h => by
        have := hp.new_not_exist hw ht hn
        rw [exist_of h] at this; cases this), Option.or_none] at a
      exact a
    · intro c hc h1 h2
      obtain ⟨h3, h4⟩ := hsame c hc h1 h2
      exact ((hm2 i).weights c).2.2 (fun h => h1 h.1) h2 h3
    · intro hW c h
      show (m i).1.1.weights c = none
      by_cases h1 : R c ∧ w c = some i ∨ Fam g U c
      · exact ((hm2 i).weights c).1 h1
      by_cases hn : New g R c
      · have ho : w (g.parent c) ≠ some i := by
          rcases h with h | h
          · rw [hnewown c hn] at h; exact h
          · exact absurd h (hnewpar c hn)
        rw [((hm2 i).weights c).2.1 hn, if_neg ho]
        exact hW c (fun h => by
          have := hp.new_not_exist hw ht hn
          rw [exist_of h] at this; cases this)
      · have h2 : ¬ (R c ∧ w c = some i) := fun h => h1 (Or.inl h)
        have h3 : ¬ Fam g U c := fun h => h1 (Or.inr h)
        rw [((hm2 i).weights c).2.2 h2 h3 hn]
        apply hW c
        intro ho
        rcases h with h | h
        · apply h
          rw [newOwner_same hw ht hp (exist_of ho) (fun hr => h2 ⟨hr, ho⟩) h3, ho]
        · have := hp.par_not_exist hw ht h
          rw [exist_of ho] at this; cases this
    · intro c
      have hrem : (fin i).remote = fun _ => none := (hm2 i).remote
      show (if c ∈ remoteBoundary g i (fin i).owner _ then some (((fin i).remote c).getD dflt)
        else (fin i).remote c) = _
      rw [hrem, hfo i]
      rfl
    · exact (hm2 i).hoods
    · exact (hm2 i).newCells.1
    · intro c
      rw [(hm2 i).newCells.2]
      constructor
      · rintro ⟨r, h1, h2, h3⟩
        have hn : New g R c := ⟨r, h1, h3⟩
        exact ⟨hn, (newOwner_iff_new hw ht hp hn h1 h3).trans h2⟩
      · rintro ⟨hn, ho⟩
        obtain ⟨r, h1, h3⟩ := hn
        exact ⟨r, h1, (newOwner_iff_new hw ht hp ⟨r, h1, h3⟩ h1 h3).symm.trans ho, h3⟩

/-- State stays consistent. -/
theorem Executed.sysCore (hw : g.WF) {dflt : D} {s : Sys n D W} (hs : SysCore g w s)
    (hp : Plan g (exist w) R U) {res : Fin n → Proc n D W × List Nat}
    (h : ∀ i, Executed g w (newOwner g w R U) R U dflt s i (res i).1 (res i).2) :
    SysCore g (newOwner g w R U) (fun i => (res i).1) := by
  have ht := hs.tiled
  constructor
  · intro i; exact (h i).owner
  · exact hp.tiled hw ht (newOwner_exist hw ht hp)
  · exact hp.balanced hw ht hs.balanced (newOwner_exist hw ht hp)
  · intro i c; exact (h i).placed c
  · intro i c hc
    apply (h i).pinsOther
    · intro hn
      have := (newOwner_exist hw ht hp c).2 (Or.inr (Or.inl hn))
      rw [this] at hc; cases hc
    · rintro ⟨h1, h2, h3⟩
      have := (newOwner_exist hw ht hp c).2 (Or.inl ⟨h1, h2, h3⟩)
      rw [this] at hc; cases hc
  · intro i j c
    by_cases hn : New g R c
    · rw [((h i).pinsNew c hn).1, ((h j).pinsNew c hn).1]; exact hs.pinsAgree i j _
    by_cases he : exist w c = true ∧ ¬ R c ∧ ¬ Fam g U c
    · obtain ⟨h1, h2, h3⟩ := he
      rw [((h i).pinsSame c h1 h2 h3).1, ((h j).pinsSame c h1 h2 h3).1]; exact hs.pinsAgree i j _
    · rw [((h i).pinsOther c hn he).1, ((h j).pinsOther c hn he).1]
  · intro i x hx
    rw [(h i).hoods] at hx
    exact hs.hoods i x hx

/-- Also processes that have pin requests and weights. -/
theorem Executed.sysOk (hw : g.WF) {dflt : D} {s : Sys n D W} (hs : SysOk g w s)
    (hp : Plan g (exist w) R U) {res : Fin n → Proc n D W × List Nat}
    (h : ∀ i, Executed g w (newOwner g w R U) R U dflt s i (res i).1 (res i).2) :
    SysOk g (newOwner g w R U) (fun i => (res i).1) := by
  have ht := hs.tiled
  have hc := Executed.sysCore hw hs.core hp h
  refine ⟨hc.owner, hc.tiled, hc.balanced, hc.placed, hc.pins, hc.pinsAgree, ?_, ?_, hc.hoods⟩
  · intro i c hc
    by_cases hn : New g R c
    · rw [((h i).pinsNew c hn).2]
      rw [newOwner_new hw ht hp hn] at hc
      exact hs.newPins i _ hc
    by_cases he : exist w c = true ∧ ¬ R c ∧ ¬ Fam g U c
    · obtain ⟨h1, h2, h3⟩ := he
      rw [((h i).pinsSame c h1 h2 h3).2]
      rw [newOwner_same hw ht hp h1 h2 h3] at hc
      exact hs.newPins i _ hc
    · exact ((h i).pinsOther c hn he).2
  · intro i c hc; exact (h i).weightsOther (hs.weights i) c (Or.inl hc)

end Dccrg
