import Verif.Load
import Verif.Stop
/-!
# Results of load balancing
-/
namespace Dccrg
open Cfg
variable {n : Nat} {D W : Type} {g : Cfg} {w : Owner n}

/-- What the partitioner must return: cells sent between two processes agree, are sent by their owner
and to one process only. Nothing is required of cells that stay on their process. -/
structure MovesOk (w : Owner n) (z : Fin n → Moves n) : Prop where
  agree : ∀ p q c, p ≠ q → ((c, q) ∈ (z p).send ↔ (c, p) ∈ (z q).recv)
  own : ∀ p q c, p ≠ q → (c, q) ∈ (z p).send → w c = some p
  send : ∀ p, ((z p).send.map Prod.fst).Nodup
  recv : ∀ p, ((z p).recv.map Prod.fst).Nodup

/-- Pin request of a cell after new requests have been handled. -/
def pinned (w : Owner n) (s : Sys n D W) (c : Nat) : Option (Fin n) :=
  match w c with
  | none => none
  | some p => ((s p).newPins c).getD ((s p).pins c)

theorem fold_none {α β : Type} (f : α → Option β) (l : List α) (h : ∀ a ∈ l, f a = none) (b : β) :
    l.foldl (fun acc a => (f a).getD acc) b = b := by
  induction l generalizing b with
  | nil => rfl
  | cons a l ih =>
    rw [List.foldl_cons, h a List.mem_cons_self]
    exact ih (fun a ha => h a (List.mem_cons_of_mem _ ha)) b

theorem fold_one {α β : Type} (f : α → Option β) (l : List α) (hn : l.Nodup) (p : α) (hp : p ∈ l)
    (h : ∀ a ∈ l, a ≠ p → f a = none) (b : β) :
    l.foldl (fun acc a => (f a).getD acc) b = (f p).getD b := by
  induction l generalizing b with
  | nil => cases hp
  | cons a l ih =>
    rw [List.foldl_cons]
    rw [List.nodup_cons] at hn
    by_cases ha : a = p
    · subst ha
      rw [fold_none f l (fun x hx => h x (List.mem_cons_of_mem _ hx) (by rintro rfl; exact hn.1 hx))]
    · rw [h a List.mem_cons_self ha]
      rcases List.mem_cons.1 hp with rfl | hp
      · exact absurd rfl ha
      · exact ih hn.2 hp (fun x hx => h x (List.mem_cons_of_mem _ hx)) b

theorem updatePins_eq {s : Sys n D W} (hs : SysOk g w s) (i : Fin n) (c : Nat) :
    updatePins s i c = pinned w s c := by
  unfold updatePins pinned
  cases hc : w c with
  | none =>
    rw [fold_none (fun p => (s p).newPins c) _ (fun p _ => hs.newPins p c (by rw [hc]; simp))]
    exact (hs.pins i c (by unfold exist; rw [hc]; rfl)).1
  | some p =>
    rw [fold_one (fun p => (s p).newPins c) _ (List.nodup_finRange n) p (List.mem_finRange p)
      (fun q _ hq => hs.newPins q c (by rw [hc]; intro h; injection h with h; exact hq h.symm)),
      hs.pinsAgree i p c]

/-- Cell `c` moves from process `p` to `q`. -/
def Goes (w : Owner n) (pins : Nat → Option (Fin n)) (z : Fin n → Moves n) (p q : Fin n) (c : Nat) : Prop :=
  p ≠ q ∧ w c = some p ∧ (pins c = some q ∨ pins c = none ∧ (c, q) ∈ (z p).send)

section
variable {z : Fin n → Moves n} (hz : MovesOk w z) {pins : Nat → Option (Fin n)}
include hz

theorem Goes.unique {p p' q q' : Fin n} {c : Nat} (h : Goes w pins z p q c) (h' : Goes w pins z p' q' c) :
    p = p' ∧ q = q' := by
  obtain ⟨h1, h2, h3⟩ := h
  obtain ⟨h1', h2', h3'⟩ := h'
  have hp : p = p' := by
    have := h2.symm.trans h2'
    injection this
  subst hp
  refine ⟨rfl, ?_⟩
  rcases h3 with h3 | ⟨h3, h4⟩ <;> rcases h3' with h3' | ⟨h3', h4'⟩
  · have := h3.symm.trans h3'
    injection this
  · rw [h3] at h3'; cases h3'
  · rw [h3] at h3'; cases h3'
  · have hn := hz.send p
    revert h4 h4' hn
    generalize (z p).send = l
    intro h4 h4' hn
    induction l with
    | nil => cases h4
    | cons a l ih =>
      rw [List.map_cons, List.nodup_cons] at hn
      rcases List.mem_cons.1 h4 with rfl | h5 <;> rcases List.mem_cons.1 h4' with h6 | h6
      · injection h6 with _ h; exact h.symm
      · exact absurd (List.mem_map.2 ⟨_, h6, rfl⟩) hn.1
      · subst h6
        exact absurd (List.mem_map.2 ⟨_, h5, rfl⟩) hn.1
      · exact ih h5 h6 hn.2

theorem mem_moveSend (hv : ∀ c, exist w c = true → g.Valid c) {p q : Fin n} {c : Nat} :
    c ∈ moveSend g p w pins (z p) q ↔ Goes w pins z p q c := by
  unfold moveSend Goes
  rw [mem_isort, List.mem_append, List.mem_filter, List.mem_filterMap]
  simp only [Bool.and_eq_true, beq_iff_eq, bne_iff_ne]
  constructor
  · rintro (⟨-, ⟨h1, h2⟩, h3⟩ | ⟨⟨c', q'⟩, h1, h2⟩)
    · exact ⟨fun h => h3 h.symm, h2, Or.inl h1⟩
    · split at h2
      · rename_i h3
        obtain ⟨h3, h4, h5⟩ := h3
        injection h2 with h2
        simp only at h2 h3 h4 h5
        subst h2; subst h3
        exact ⟨fun h => h4 h.symm, hz.own p q' c' (fun h => h4 h.symm) h1,
          Or.inr ⟨Option.isNone_iff_eq_none.1 h5, h1⟩⟩
      · cases h2
  · rintro ⟨h1, h2, h3 | ⟨h3, h4⟩⟩
    · refine Or.inl ⟨?_, ⟨h3, h2⟩, fun h => h1 h.symm⟩
      have := hv c (exist_of h2)
      rw [mem_ids]; exact this.2
    · exact Or.inr ⟨(c, q), h4, by
        rw [if_pos ⟨rfl, fun h => h1 h.symm, Option.isNone_iff_eq_none.2 h3⟩]⟩

theorem mem_moveRecv (hv : ∀ c, exist w c = true → g.Valid c) {p q : Fin n} {c : Nat} :
    c ∈ moveRecv g q w pins (z q) p ↔ Goes w pins z p q c := by
  unfold moveRecv Goes
  rw [mem_isort, List.mem_append, List.mem_filter, List.mem_filterMap]
  simp only [Bool.and_eq_true, beq_iff_eq, bne_iff_ne]
  constructor
  · rintro (⟨-, ⟨h1, h2⟩, h3⟩ | ⟨⟨c', q'⟩, h1, h2⟩)
    · exact ⟨h3, h2, Or.inl h1⟩
    · split at h2
      · rename_i h3
        obtain ⟨h3, h4, h5⟩ := h3
        injection h2 with h2
        simp only at h2 h3 h4 h5
        subst h2; subst h3
        have h6 := (hz.agree q' q c' h4).2 h1
        exact ⟨h4, hz.own q' q c' h4 h6, Or.inr ⟨Option.isNone_iff_eq_none.1 h5, h6⟩⟩
      · cases h2
  · rintro ⟨h1, h2, h3 | ⟨h3, h4⟩⟩
    · refine Or.inl ⟨?_, ⟨h3, h2⟩, h1⟩
      have := hv c (exist_of h2)
      rw [mem_ids]; exact this.2
    · exact Or.inr ⟨(c, p), (hz.agree p q c h1).1 h4, by
        rw [if_pos ⟨rfl, h1, Option.isNone_iff_eq_none.2 h3⟩]⟩

omit hz in
theorem filterMap_nodup {l : List (Nat × Fin n)} (h : (l.map Prod.fst).Nodup) (P : Nat × Fin n → Prop)
    [DecidablePred P] : (l.filterMap fun m => if P m then some m.1 else none).Nodup ∧
      ∀ c ∈ (l.filterMap fun m => if P m then some m.1 else none), c ∈ l.map Prod.fst := by
  induction l with
  | nil => simp
  | cons a l ih =>
    rw [List.map_cons, List.nodup_cons] at h
    obtain ⟨i1, i2⟩ := ih h.2
    rw [List.filterMap_cons]
    by_cases hP : P a
    · simp only [hP, if_true]
      refine ⟨List.nodup_cons.2 ⟨fun hm => h.1 (i2 _ hm), i1⟩, ?_⟩
      intro c hc
      rcases List.mem_cons.1 hc with rfl | hc
      · exact List.mem_map.2 ⟨a, List.mem_cons_self, rfl⟩
      · exact List.mem_cons_of_mem _ (i2 c hc)
    · simp only [hP, if_false]
      exact ⟨i1, fun c hc => List.mem_cons_of_mem _ (i2 c hc)⟩

theorem moveSend_nodup {p q : Fin n} : (moveSend g p w pins (z p) q).Nodup := by
  unfold moveSend
  rw [(isort_perm _).nodup_iff, List.nodup_append]
  refine ⟨List.Pairwise.filter _ List.nodup_range, (filterMap_nodup (hz.send p) _).1, ?_⟩
  intro a ha b hb e
  subst e
  rw [List.mem_filter] at ha
  simp only [Bool.and_eq_true, beq_iff_eq] at ha
  rw [List.mem_filterMap] at hb
  obtain ⟨m, -, h2⟩ := hb
  split at h2
  · rename_i h3
    injection h2 with h2
    rw [h2, ha.2.1.1] at h3
    simp at h3
  · cases h2

theorem moveRecv_nodup {p q : Fin n} : (moveRecv g p w pins (z p) q).Nodup := by
  unfold moveRecv
  rw [(isort_perm _).nodup_iff, List.nodup_append]
  refine ⟨List.Pairwise.filter _ List.nodup_range, (filterMap_nodup (hz.recv p) _).1, ?_⟩
  intro a ha b hb e
  subst e
  rw [List.mem_filter] at ha
  simp only [Bool.and_eq_true, beq_iff_eq] at ha
  rw [List.mem_filterMap] at hb
  obtain ⟨m, -, h2⟩ := hb
  split at h2
  · rename_i h3
    injection h2 with h2
    rw [h2, ha.2.1.1] at h3
    simp at h3
  · cases h2

end

/-- Where a cell is after load balancing: on the process it is pinned to, otherwise on the process to
which the partitioner sends it, otherwise where it was. -/
def newHome (w : Owner n) (pins : Nat → Option (Fin n)) (z : Fin n → Moves n) : Owner n := fun c =>
  match w c with
  | none => none
  | some p =>
    match pins c with
    | some q => some q
    | none =>
      match (z p).send.find? (fun m => m.1 == c) with
      | some m => some m.2
      | none => some p

theorem exist_newHome {pins : Nat → Option (Fin n)} {z : Fin n → Moves n} {c : Nat} :
    exist (newHome w pins z) c = exist w c := by
  unfold exist newHome
  cases hc : w c with
  | none => rfl
  | some p =>
    simp only
    cases pins c with
    | some q => rfl
    | none =>
      simp only
      split <;> rfl

theorem find_of_mem {l : List (Nat × Fin n)} (hn : (l.map Prod.fst).Nodup) {c : Nat} {q : Fin n}
    (h : (c, q) ∈ l) : l.find? (fun m => m.1 == c) = some (c, q) := by
  induction l with
  | nil => cases h
  | cons a l ih =>
    rw [List.map_cons, List.nodup_cons] at hn
    rw [List.find?_cons]
    rcases List.mem_cons.1 h with rfl | h
    · simp
    · have : (a.1 == c) = false := by
        rw [beq_eq_false_iff_ne]
        rintro rfl
        exact hn.1 (List.mem_map.2 ⟨_, h, rfl⟩)
      rw [this]
      exact ih hn.2 h

theorem newHome_goes {pins : Nat → Option (Fin n)} {z : Fin n → Moves n} (hz : MovesOk w z)
    {p q : Fin n} {c : Nat} (h : Goes w pins z p q c) : newHome w pins z c = some q := by
  obtain ⟨h1, h2, h3⟩ := h
  unfold newHome
  rw [h2]
  rcases h3 with h3 | ⟨h3, h4⟩
  · rw [h3]
  · rw [h3]
    simp only
    rw [find_of_mem (hz.send p) h4]

theorem newHome_stays {pins : Nat → Option (Fin n)} {z : Fin n → Moves n} {c : Nat}
    (h : ∀ p q, ¬ Goes w pins z p q c) : newHome w pins z c = w c := by
  unfold newHome
  cases hc : w c with
  | none => rfl
  | some p =>
    simp only
    cases hp : pins c with
    | some q =>
      simp only
      by_cases hq : p = q
      · rw [hq]
      · exact absurd ⟨hq, hc, Or.inl hp⟩ (h p q)
    | none =>
      simp only
      split
      · rename_i m hm
        have h1 := List.mem_of_find?_eq_some hm
        have h2 := List.find?_some hm
        simp only [beq_iff_eq] at h2
        by_cases hq : p = m.2
        · rw [← hq]
        · exact absurd ⟨hq, hc, Or.inr ⟨hp, by rw [← h2]; exact h1⟩⟩ (h p m.2)
      · rfl

/-- State of process `i` after load balancing. -/
structure Rehomed (g : Cfg) (w w' : Owner n) (dflt : D) (s : Sys n D W) (i : Fin n)
    (p' : Proc n D W) : Prop where
  owner : p'.owner = w'
  placed : ∀ c, (p'.data c).isSome = true ↔ w' c = some i
  data : ∀ c p, w c = some p → w' c = some i → p'.data c = (s p).data c
  remote : ∀ c, p'.remote c = if c ∈ remoteBoundary g i w' (fun c => (p'.data c).isSome)
    then some dflt else none
  req : p'.req = ⟨[], [], [], []⟩
  refinedData : ∀ c, p'.refinedData c = none
  unrefinedData : ∀ c, p'.unrefinedData c = none
  pins : ∀ c, p'.pins c = pinned w s c
  newPins : ∀ c, p'.newPins c = none
  weights : ∀ c, p'.weights c = none
  hoods : p'.hoods = (s i).hoods

theorem Tiled.congr {E E' : Nat → Bool} (h : Tiled g E) (e : ∀ c, E' c = E c) : Tiled g E' := by
  rw [show E' = E from funext e]; exact h

theorem movedOwner_eq {z : Fin n → Moves n} (hz : MovesOk w z) {pins : Nat → Option (Fin n)}
    {b : Fin n → Balancing n D W} (hb : ∀ p q c, c ∈ (b q).recv p ↔ Goes w pins z p q c) :
    movedOwner b w = newHome w pins z := by
  funext c
  unfold movedOwner
  have e : (fun (acc : Option (Fin n)) p => if ∃ q, c ∈ (b p).recv q then some p else acc) =
      fun acc p => ((if ∃ q, c ∈ (b p).recv q then some (some p) else none) : Option (Option (Fin n))).getD acc := by
    funext acc p
    split <;> rfl
  rw [e]
  by_cases h : ∃ p q, Goes w pins z p q c
  · obtain ⟨p, q, h⟩ := h
    rw [newHome_goes hz h, fold_one (fun p => if ∃ q, c ∈ (b p).recv q then some (some p) else none) _
      (List.nodup_finRange n) q (List.mem_finRange q), if_pos ⟨p, (hb p q c).2 h⟩]
    · rfl
    · intro a _ ha
      rw [if_neg]
      rintro ⟨r, hr⟩
      exact ha (Goes.unique hz ((hb r a c).1 hr) h).2
  · rw [newHome_stays (fun p q h' => h ⟨p, q, h'⟩),
      fold_none (fun p => if ∃ q, c ∈ (b p).recv q then some (some p) else none)]
    intro a _
    rw [if_neg]
    rintro ⟨r, hr⟩
    exact h ⟨r, a, (hb r a c).1 hr⟩

theorem balanceLoad_spec (hw : g.WF) (dflt : D) {maxTag : Nat} {z : Fin n → Moves n} (hz : MovesOk w z)
    {s : Sys n D W} (hs : SysOk g w s) (hm : FitsTags maxTag w)
    (hm' : FitsTags maxTag (newHome w (pinned w s) z)) :
    ∃ res, balanceLoad g dflt maxTag z s = .ok res ∧
      ∀ i, Rehomed g w (newHome w (pinned w s) z) dflt s i (res i) := by
  have ht := hs.tiled
  have hpins : ∀ i, updatePins s i = pinned w s := fun i => funext (updatePins_eq hs i)
  have hmemR : ∀ p q c, c ∈ moveRecv g q w (pinned w s) (z q) p ↔ Goes w (pinned w s) z p q c :=
    fun p q c => mem_moveRecv hz ht.valid
  have hmemS : ∀ p q c, c ∈ moveSend g p w (pinned w s) (z p) q ↔ Goes w (pinned w s) z p q c :=
    fun p q c => mem_moveSend hz ht.valid
  let b : Fin n → Balancing n D W := fun i =>
    { proc := { s i with
        owner := w
        data := fun c => if ∃ q, c ∈ moveRecv g i w (pinned w s) (z i) q then
          some (((s i).data c).getD dflt) else (s i).data c
        remote := fun _ => none
        req := ⟨[], [], [], []⟩
        refinedData := fun _ => none
        unrefinedData := fun _ => none
        pins := pinned w s
        newPins := fun _ => none
        weights := fun _ => none }
      recv := moveRecv g i w (pinned w s) (z i)
      send := moveSend g i w (pinned w s) (z i) }
  have hinit : ∀ i, initBalance g dflt s z i = .ok (b i) := by
    intro i
    unfold initBalance
    simp only [hpins, hs.owner]
    rw [if_neg]
    case hnc =>
    rintro ⟨c, -, h1, h2⟩
    unfold pinned at h1
    rw [h2] at h1; cases h1
  have hmatch : ListsMatch (fun p => (b p).send) (fun q => (b q).recv) := by
    constructor
    · intro p q
      show moveSend g p w _ (z p) q = moveRecv g q w _ (z q) p
      have e : ∀ c, c ∈ moveSend g p w (pinned w s) (z p) q ↔ c ∈ moveRecv g q w (pinned w s) (z q) p :=
        fun c => (hmemS p q c).trans (hmemR p q c).symm
      have h1 := moveSend_nodup (g := g) hz (pins := pinned w s) (p := p) (q := q)
      have h2 := moveRecv_nodup (g := g) hz (pins := pinned w s) (p := q) (q := p)
      revert e h1 h2
      unfold moveSend moveRecv
      generalize (_ ++ _ : List Nat) = l1
      generalize (_ ++ _ : List Nat) = l2
      intro e h1 h2
      apply isort_eq ((isort_perm _).nodup_iff.1 h1) ((isort_perm _).nodup_iff.1 h2)
      intro c
      rw [← mem_isort, e c, mem_isort]
    · intro q p p' c h1 h2
      exact (Goes.unique hz ((hmemR p q c).1 h1) ((hmemR p' q c).1 h2)).1
  have hdata : ∀ p q c, Goes w (pinned w s) z p q c → (b p).proc.data c = (s p).data c := by
    intro p q c h
    show (if _ then _ else _) = _
    rw [if_neg]
    rintro ⟨r, hr⟩
    obtain ⟨e1, e2⟩ := Goes.unique hz h ((hmemR r p c).1 hr)
    exact h.1 e2.symm
  obtain ⟨d, d1, d2, d3⟩ := transfer_spec (maxTag := maxTag) hmatch (data := fun p => (b p).proc.data)
    (dest := fun p => (b p).proc.data)
    (fun p q => hm p _ (moveSend_nodup hz) fun c hc => ((hmemS p q c).1 hc).2.1)
    (by
      intro p q c hc
      have h := (hmemS p q c).1 hc
      show ((b p).proc.data c).isSome = true
      rw [hdata p q c h]
      exact (hs.placed p c).2 h.2.1)
  have hd : ∀ i c, (if ∃ q, c ∈ (b i).send q then none else d i c) =
      if newHome w (pinned w s) z c = some i then
        (match w c with | some p => (s p).data c | none => none) else none := by
    intro i c
    by_cases h : ∃ p q, Goes w (pinned w s) z p q c
    · obtain ⟨p, q, h⟩ := h
      rw [newHome_goes hz h]
      by_cases hip : i = p
      · subst hip
        rw [if_pos ⟨q, (hmemS i q c).2 h⟩, if_neg]
        intro e; injection e with e; exact h.1 e.symm
      · rw [if_neg]
        · by_cases hiq : q = i
          · subst hiq
            rw [if_pos rfl, d2 q p c ((hmemR p q c).2 h), h.2.1]
            exact hdata p q c h
          · rw [if_neg (by intro e; injection e with e; exact hiq e), d3]
            · show (if _ then _ else _) = _
              rw [if_neg]
              · cases hx : (s i).data c with
                | none => rfl
                | some v =>
                  have := (hs.placed i c).1 (by rw [hx]; rfl)
                  rw [h.2.1] at this
                  injection this with this
                  exact absurd this.symm hip
              · rintro ⟨r, hr⟩
                exact hiq (Goes.unique hz h ((hmemR r i c).1 hr)).2
            · intro r hr
              exact hiq (Goes.unique hz h ((hmemR r i c).1 hr)).2
        · rintro ⟨r, hr⟩
          exact hip (Goes.unique hz h ((hmemS i r c).1 hr)).1.symm
    · have h' : ∀ p q, ¬ Goes w (pinned w s) z p q c := fun p q hg => h ⟨p, q, hg⟩
      rw [newHome_stays h', if_neg (by rintro ⟨r, hr⟩; exact h' _ _ ((hmemS i r c).1 hr)), d3]
      · show (if _ then _ else _) = _
        rw [if_neg (by rintro ⟨r, hr⟩; exact h' _ _ ((hmemR r i c).1 hr))]
        by_cases hi : w c = some i
        · rw [if_pos hi, hi]
        · rw [if_neg hi]
          cases hx : (s i).data c with
          | none => rfl
          | some v => exact absurd ((hs.placed i c).1 (by rw [hx]; rfl)) hi
      · intro r hr
        exact h' _ _ ((hmemR r i c).1 hr)
  let b' : Fin n → Balancing n D W := fun i => { b i with proc := { (b i).proc with data := d i } }
  have hcont : continueBalance maxTag b = .ok b' := by
    unfold continueBalance
    rw [d1, Out.bind_ok]
  have hown : ∀ i, movedOwner b' (b' i).proc.owner = newHome w (pinned w s) z := by
    intro i
    have : (b' i).proc.owner = w := rfl
    rw [this]
    exact movedOwner_eq hz (fun p q c => hmemR p q c)
  let f : Fin n → Proc n D W := fun i => { (b' i).proc with
    owner := movedOwner b' (b' i).proc.owner
    data := fun c => if ∃ q, c ∈ (b' i).send q then none else (b' i).proc.data c }
  have hfd : ∀ i c, (f i).data c = if newHome w (pinned w s) z c = some i then
      (match w c with | some p => (s p).data c | none => none) else none := fun i c => hd i c
  have hplaced : ∀ i c, ((f i).data c).isSome = true ↔ newHome w (pinned w s) z c = some i := by
    intro i c
    rw [hfd]
    by_cases h : newHome w (pinned w s) z c = some i
    · rw [if_pos h]
      have he := exist_of h
      rw [exist_newHome] at he
      obtain ⟨p, hp⟩ := exist_iff.1 he
      rw [hp]
      simp only [h, iff_true]
      exact (hs.placed p c).2 hp
    · rw [if_neg h]; simp [h]
  have hre : ∀ i, rebuild g dflt maxTag i (f i) = _ := fun i =>
    rebuild_ok hw dflt (p := f i)
      (by rw [show (f i).owner = _ from hown i]; exact ht.congr (fun c => exist_newHome))
      (by
        rw [show (f i).owner = _ from hown i]
        intro a c ha hc
        rw [exist_newHome] at ha hc
        exact hs.balanced a c ha hc)
      (hs.hoods i)
      (by intro c; rw [show (f i).owner = _ from hown i]; exact hplaced i c)
      (by rw [show (f i).owner = _ from hown i]; exact hm')
  refine ⟨fun i => { f i with
      remote := fun c =>
        if c ∈ remoteBoundary g i (f i).owner (fun c => ((f i).data c).isSome)
        then some (((f i).remote c).getD dflt) else (f i).remote c }, ?_, ?_⟩
  · unfold balanceLoad
    rw [Out.collect_ok hinit, Out.bind_ok, hcont, Out.bind_ok]
    unfold finishBalance
    apply Out.collect_ok
    intro i
    rw [if_neg]
    · exact hre i
    · rintro ⟨p, q, c, h1, h2⟩
      have h3 := ((hmemR q p c).1 h1).2.1
      have h4 : w c = none := h2
      rw [h4] at h3; cases h3
  · intro i
    constructor
    · exact hown i
    · exact hplaced i
    · intro c p hp hi
      show (f i).data c = _
      rw [hfd, if_pos hi, hp]
    · intro c
      show (if c ∈ remoteBoundary g i (f i).owner _ then _ else _) = _
      rw [show (f i).owner = _ from hown i]
      rfl
    · rfl
    · intro c; rfl
    · intro c; rfl
    · intro c; rfl
    · intro c; rfl
    · intro c; rfl
    · rfl

theorem Rehomed.sysOk {dflt : D} {s : Sys n D W} (hs : SysOk g w s) {z : Fin n → Moves n}
    {res : Sys n D W} (h : ∀ i, Rehomed g w (newHome w (pinned w s) z) dflt s i (res i)) :
    SysOk g (newHome w (pinned w s) z) res := by
  constructor
  · exact fun i => (h i).owner
  · exact hs.tiled.congr (fun c => exist_newHome)
  · intro a c ha hc
    rw [exist_newHome] at ha hc
    exact hs.balanced a c ha hc
  · exact fun i c => (h i).placed c
  · intro i c hc
    rw [exist_newHome] at hc
    refine ⟨?_, (h i).newPins c⟩
    rw [(h i).pins]
    unfold pinned
    cases hx : w c with
    | none => rfl
    | some p => rw [exist_of hx] at hc; cases hc
  · intro i j c; rw [(h i).pins, (h j).pins]
  · exact fun i c _ => (h i).newPins c
  · exact fun i c _ => (h i).weights c
  · intro i x hx
    rw [(h i).hoods] at hx
    exact hs.hoods i x hx

theorem balanceLoad_mono {maxTag M : Nat} (hM : maxTag ≤ M) {dflt : D} {z : Fin n → Moves n}
    {s res : Sys n D W} (h : balanceLoad g dflt maxTag z s = .ok res) :
    balanceLoad g dflt M z s = .ok res := by
  unfold balanceLoad at h ⊢
  obtain ⟨b, h1, h⟩ := Out.bind_inv h
  obtain ⟨b', h2, h⟩ := Out.bind_inv h
  unfold continueBalance at h2
  obtain ⟨d, h3, h4⟩ := Out.bind_inv h2
  rw [h1, Out.bind_ok]
  unfold continueBalance
  rw [transfer_mono hM h3, Out.bind_ok, h4, Out.bind_ok]
  unfold finishBalance at h ⊢
  apply Out.collect_ok
  intro i
  have h5 := Out.collect_inv h i
  split at h5
  · cases h5
  · rename_i h6
    rw [if_neg h6]
    exact rebuild_mono hM h5

/-- Whenever `balance_load` returns. -/
theorem balanceLoad_sound (hw : g.WF) {dflt : D} {maxTag : Nat} {z : Fin n → Moves n} (hz : MovesOk w z)
    {s res : Sys n D W} (hs : SysOk g w s) (h : balanceLoad g dflt maxTag z s = .ok res) (i : Fin n) :
    Rehomed g w (newHome w (pinned w s) z) dflt s i (res i) := by
  have hM : maxTag ≤ max maxTag g.last := Nat.le_max_left _ _
  have hM' : g.last ≤ max maxTag g.last := Nat.le_max_right _ _
  obtain ⟨res', h1, h2⟩ := balanceLoad_spec hw dflt hz hs
    (fitsTags_mono hM' (fitsTags_last hs.tiled.valid))
    (fitsTags_mono hM' (fitsTags_last (fun c hc => hs.tiled.valid c (by rw [exist_newHome] at hc; exact hc))))
  rw [balanceLoad_mono hM h] at h1
  injection h1 with h1
  subst h1
  exact h2 i

end Dccrg
