import Verif.Hist
/-!
# Load balancing in phases

Model of `initialize_balance_load`, `continue_balance_load` and `finish_balance_load` (dccrg.hpp:3820-4238) when users
call them separately, as many times as is needed to transfer data of cells in pieces, and change data of cells in
between.
-/
namespace Dccrg
open Cfg
variable {n : Nat} {D W : Type} {g : Cfg} {w : Owner n}

/-- What happens between `initialize_balance_load` and `finish_balance_load`: a call to `continue_balance_load`, or
data of a cell are changed on one process. `m p q c x y` are data of cell `c` on process `q` after they have been
received from process `p`, where they are `x`, when they were `y`: datatypes given by users say which parts of data are
transferred and can depend on all of these (dccrg.hpp:10787-11191). -/
inductive Phase (n : Nat) (D : Type) where
  | move (m : Fin n → Fin n → Nat → D → D → D)
  | write (i : Fin n) (c : Nat) (v : D)

/-- Store received data. -/
def mergeOpt (f : D → D → D) : Option D → Option D → Option D
  | some x, some y => some (f x y)
  | _, y => y

/-- Data of cell `c` on process `i` after a transfer in which `x` was received if the cell is added to the process. -/
def arrives (m : Fin n → Fin n → Nat → D → D → D) (b : Balancing n D W) (i : Fin n) (c : Nat) (x : Option D) :
    Option D :=
  match (List.finRange n).find? fun p => decide (c ∈ b.recv p) with
  | some p => mergeOpt (m p i c) x (b.proc.data c)
  | none => b.proc.data c

/-- One phase. `continue_balance_load` (dccrg.hpp:3982-4020) transfers between the same lists of cells every time. A
cell is received from one process at most, hence it doesn't matter in which order cells are received and
data can be merged after the transfer. -/
def runPhase (maxTag : Nat) (b : Fin n → Balancing n D W) : Phase n D → Out (Fin n → Balancing n D W)
  | .move m =>
    (transfer maxTag (fun p => (b p).send) (fun q => (b q).recv) (fun p => (b p).proc.data)
      (fun p => (b p).proc.data)).bind fun d =>
    .ok fun i => { b i with proc := { (b i).proc with data := fun c => arrives m (b i) i c (d i c) } }
  | .write i c v => .ok fun j => if j = i then { b i with proc := Dccrg.write (b i).proc c v } else b j

/-- Any number of phases. -/
def runPhases (maxTag : Nat) : List (Phase n D) → (Fin n → Balancing n D W) → Out (Fin n → Balancing n D W)
  | [], b => .ok b
  | p :: ps, b => (runPhase maxTag b p).bind fun b => runPhases maxTag ps b

/-- Check of tags at the end of `make_new_partition` (dccrg.hpp:8665-8676, 8744-8755), which is a part of
`initialize_balance_load`. -/
def tagsOver (maxTag : Nat) (b : Fin n → Balancing n D W) : Prop :=
  ∃ p q, maxTag < ((b p).send q).length ∨ maxTag < ((b p).recv q).length

instance (maxTag : Nat) (b : Fin n → Balancing n D W) : Decidable (tagsOver maxTag b) := by
  unfold tagsOver; infer_instance

/-- `initialize_balance_load` of all processes. -/
def startBalance (g : Cfg) (dflt : D) (maxTag : Nat) (z : Fin n → Moves n) (s : Sys n D W) :
    Out (Fin n → Balancing n D W) :=
  (Out.collect fun i => initBalance g dflt s z i).bind fun b => if tagsOver maxTag b then .throws else .ok b

/-- Load balancing in phases. -/
def balancePhases (g : Cfg) (dflt : D) (maxTag : Nat) (z : Fin n → Moves n) (ps : List (Phase n D)) (s : Sys n D W) :
    Out (Sys n D W) :=
  (startBalance g dflt maxTag z s).bind fun b =>
  (runPhases maxTag ps b).bind fun b => finishBalance g dflt maxTag b

/-- `get_cells_added_by_balance_load` (dccrg.hpp:6441-6453), filled in dccrg.hpp:8607-8662: whether it has a cell. -/
def addedCells (b : Balancing n D W) (c : Nat) : Prop := ∃ q, c ∈ b.recv q

/-- `get_cells_removed_by_balance_load` (dccrg.hpp:6458-6470), filled in dccrg.hpp:8608-8741. -/
def removedCells (b : Balancing n D W) (c : Nat) : Prop := ∃ q, c ∈ b.send q

/-- `update_copies_of_remote_neighbors` (dccrg.hpp:978-1014, 5101-5468) with datatypes that transfer a part of data:
`m p q c x y` is the copy of cell `c` on process `q` after receiving from `p`, where data are `x`, when the copy was `y`.
A copy is received from one process at most, hence data can be merged after the transfer. -/
def updateParts (g : Cfg) (maxTag : Nat) (id : Int) (m : Fin n → Fin n → Nat → D → D → D) (s : Sys n D W) :
    Out (Fin n → Bool × Proc n D W) :=
  (updateRemote g maxTag id s).bind fun r =>
  .ok fun i => ((r i).1, { s i with remote := fun c =>
    (((List.finRange n).find? fun p => decide (c ∈ recvList g ((hoodFor g (s i) id).getD []) i (s i).owner
      (fun c => ((s i).data c).isSome) p)).map fun p =>
        mergeOpt (m p i c) ((r i).2.remote c) ((s i).remote c)).getD ((s i).remote c) })

/-! ## After initialize_balance_load -/

/-- What processes know between start and end of load balancing, `w` are owners and `w'` next owners of cells. -/
structure Started (g : Cfg) (w : Owner n) (dflt : D) (s : Sys n D W) (z : Fin n → Moves n)
    (b : Fin n → Balancing n D W) : Prop where
  recv : ∀ p q c, c ∈ (b q).recv p ↔ Goes w (pinned w s) z p q c
  send : ∀ p q c, c ∈ (b p).send q ↔ Goes w (pinned w s) z p q c
  lists : ListsMatch (fun p => (b p).send) (fun q => (b q).recv)
  nodup : ∀ p q, ((b p).send q).Nodup
  keeps : ∀ p c, w c = some p → (b p).proc.data c = (s p).data c
  gets : ∀ p q c, Goes w (pinned w s) z p q c → (b q).proc.data c = some dflt
  other : ∀ q c, w c ≠ some q → (∀ p, ¬ Goes w (pinned w s) z p q c) → (b q).proc.data c = none
  remote : ∀ i, (b i).proc.remote = fun _ => none
  refined : ∀ i, (b i).proc.refinedData = fun _ => none
  unrefined : ∀ i, (b i).proc.unrefinedData = fun _ => none

theorem initBalance_spec (dflt : D) {z : Fin n → Moves n} (hz : MovesOk w z) {s : Sys n D W} (hs : SysOk g w s) :
    ∃ b, (∀ i, initBalance g dflt s z i = .ok (b i)) ∧ Started g w dflt s z b := by
  have ht := hs.tiled
  have hpins : ∀ i, updatePins s i = pinned w s := fun i => funext (updatePins_eq hs i)
  have hmemR : ∀ p q c, c ∈ moveRecv g q w (pinned w s) (z q) p ↔ Goes w (pinned w s) z p q c :=
    fun p q c => mem_moveRecv hz ht.valid
  have hmemS : ∀ p q c, c ∈ moveSend g p w (pinned w s) (z p) q ↔ Goes w (pinned w s) z p q c :=
    fun p q c => mem_moveSend hz ht.valid
  have hnone : ∀ i c, w c ≠ some i → (s i).data c = none := by
    intro i c h
    apply Option.not_isSome_iff_eq_none.1
    rw [hs.placed i c]; exact h
  let b : Fin n → Balancing n D W := fun i =>
    { proc := { s i with
        owner := w
        data := fun c => if ∃ q, c ∈ moveRecv g i w (pinned w s) (z i) q then
          some (((s i).data c).getD dflt) else (s i).data c
        remote := fun _ => none
        req := ⟨[], [], [], []⟩
        refinedData := fun _ => none
        unrefinedData := fun _ => none
        pins := pinned w s
        newPins := fun _ => none
        weights := fun _ => none }
      recv := moveRecv g i w (pinned w s) (z i)
      send := moveSend g i w (pinned w s) (z i) }
  have hinit : ∀ i, initBalance g dflt s z i = .ok (b i) := by
    intro i
    unfold initBalance
    simp only [hpins, hs.owner]
    rw [if_neg]
    case hnc =>
    rintro ⟨c, -, h1, h2⟩
    unfold pinned at h1
    rw [h2] at h1; cases h1
  refine ⟨b, hinit, hmemR, hmemS, ?_, fun p q => moveSend_nodup hz, ?_, ?_, ?_, fun _ => rfl, fun _ => rfl, fun _ => rfl⟩
  · constructor
    · intro p q
      show moveSend g p w _ (z p) q = moveRecv g q w _ (z q) p
      have e : ∀ c, c ∈ moveSend g p w (pinned w s) (z p) q ↔ c ∈ moveRecv g q w (pinned w s) (z q) p :=
        fun c => (hmemS p q c).trans (hmemR p q c).symm
      have h1 := moveSend_nodup (g := g) hz (pins := pinned w s) (p := p) (q := q)
      have h2 := moveRecv_nodup (g := g) hz (pins := pinned w s) (p := q) (q := p)
      revert e h1 h2
      unfold moveSend moveRecv
      generalize (_ ++ _ : List Nat) = l1
      generalize (_ ++ _ : List Nat) = l2
      intro e h1 h2
      apply isort_eq ((isort_perm _).nodup_iff.1 h1) ((isort_perm _).nodup_iff.1 h2)
      intro c
      rw [← mem_isort, e c, mem_isort]
    · intro q p p' c h1 h2
      exact (Goes.unique hz ((hmemR p q c).1 h1) ((hmemR p' q c).1 h2)).1
  · intro p c hp
    show (if ∃ q, c ∈ moveRecv g p w (pinned w s) (z p) q then _ else _) = _
    rw [if_neg]
    rintro ⟨r, hr⟩
    have := (hmemR r p c).1 hr
    have e := this.2.1.symm.trans hp
    injection e with e
    exact this.1 e
  · intro p q c h
    show (if ∃ r, c ∈ moveRecv g q w (pinned w s) (z q) r then some (((s q).data c).getD dflt) else _) = _
    rw [if_pos ⟨p, (hmemR p q c).2 h⟩, hnone q c]
    · rfl
    · rw [h.2.1]; intro e; injection e with e; exact h.1 e
  · intro q c h1 h2
    show (if ∃ r, c ∈ moveRecv g q w (pinned w s) (z q) r then _ else _) = _
    rw [if_neg, hnone q c h1]
    rintro ⟨r, hr⟩
    exact h2 r ((hmemR r q c).1 hr)

/-! ## Only data change between start and end -/

/-- Same except for values of data. -/
structure SameShape (b b' : Fin n → Balancing n D W) : Prop where
  eq : ∀ i, b' i = { b i with proc := { (b i).proc with data := (b' i).proc.data } }
  some : ∀ i c, ((b' i).proc.data c).isSome = ((b i).proc.data c).isSome

theorem SameShape.refl (b : Fin n → Balancing n D W) : SameShape b b := ⟨fun _ => rfl, fun _ _ => rfl⟩

theorem SameShape.trans {b b' b'' : Fin n → Balancing n D W} (h : SameShape b b') (h' : SameShape b' b'') :
    SameShape b b'' := by
  refine ⟨fun i => ?_, fun i c => (h'.some i c).trans (h.some i c)⟩
  rw [h'.eq i, h.eq i]

theorem SameShape.recv {b b' : Fin n → Balancing n D W} (h : SameShape b b') (i : Fin n) : (b' i).recv = (b i).recv := by
  rw [h.eq i]

theorem SameShape.send {b b' : Fin n → Balancing n D W} (h : SameShape b b') (i : Fin n) : (b' i).send = (b i).send := by
  rw [h.eq i]

theorem mergeOpt_isSome (f : D → D → D) (x y : Option D) : (mergeOpt f x y).isSome = y.isSome := by
  cases x <;> cases y <;> rfl

theorem mergeOpt_some (f : D → D → D) (x y : D) : mergeOpt f (some x) (some y) = some (f x y) := rfl

theorem runPhase_shape {maxTag : Nat} {b b' : Fin n → Balancing n D W} {p : Phase n D}
    (hr : ∀ i, (b i).proc.remote = fun _ => none) (h1 : ∀ i, (b i).proc.refinedData = fun _ => none)
    (h2 : ∀ i, (b i).proc.unrefinedData = fun _ => none)
    (h : runPhase maxTag b p = .ok b') : SameShape b b' := by
  cases p with
  | move m =>
    obtain ⟨d, -, h⟩ := Out.bind_inv h
    injection h with h
    subst h
    refine ⟨fun i => rfl, fun i c => ?_⟩
    show (arrives m (b i) i c (d i c)).isSome = _
    unfold arrives
    split
    · exact mergeOpt_isSome ..
    · rfl
  | write i c v =>
    injection h with h
    subst h
    have hwr : Dccrg.write (b i).proc c v = if ((b i).proc.data c).isSome then
        { (b i).proc with data := fun x => if x = c then some v else (b i).proc.data x } else (b i).proc := by
      have e0 : ((b i).proc.remote c).isSome = false := by rw [hr]; rfl
      have e1 : ((b i).proc.refinedData c).isSome = false := by rw [h1]; rfl
      have e2 : ((b i).proc.unrefinedData c).isSome = false := by rw [h2]; rfl
      unfold Dccrg.write
      rw [e0, e1, e2]
      rfl
    refine ⟨fun j => ?_, fun j x => ?_⟩
    · by_cases hj : j = i
      · subst hj
        rw [if_pos rfl, hwr]
        split <;> rfl
      · simp only [if_neg hj]
    · by_cases hj : j = i
      · subst hj
        simp only [if_pos]
        rw [hwr]
        split
        · next hc =>
          show (if x = c then some v else (b j).proc.data x).isSome = _
          split
          · next e => rw [e, hc]; rfl
          · rfl
        · rfl
      · simp only [if_neg hj]

theorem SameShape.rest {b b' : Fin n → Balancing n D W} (h : SameShape b b') {i : Fin n} :
    (b' i).proc.remote = (b i).proc.remote ∧ (b' i).proc.refinedData = (b i).proc.refinedData ∧
    (b' i).proc.unrefinedData = (b i).proc.unrefinedData := by
  rw [h.eq i]; exact ⟨rfl, rfl, rfl⟩

theorem runPhases_shape {maxTag : Nat} {ps : List (Phase n D)} {b b' : Fin n → Balancing n D W}
    (hr : ∀ i, (b i).proc.remote = fun _ => none) (h1 : ∀ i, (b i).proc.refinedData = fun _ => none)
    (h2 : ∀ i, (b i).proc.unrefinedData = fun _ => none)
    (h : runPhases maxTag ps b = .ok b') : SameShape b b' := by
  induction ps generalizing b with
  | nil => injection h with h; subst h; exact .refl _
  | cons p ps ih =>
    obtain ⟨c, e1, e2⟩ := Out.bind_inv h
    have hs := runPhase_shape hr h1 h2 e1
    exact hs.trans (ih (fun i => hs.rest.1.trans (hr i)) (fun i => hs.rest.2.1.trans (h1 i))
      (fun i => hs.rest.2.2.trans (h2 i)) e2)

theorem rebuild_data {dflt : D} {maxTag : Nat} {i : Fin n} {p t : Proc n D W} {d : Nat → Option D}
    (h : rebuild g dflt maxTag i p = .ok t) (hd : ∀ c, (d c).isSome = (p.data c).isSome) :
    rebuild g dflt maxTag i { p with data := d } = .ok { t with data := d } := by
  have e : (fun c => (d c).isSome) = fun c => (p.data c).isSome := funext hd
  unfold rebuild at h ⊢
  have e1 : neighborsFound g { p with data := d } = neighborsFound g p := rfl
  have e2 : tagsFit g maxTag i { p with data := d } = tagsFit g maxTag i p := by
    unfold tagsFit
    simp only [e]
  rw [e1, e2]
  split at h
  · cases h
  · next h1 =>
    rw [if_neg h1]
    split at h
    · cases h
    · next h2 =>
      rw [if_neg h2]
      injection h with h
      subst h
      simp only [e]

theorem finishBalance_shape {dflt : D} {maxTag : Nat} {b b' : Fin n → Balancing n D W} {t : Sys n D W}
    (hb : SameShape b b') (h : finishBalance g dflt maxTag b = .ok t) :
    finishBalance g dflt maxTag b' = .ok fun i => { t i with
      data := fun c => if ∃ q, c ∈ (b i).send q then none else (b' i).proc.data c } := by
  unfold finishBalance at h ⊢
  apply Out.collect_ok
  intro i
  have hi := Out.collect_inv h i
  have eo : (b' i).proc.owner = (b i).proc.owner := by rw [hb.eq i]
  have er : ∀ i, (b' i).recv = (b i).recv := hb.recv
  have es := hb.send i
  have em : movedOwner b' = movedOwner b := by
    funext w c
    unfold movedOwner
    simp only [er]
  simp only [eo, er, es, em]
  split at hi
  · cases hi
  · next h1 =>
    rw [if_neg h1]
    have := rebuild_data (d := fun c => if ∃ q, c ∈ (b i).send q then none else (b' i).proc.data c) hi (by
      intro c
      show Option.isSome (if ∃ q, c ∈ (b i).send q then none else (b' i).proc.data c) =
        Option.isSome (if ∃ q, c ∈ (b i).send q then none else (b i).proc.data c)
      split
      · rfl
      · exact hb.some i c)
    rw [← this]
    congr 1
    rw [hb.eq i]

/-- Data don't affect anything else. -/
theorem SameShape.symm {b b' : Fin n → Balancing n D W} (h : SameShape b b') : SameShape b' b := by
  refine ⟨fun i => ?_, fun i c => (h.some i c).symm⟩
  rw [h.eq i]

/-! ## Changing data of cells -/

/-- Replace data of cells on a process. -/
def withData (p : Proc n D W) (d : Nat → Option D) : Proc n D W := { p with data := d }


theorem reachable_data {dflt : D} {maxTag : Nat} (hw : g.WF) {s t : Sys n D W} (h : Reachable g dflt maxTag s)
    (he : ∀ i, t i = { s i with data := (t i).data })
    (hd : ∀ i c, ((t i).data c).isSome = ((s i).data c).isSome) : Reachable g dflt maxTag t := by
  by_cases hn : 0 < n
  case neg =>
    have : t = s := funext fun i => absurd i.2 (by omega)
    rw [this]; exact h
  obtain ⟨w, hi⟩ := h.inv hw hn
  let mix (l : List (Fin n × Nat)) : Sys n D W := fun i =>
    withData (s i) fun c => if (i, c) ∈ l then (t i).data c else (s i).data c
  have key : ∀ l, Reachable g dflt maxTag (mix l) := by
    intro l
    induction l with
    | nil =>
      have : mix [] = s := by
        funext i
        show withData (s i) (fun c => if (i, c) ∈ [] then (t i).data c else (s i).data c) = s i
        simp
        rfl
      rw [this]; exact h
    | cons x l ih =>
      obtain ⟨i, c⟩ := x
      cases ht : (t i).data c with
      | none =>
        have hsn : (s i).data c = none := by
          have := hd i c
          rw [ht] at this
          exact Option.not_isSome_iff_eq_none.1 (by rw [← this]; simp)
        have : mix ((i, c) :: l) = mix l := by
          funext j
          show withData (s j) _ = withData (s j) _
          congr 1
          funext x
          by_cases hx : (j, x) ∈ l
          · rw [if_pos (List.mem_cons_of_mem _ hx), if_pos hx]
          · rw [if_neg hx]
            by_cases e : (j, x) = (i, c)
            · rw [if_pos (by rw [e]; exact List.mem_cons_self)]
              injection e with e1 e2
              subst e1; subst e2
              rw [ht, hsn]
            · rw [if_neg]
              rintro h
              exact (List.mem_cons.1 h).elim e hx
        rw [this]; exact ih
      | some v =>
        have hss : ((mix l i).data c).isSome = true := by
          show (if (i, c) ∈ l then (t i).data c else (s i).data c).isSome = true
          have := hd i c
          rw [ht] at this
          split
          · rw [ht]; rfl
          · rw [← this]; rfl
        have := Reachable.step (.write i c v) ih trivial rfl
        have e : mix ((i, c) :: l) = (mix l).set i (write (mix l i) c v) := by
          funext j
          unfold Sys.set
          by_cases hj : j = i
          · subst hj
            rw [if_pos rfl]
            unfold write
            rw [if_pos hss]
            show withData (s j) _ = withData (s j) _
            congr 1
            funext x
            show (if (j, x) ∈ (j, c) :: l then (t j).data x else (s j).data x) =
              if x = c then some v else if (j, x) ∈ l then (t j).data x else (s j).data x
            by_cases hx : x = c
            · subst hx
              rw [if_pos List.mem_cons_self, if_pos rfl, ht]
            · rw [if_neg hx]
              have : (j, x) ∈ (j, c) :: l ↔ (j, x) ∈ l := by
                simp [hx]
              simp only [this]
          · rw [if_neg hj]
            show withData (s j) _ = withData (s j) _
            congr 1
            funext x
            have : (j, x) ∈ (i, c) :: l ↔ (j, x) ∈ l := by
              simp [hj]
            simp only [this]
        rw [e]; exact this
  have hall := key ((List.finRange n).flatMap fun i => (ids g).map fun c => (i, c))
  have : mix ((List.finRange n).flatMap fun i => (ids g).map fun c => (i, c)) = t := by
    funext i
    rw [he i]
    show withData (s i) _ = withData (s i) _
    congr 1
    funext c
    split
    · rfl
    · next hc =>
      have hsn : (s i).data c = none := by
        apply Option.not_isSome_iff_eq_none.1
        intro hx
        apply hc
        rw [List.mem_flatMap]
        refine ⟨i, List.mem_finRange i, List.mem_map.2 ⟨c, ?_, rfl⟩⟩
        have hv := hi.sys.tiled.valid c (exist_of ((hi.sys.placed i c).1 hx))
        exact mem_ids.2 hv.2
      have := hd i c
      rw [hsn] at this
      rw [hsn]
      exact (Option.not_isSome_iff_eq_none.1 (by rw [this]; simp)).symm
  rw [this] at hall
  exact hall

/-- Replace copies of cells on a process. -/
def withRemote (p : Proc n D W) (r : Nat → Option D) : Proc n D W := { p with remote := r }

theorem reachable_remote {dflt : D} {maxTag : Nat} {s t : Sys n D W} (h : Reachable g dflt maxTag s)
    (he : ∀ i, t i = { s i with remote := (t i).remote })
    (hch : ∀ i c, (t i).remote c ≠ (s i).remote c → (s i).data c = none ∧ c ≤ g.last ∧
      ((s i).remote c).isSome = true ∧ ((t i).remote c).isSome = true) : Reachable g dflt maxTag t := by
  let mix (l : List (Fin n × Nat)) : Sys n D W := fun i =>
    withRemote (s i) fun c => if (i, c) ∈ l then (t i).remote c else (s i).remote c
  have key : ∀ l, Reachable g dflt maxTag (mix l) := by
    intro l
    induction l with
    | nil =>
      have : mix [] = s := by
        funext i
        show withRemote (s i) (fun c => if (i, c) ∈ [] then (t i).remote c else (s i).remote c) = s i
        simp
        rfl
      rw [this]; exact h
    | cons x l ih =>
      obtain ⟨i, c⟩ := x
      by_cases hne : (t i).remote c = (s i).remote c
      · have : mix ((i, c) :: l) = mix l := by
          funext j
          show withRemote (s j) _ = withRemote (s j) _
          congr 1
          funext x
          by_cases hx : (j, x) ∈ l
          · rw [if_pos (List.mem_cons_of_mem _ hx), if_pos hx]
          · rw [if_neg hx]
            by_cases e : (j, x) = (i, c)
            · rw [if_pos (by rw [e]; exact List.mem_cons_self)]
              injection e with e1 e2
              subst e1; subst e2
              exact hne
            · rw [if_neg]
              rintro h
              exact (List.mem_cons.1 h).elim e hx
        rw [this]; exact ih
      · obtain ⟨hd0, -, hs0, hv⟩ := hch i c hne
        obtain ⟨v, ht⟩ := Option.isSome_iff_exists.1 hv
        have hss : ((mix l i).remote c).isSome = true := by
          show (if (i, c) ∈ l then (t i).remote c else (s i).remote c).isSome = true
          split
          · exact hv
          · exact hs0
        have := Reachable.step (.write i c v) ih trivial rfl
        have e : mix ((i, c) :: l) = (mix l).set i (write (mix l i) c v) := by
          funext j
          unfold Sys.set
          by_cases hj : j = i
          · subst hj
            rw [if_pos rfl]
            unfold write
            rw [if_neg (show ¬ ((mix l j).data c).isSome = true by show ¬ ((s j).data c).isSome = true; rw [hd0]; simp),
              if_pos hss]
            show withRemote (s j) _ = withRemote (s j) _
            congr 1
            funext x
            show (if (j, x) ∈ (j, c) :: l then (t j).remote x else (s j).remote x) =
              if x = c then some v else if (j, x) ∈ l then (t j).remote x else (s j).remote x
            by_cases hx : x = c
            · subst hx
              rw [if_pos List.mem_cons_self, if_pos rfl, ht]
            · rw [if_neg hx]
              have : (j, x) ∈ (j, c) :: l ↔ (j, x) ∈ l := by
                simp [hx]
              simp only [this]
          · rw [if_neg hj]
            show withRemote (s j) _ = withRemote (s j) _
            congr 1
            funext x
            have : (j, x) ∈ (i, c) :: l ↔ (j, x) ∈ l := by
              simp [hj]
            simp only [this]
        rw [e]; exact this
  have hall := key ((List.finRange n).flatMap fun i => (ids g).map fun c => (i, c))
  have : mix ((List.finRange n).flatMap fun i => (ids g).map fun c => (i, c)) = t := by
    funext i
    rw [he i]
    show withRemote (s i) _ = withRemote (s i) _
    congr 1
    funext c
    split
    · rfl
    · next hc =>
      by_cases hne : (t i).remote c = (s i).remote c
      · exact hne.symm
      · refine absurd ?_ hc
        rw [List.mem_flatMap]
        exact ⟨i, List.mem_finRange i, List.mem_map.2 ⟨c, mem_ids.2 (hch i c hne).2.1, rfl⟩⟩
  rw [this] at hall
  exact hall


end Dccrg
