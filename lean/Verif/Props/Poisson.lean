import Verif.Poisson
import Verif.Props.Phases
import Verif.Props.Advect
/-!
# C124: the solver of the Poisson test gives the same results on any number of processes
-/
namespace Dccrg
open Cfg
variable {n : Nat} {W V V' : Type} {g : Cfg} {w : Owner n} {s t : Sys n PoissonCell W} {dflt : PoissonCell} {maxTag : Nat}
  {p q : Proc n PoissonCell W} {F : Nat → PoissonCell} {nb : Nat → List NbrInfo} {T : Nat → Nat}
  {info : Fin n → List (Nat × List NbrInfo)} {v : PoissonCell → V} {v' : PoissonCell → V'}

/-! ## One loop over cells -/

/-- Data of all cells after a loop over cells. -/
def passed (nb : Nat → List NbrInfo) (P : PoissonCell → List (PoissonCell × Int × Int) → PoissonCell) (F : Nat → PoissonCell) (c : Nat) :
    PoissonCell :=
  if (F c).typ = 0 then P (F c) ((nb c).map fun y => (F y.1, y.2)) else F c

/-- A change of a cell that uses only a part `v` of data of neighbors and does not change that part. -/
structure Uses (v : PoissonCell → V) (P : PoissonCell → List (PoissonCell × Int × Int) → PoissonCell) : Prop where
  only : ∀ a l l', l.map (fun y => (v y.1, y.2)) = l'.map (fun y => (v y.1, y.2)) → P a l = P a l'
  keeps : ∀ a l, v (P a l) = v a
  typ : ∀ a l, (P a l).typ = a.typ

theorem nbrData_spec {l : List NbrInfo} (h : ∀ y ∈ l, ∃ a, access p y.1 = some a ∧ v a = v (F y.1)) :
    ∃ m, nbrData p l = .ok m ∧ m.map (fun y => (v y.1, y.2)) = (l.map fun y => (F y.1, y.2)).map (fun y => (v y.1, y.2)) := by
  induction l with
  | nil => exact ⟨[], rfl, rfl⟩
  | cons y l ih =>
    obtain ⟨m, h1, h2⟩ := ih fun z hz => h z (List.mem_cons_of_mem _ hz)
    obtain ⟨a, a1, a2⟩ := h y (List.mem_cons_self ..)
    refine ⟨(a, y.2) :: m, ?_, ?_⟩
    · unfold nbrData
      rw [a1, h1]; rfl
    · rw [List.map_cons, List.map_cons, List.map_cons, h2, a2]

theorem write_own {c : Nat} {a x : PoissonCell} (h : p.data c = some a) :
    write p c x = { p with data := fun d => if d = c then some x else p.data d } := by
  unfold write
  rw [if_pos (by rw [h]; rfl)]

theorem access_data {c : Nat} {a : PoissonCell} (h : p.data c = some a) : access p c = some a := by
  unfold access; rw [h]

theorem access_put {c d : Nat} {x : PoissonCell} (h : d ≠ c) :
    access { p with data := fun d => if d = c then some x else p.data d } d = access p d := by
  unfold access
  simp only [if_neg h]

theorem solveFold {P : PoissonCell → List (PoissonCell × Int × Int) → PoissonCell} (hP : Uses v P) {l : List (Nat × List NbrInfo)}
    (hl : ∀ x ∈ l, x.2 = nb x.1) (hn : (l.map (·.1)).Nodup) (hF : ∀ x ∈ l, p.data x.1 = some (F x.1))
    (hb : ∀ x ∈ l, ∀ y ∈ x.2, ∃ a, access p y.1 = some a ∧ v a = v (F y.1)) :
    ∃ q, Out.fold (solveCell P) l p = .ok q ∧ q = { p with data := q.data } ∧
      ∀ c, q.data c = if c ∈ l.map (·.1) then some (passed nb P F c) else p.data c := by
  induction l generalizing p F with
  | nil => exact ⟨p, rfl, rfl, fun c => by simp⟩
  | cons x l ih =>
    rw [List.map_cons, List.nodup_cons] at hn
    have h0 := hF x (List.mem_cons_self ..)
    have ha : access p x.1 = some (F x.1) := by unfold access; rw [h0]
    obtain ⟨m, m1, m2⟩ := nbrData_spec (hb x (List.mem_cons_self ..))
    have hx : solveCell P x p = .ok { p with data := fun d => if d = x.1 then some (passed nb P F x.1) else p.data d } := by
      unfold solveCell
      rw [ha]
      show (if (F x.1).typ ≠ 0 then _ else _) = _
      unfold passed
      by_cases ht : (F x.1).typ = 0
      · rw [if_neg (by simp [ht]), if_pos ht, m1, Out.bind_ok, hP.only _ _ _ m2, write_own h0, hl x (List.mem_cons_self ..)]
      · rw [if_pos ht, if_neg ht]
        congr 1
        have : (fun d => if d = x.1 then some (F x.1) else p.data d) = p.data := by
          funext d
          split
          · rename_i e; rw [e, h0]
          · rfl
        rw [this]
    let F1 : Nat → PoissonCell := fun c => if c = x.1 then passed nb P F x.1 else F c
    have hv : ∀ c, v (F1 c) = v (F c) := by
      intro c
      show v (if _ then _ else _) = _
      split
      · rename_i e
        subst e
        unfold passed
        split
        · rw [hP.keeps]
        · rfl
      · rfl
    obtain ⟨q, q1, q2, q3⟩ := ih (F := F1) (p := { p with data := fun d => if d = x.1 then some (passed nb P F x.1) else p.data d })
      (fun y hy => hl y (List.mem_cons_of_mem _ hy)) hn.2 (by
        intro y hy
        have : y.1 ≠ x.1 := fun e => hn.1 (e ▸ List.mem_map_of_mem hy)
        show (if _ then _ else _) = some (if _ then _ else _)
        rw [if_neg this, if_neg this]
        exact hF y (List.mem_cons_of_mem _ hy)) (by
        intro y hy z hz
        rw [hv]
        obtain ⟨a, a1, a2⟩ := hb y (List.mem_cons_of_mem _ hy) z hz
        by_cases e : z.1 = x.1
        · refine ⟨passed nb P F x.1, ?_, ?_⟩
          · exact access_data (if_pos e)
          · rw [e]
            have := hv x.1
            rw [show F1 x.1 = passed nb P F x.1 from if_pos rfl] at this
            exact this
        · refine ⟨a, ?_, a2⟩
          rw [← a1]
          exact access_put e)
    refine ⟨q, ?_, ?_, fun c => ?_⟩
    · unfold Out.fold
      rw [hx]
      exact q1
    · rw [q2]
    · rw [q3]
      by_cases hc : c ∈ l.map (·.1)
      · rw [if_pos hc, if_pos (by rw [List.map_cons]; exact List.mem_cons_of_mem _ hc)]
        have hne : c ≠ x.1 := fun e => hn.1 (e ▸ hc)
        have e1 : F1 c = F c := if_neg hne
        unfold passed
        rw [e1]
        split
        · congr 1
          apply hP.only
          rw [List.map_map, List.map_map]
          refine List.map_congr_left fun y _ => ?_
          show (v (F1 y.1), y.2) = (v (F y.1), y.2)
          rw [hv]
        · rfl
      · rw [if_neg hc]
        show (if c = x.1 then _ else _) = _
        by_cases e : c = x.1
        · rw [if_pos e, if_pos (by rw [List.map_cons, e]; exact List.mem_cons_self ..), e]
        · rw [if_neg e, if_neg]
          rw [List.map_cons, List.mem_cons]
          rintro (h | h)
          · exact e h
          · exact hc h

/-! ## Data on processes -/

/-- Data of cells on their processes is given by `F` and copies of remote neighbors agree with it in the part `v`. -/
structure Copied (g : Cfg) (dflt : PoissonCell) (maxTag : Nat) (w : Owner n) (v : PoissonCell → V) (F : Nat → PoissonCell)
    (s : Sys n PoissonCell W) : Prop where
  reach : Reachable g dflt maxTag s
  inv : Inv g w s
  own : ∀ i c, w c = some i → (s i).data c = some (F c)
  copy : ∀ i j b, w b = some j → j ≠ i → (∃ c, w c = some i ∧ Linked g (hoodOf g) c b) →
    ∃ y, (s i).remote b = some y ∧ v y = v (F b)

theorem inv_of (hw : g.WF) (hn : 0 < n) (h : Reachable g dflt maxTag t) (ho : ∀ i, (t i).owner = w) : Inv g w t := by
  obtain ⟨w', hi⟩ := h.inv hw hn
  have : w' = w := (hi.sys.owner ⟨0, hn⟩).symm.trans (ho _)
  rw [← this]; exact hi

theorem near_start (hw : g.WF) (hn : 0 < n) (h : Reachable g dflt maxTag s) (hi : Inv g w s)
    (hF : ∀ i c, w c = some i → (s i).data c = some (F c)) : Copied g dflt maxTag w (fun _ => ()) F s := by
  refine ⟨h, hi, hF, fun i j b hb hji hl => ?_⟩
  obtain ⟨res, hr⟩ := (C67_history hw hn h (id := defaultId) fun _ _ _ x _ => x).1 fun i => by
    rw [show hoodFor g (s i) defaultId = some (hoodOf g) from if_pos rfl]; rfl
  obtain ⟨H, hH, -, -, a2, -⟩ := updateParts_inv hw h hi hr i
  rw [show hoodFor g (s i) defaultId = some (hoodOf g) from if_pos rfl] at hH
  injection hH with hH
  subst hH
  obtain ⟨x, y, -, e2, -⟩ := a2 b j hb hji hl
  exact ⟨y, e2, rfl⟩

theorem near_update (hw : g.WF) (hn : 0 < n) (h : Copied g dflt maxTag w v F s) (sw : PSwitch)
    (hv : ∀ x y, v y = v x → v' (x.receive sw y) = v' x) :
    ∃ t, updatePoisson g maxTag sw s = .ok t ∧ Copied g dflt maxTag w v' F t := by
  obtain ⟨h1, h2⟩ := C67_history hw hn h.reach (id := defaultId) fun _ _ _ => PoissonCell.receive sw
  obtain ⟨res, hr⟩ := h1 fun i => by rw [show hoodFor g (s i) defaultId = some (hoodOf g) from if_pos rfl]; rfl
  have h3 := h2 res hr
  have key : ∀ i, (res i).2 = { s i with remote := (res i).2.remote } ∧
      (∀ b j, w b = some j → j ≠ i → (∃ c, w c = some i ∧ Linked g (hoodOf g) c b) → ∃ x y,
        (s j).data b = some x ∧ (s i).remote b = some y ∧ (res i).2.remote b = some (x.receive sw y)) := by
    intro i
    obtain ⟨H, hH, -, a1, a2, -⟩ := updateParts_inv hw h.reach h.inv hr i
    rw [show hoodFor g (s i) defaultId = some (hoodOf g) from if_pos rfl] at hH
    injection hH with hH
    subst hH
    exact ⟨a1, a2⟩
  refine ⟨fun i => (res i).2, ?_, h3, inv_of hw hn h3 fun i => ?_, fun i c hc => ?_, fun i j b hb hji hl => ?_⟩
  · unfold updatePoisson
    rw [hr]; rfl
  · rw [(key i).1]; exact h.inv.sys.owner i
  · show (res i).2.data c = _
    rw [(key i).1]; exact h.own i c hc
  · obtain ⟨x, y, e1, e2, e3⟩ := (key i).2 b j hb hji hl
    refine ⟨_, e3, ?_⟩
    rw [h.own j b hb] at e1
    injection e1 with e1
    obtain ⟨y', f1, f2⟩ := h.copy i j b hb hji hl
    rw [e2] at f1
    injection f1 with f1
    subst e1 f1
    exact hv _ _ f2

theorem Copied.weaken (h : Copied g dflt maxTag w v F s) (hv : ∀ x y, v y = v x → v' y = v' x) : Copied g dflt maxTag w v' F s :=
  ⟨h.reach, h.inv, h.own, fun i j b hb hji hl => by
    obtain ⟨y, e1, e2⟩ := h.copy i j b hb hji hl
    exact ⟨y, e1, hv _ _ e2⟩⟩

/-- Data of own cells and neighbors can be used. -/
theorem Copied.nbr (h : Copied g dflt maxTag w v F s) {i : Fin n} {c b : Nat} (hc : w c = some i) (hb : exist w b = true)
    (hl : Linked g (hoodOf g) c b) : ∃ a, access (s i) b = some a ∧ v a = v (F b) := by
  obtain ⟨j, hj⟩ := Option.isSome_iff_exists.1 hb
  by_cases hji : j = i
  · subst hji
    exact ⟨_, access_data (h.own _ _ hj), rfl⟩
  · obtain ⟨y, e1, e2⟩ := h.copy i j b hj hji ⟨c, hc, hl⟩
    refine ⟨y, ?_, e2⟩
    have hd : (s i).data b = none := by
      apply Option.not_isSome_iff_eq_none.1
      rw [h.inv.sys.placed i, hj]
      intro e; injection e with e; exact hji e
    unfold access
    rw [hd, e1]

/-- What is in `cell_info`: `T` are types of cells and `nb` their neighbors. -/
structure Cached (g : Cfg) (w : Owner n) (T : Nat → Nat) (nb : Nat → List NbrInfo) (info : Fin n → List (Nat × List NbrInfo)) :
    Prop where
  nodup : ∀ i, ((info i).map (·.1)).Nodup
  mem : ∀ i, ∀ x ∈ info i, x.2 = nb x.1
  cells : ∀ i c, c ∈ (info i).map (·.1) ↔ w c = some i ∧ T c ≠ 2
  links : ∀ c, exist w c = true → T c ≠ 2 → ∀ y ∈ nb c, exist w y.1 = true ∧ Linked g (hoodOf g) c y.1

theorem near_put (hw : g.WF) (hn : 0 < n) (h : Copied g dflt maxTag w v F s) {F' : Nat → PoissonCell} (hv : ∀ c, exist w c = true → v (F' c) = v (F c))
    (h1 : ∀ i, t i = { s i with data := (t i).data }) (h2 : ∀ i c, w c = some i → (t i).data c = some (F' c))
    (h3 : ∀ i c, w c ≠ some i → (t i).data c = (s i).data c) : Copied g dflt maxTag w v F' t := by
  have hr : Reachable g dflt maxTag t := by
    refine reachable_data hw h.reach h1 fun i c => ?_
    by_cases hc : w c = some i
    · rw [h2 i c hc, h.own i c hc]; rfl
    · rw [h3 i c hc]
  refine ⟨hr, inv_of hw hn hr fun i => by rw [h1]; exact h.inv.sys.owner i, h2, fun i j b hb hji hl => ?_⟩
  obtain ⟨y, e1, e2⟩ := h.copy i j b hb hji hl
  refine ⟨y, by rw [h1]; exact e1, ?_⟩
  rw [e2, hv b (exist_of hb)]

theorem near_pass (hw : g.WF) (hn : 0 < n) (hc : Cached g w T nb info) (hT : ∀ c, exist w c = true → (F c).typ = T c)
    {P : PoissonCell → List (PoissonCell × Int × Int) → PoissonCell} (hP : Uses v P) (h : Copied g dflt maxTag w v F s) :
    ∃ t, solveCells P info s = .ok t ∧ Copied g dflt maxTag w v (passed nb P F) t := by
  obtain ⟨t, t1, t2⟩ := Out.collect_all (f := fun i => Out.fold (solveCell P) (info i) (s i)) (P := fun i q =>
      q = { s i with data := q.data } ∧
      ∀ c, q.data c = if c ∈ (info i).map (·.1) then some (passed nb P F c) else (s i).data c) (fun i => by
    refine solveFold hP (hc.mem i) (hc.nodup i) (fun x hx => ?_) (fun x hx y hy => ?_)
    · exact h.own i _ ((hc.cells i _).1 (List.mem_map_of_mem hx)).1
    · obtain ⟨e1, e2⟩ := (hc.cells i _).1 (List.mem_map_of_mem hx)
      obtain ⟨l1, l2⟩ := hc.links x.1 (exist_of e1) e2 y (by rw [← hc.mem i x hx]; exact hy)
      exact h.nbr e1 l1 l2)
  refine ⟨t, t1, near_put hw hn h (fun c _ => ?_) (fun i => (t2 i).1) (fun i c hwc => ?_) (fun i c hwc => ?_)⟩
  · unfold passed
    split
    · exact hP.keeps _ _
    · rfl
  · rw [(t2 i).2]
    split
    · rfl
    · rename_i hx
      rw [h.own i c hwc]
      have : ¬ (w c = some i ∧ T c ≠ 2) := fun e => hx ((hc.cells i c).2 e)
      have h2 : T c = 2 := by
        by_cases e : T c = 2
        · exact e
        · exact absurd ⟨hwc, e⟩ this
      unfold passed
      rw [if_neg (by rw [hT c (exist_of hwc), h2]; decide)]
  · rw [(t2 i).2, if_neg]
    intro hx
    exact hwc ((hc.cells i c).1 hx).1

theorem passed_typ {P : PoissonCell → List (PoissonCell × Int × Int) → PoissonCell} (hP : Uses v P) (c : Nat) :
    (passed nb P F c).typ = (F c).typ := by
  unfold passed
  split
  · exact hP.typ _ _
  · rfl

/-- Sum over cells to solve, or over all cells that are not skipped. -/
def gSum (g : Cfg) (E : Nat → Bool) (all : Bool) (h : PoissonCell → Rat) (F : Nat → PoissonCell) : Rat :=
  (((List.range (g.last + 1)).filter E).map fun c =>
    if (F c).typ = 0 ∨ (all = true ∧ (F c).typ ≠ 2) then h (F c) else 0).sum

theorem localSum_spec {all : Bool} {h : PoissonCell → Rat} {l : List (Nat × List NbrInfo)} (hF : ∀ x ∈ l, access p x.1 = some (F x.1)) :
    localSum all h p l = .ok ((l.map (·.1)).map fun c => if all = true ∨ (F c).typ = 0 then h (F c) else 0).sum := by
  induction l with
  | nil => rfl
  | cons x l ih =>
    unfold localSum
    rw [hF x (List.mem_cons_self ..), ih fun y hy => hF y (List.mem_cons_of_mem _ hy)]
    show Out.ok _ = _
    rw [List.map_cons, List.map_cons, List.sum_cons]
    congr 1
    split
    · rfl
    · rw [Rat.zero_add]

theorem near_sum (hc : Cached g w T nb info) (hT : ∀ c, exist w c = true → (F c).typ = T c)
    (h : Copied g dflt maxTag w v F s) (all : Bool) (k : PoissonCell → Rat) :
    globalSum all k info s = .ok (gSum g (exist w) all k F) := by
  unfold globalSum
  rw [Out.collect_ok fun i => localSum_spec (F := F) fun x hx =>
    access_data (h.own i _ ((hc.cells i _).1 (List.mem_map_of_mem hx)).1)]
  show Out.ok _ = _
  congr 1
  rw [← sum_flatMap, ← List.map_flatMap]
  have hp : ((List.finRange n).flatMap fun i => (info i).map (·.1)).Perm
      (((List.range (g.last + 1)).filter (exist w)).filter fun c => decide (T c ≠ 2)) := by
    refine (List.perm_ext_iff_of_nodup ?_ ((List.nodup_range.filter _).filter _)).2 fun c => ?_
    · apply flatMap_nodup (List.nodup_finRange n)
      · intro i _
        exact hc.nodup i
      · intro i _ j _ x h1 h2
        have a := ((hc.cells i _).1 h1).1
        rw [((hc.cells j _).1 h2).1] at a
        injection a with a
        exact a.symm
    · rw [List.mem_flatMap, List.mem_filter, List.mem_filter, List.mem_range]
      constructor
      · rintro ⟨i, -, hx⟩
        obtain ⟨e1, e2⟩ := (hc.cells i c).1 hx
        have := (h.inv.sys.tiled.valid _ (exist_of e1)).2
        exact ⟨⟨by omega, exist_of e1⟩, decide_eq_true e2⟩
      · rintro ⟨⟨-, e1⟩, e2⟩
        obtain ⟨i, hi⟩ := Option.isSome_iff_exists.1 e1
        exact ⟨i, List.mem_finRange i, (hc.cells i c).2 ⟨hi, of_decide_eq_true e2⟩⟩
  rw [sum_perm (hp.map _), sum_filter]
  unfold gSum
  congr 1
  refine List.map_congr_left fun c hcc => ?_
  rw [hT c (List.mem_filter.1 hcc).2]
  by_cases h2 : T c = 2
  · simp [h2]
  · by_cases h0 : T c = 0 <;> cases all <;> simp [h2, h0]

/-! ## Classification of cells -/

theorem local_of {i : Fin n} (hp : ∀ c, isLocal i p c = (p.data c).isSome) (h : q = { p with data := q.data })
    (hd : ∀ c, (q.data c).isSome = (p.data c).isSome) (c : Nat) : isLocal i q c = (q.data c).isSome := by
  rw [hd, ← hp, h]; rfl

theorem setTypes {i : Fin n} (hp : ∀ c, isLocal i p c = (p.data c).isSome) (k : Nat) (l : List Nat) : ∃ q, Out.fold (setType i k) l p = .ok q ∧ q = { p with data := q.data } ∧
    ∀ c, q.data c = (p.data c).map fun a => if c ∈ l then { a with typ := k } else a := by
  induction l generalizing p with
  | nil => exact ⟨p, rfl, rfl, fun c => by simp⟩
  | cons x l ih =>
    have hs : ∃ q, setType i k x p = .ok q ∧ q = { p with data := q.data } ∧
        ∀ c, q.data c = (p.data c).map fun a => if c = x then { a with typ := k } else a := by
      unfold setType
      cases hx : p.data x with
      | none =>
        have hh : isLocal i p x = false := by rw [hp, hx]; rfl
        refine ⟨p, by rw [hh]; rfl, rfl, fun c => ?_⟩
        by_cases e : c = x
        · rw [e, hx]; rfl
        · simp [e]
      | some a =>
        have hh : isLocal i p x = true := by rw [hp, hx]; rfl
        refine ⟨_, by rw [if_pos hh, access_data hx], by rw [write_own hx], fun c => ?_⟩
        rw [write_own hx]
        show (if _ then _ else _) = _
        by_cases e : c = x
        · rw [if_pos e, e, hx]; simp
        · rw [if_neg e]; simp [e]
    obtain ⟨q1, a1, a2, a3⟩ := hs
    obtain ⟨q, b1, b2, b3⟩ := ih (p := q1) (local_of hp a2 fun c => by rw [a3, Option.isSome_map])
    refine ⟨q, ?_, by rw [b2, a2], fun c => ?_⟩
    · unfold Out.fold
      rw [a1]; exact b1
    · rw [b3, a3, Option.map_map]
      congr 1
      funext a
      show (if c ∈ l then { (if c = x then { a with typ := k } else a) with typ := k } else (if c = x then { a with typ := k } else a)) = _
      by_cases e : c = x <;> by_cases e' : c ∈ l <;> simp [e, e'] <;> simp [e] at e' <;> simp [e']

/-- Type of a cell: cells to solve are those in the first list on the process of the cell, cells to skip those in the second. -/
def typeOf (w : Owner n) (cells skip : Fin n → List Nat) (c : Nat) : Nat :=
  match w c with
  | none => 1
  | some i => if c ∈ cells i then 0 else if c ∈ skip i then 2 else 1

theorem classify_spec {i : Fin n} {cells skip : List Nat} (ho : ∀ c, isLocal i p c = (p.data c).isSome) (hp : ∀ c, (p.data c).isSome = true → c ∈ getCells g i p [] false defaultId false) :
    ∃ q, classify g i cells skip p = .ok q ∧ q = { p with data := q.data } ∧
      ∀ c, q.data c = (p.data c).map fun a => { a with typ := if c ∈ cells then 0 else if c ∈ skip then 2 else 1 } := by
  obtain ⟨q1, a1, a2, a3⟩ := setTypes (p := p) ho 1 (getCells g i p [] false defaultId false)
  have ho1 := local_of ho a2 fun c => by rw [a3, Option.isSome_map]
  obtain ⟨q2, b1, b2, b3⟩ := setTypes (p := q1) ho1 2 skip
  obtain ⟨q3, c1, c2, c3⟩ := setTypes (p := q2) (local_of ho1 b2 fun c => by rw [b3, Option.isSome_map]) 0 cells
  refine ⟨q3, ?_, by rw [c2, b2, a2], fun c => ?_⟩
  · unfold classify
    rw [a1, Out.bind_ok, b1, Out.bind_ok]; exact c1
  · rw [c3, b3, a3, Option.map_map, Option.map_map]
    cases hx : p.data c with
    | none => rfl
    | some a =>
      have hm := hp c (by rw [hx]; rfl)
      show some _ = some _
      congr 1
      show (if c ∈ cells then { (if c ∈ skip then { (if c ∈ getCells g i p [] false defaultId false then { a with typ := 1 } else a) with typ := 2 }
        else (if c ∈ getCells g i p [] false defaultId false then { a with typ := 1 } else a)) with typ := 0 } else
        (if c ∈ skip then { (if c ∈ getCells g i p [] false defaultId false then { a with typ := 1 } else a) with typ := 2 }
        else (if c ∈ getCells g i p [] false defaultId false then { a with typ := 1 } else a))) = _
      rw [if_pos hm]
      by_cases e : c ∈ cells <;> by_cases e' : c ∈ skip <;> simp [e, e']

/-! ## Neighbors of cells -/

/-- Whether a face neighbor of type `b` of a cell of type `a` takes part in solving. -/
def usedNbr (a b : Nat) : Bool := !(decide (b = 2) || (decide (a = 1) && decide (b = 1)))

/-- Neighbors that take part in solving. -/
def solveNbrs (g : Cfg) (E : Nat → Bool) (T : Nat → Nat) (c : Nat) : List NbrInfo :=
  ((faceList g E c).filter fun y => usedNbr (T c) (T y.1)).map fun y => (y.1, y.2, relLevel g c y.1)

/-- Type of a cell after finding its neighbors. -/
def finalType (g : Cfg) (E : Nat → Bool) (T : Nat → Nat) (c : Nat) : Nat :=
  if solveNbrs g E T c = [] then 2 else T c

/-- Data of cells after finding their neighbors. -/
def cachedField (g : Cfg) (E : Nat → Bool) (len : Nat → V3 Rat) (T : Nat → Nat) (F : Nat → PoissonCell) (c : Nat) : PoissonCell :=
  if T c = 2 then F c
  else if solveNbrs g E T c = [] then { F c with typ := 2 }
  else setFactors len c (solveNbrs g E T c) (F c)

theorem faceInfo_spec {c k : Nat} {U : Nat → Nat} {l : List (Nat × Int)}
    (hl : ∀ y ∈ l, ∃ a, access p y.1 = some a ∧ ((a.typ = 2 ∨ (k = 1 ∧ a.typ = 1)) ↔ usedNbr k (U y.1) = false)) :
    faceInfo g p c k l = .ok ((l.filter fun y => usedNbr k (U y.1)).map fun y => (y.1, y.2, relLevel g c y.1)) := by
  induction l with
  | nil => rfl
  | cons y l ih =>
    obtain ⟨a, a1, a2⟩ := hl y (List.mem_cons_self ..)
    obtain ⟨b, d⟩ := y
    unfold faceInfo
    rw [a1, ih fun z hz => hl z (List.mem_cons_of_mem _ hz)]
    show Out.ok _ = _
    congr 1
    rw [List.filter_cons]
    by_cases hu : usedNbr k (U b) = true
    · rw [if_neg (by rw [a2, hu]; decide), if_pos hu]
      rfl
    · rw [if_pos (a2.2 (by simpa using hu)), if_neg hu]

theorem usedNbr_symm {a b : Nat} (ha : a ≠ 2) (hb : b ≠ 2) : usedNbr a b = usedNbr b a := by
  unfold usedNbr
  simp [ha, hb, Bool.and_comm]

/-- Types that are seen while finding neighbors. -/
def Seen (g : Cfg) (E : Nat → Bool) (T : Nat → Nat) (b k : Nat) : Prop := k = T b ∨ (k = 2 ∧ solveNbrs g E T b = [])

theorem Seen.used {E : Nat → Bool} {c b k : Nat} (hc : T c ≠ 2)
    (hs : ∃ d, (c, d) ∈ faceList g E b) (h : Seen g E T b k) : (k = 2 ∨ (T c = 1 ∧ k = 1)) ↔ usedNbr (T c) (T b) = false := by
  rcases h with rfl | ⟨rfl, h⟩
  · unfold usedNbr; by_cases e : T b = 2 <;> simp [e]
  · refine ⟨fun _ => ?_, fun _ => .inl rfl⟩
    obtain ⟨d, hs⟩ := hs
    have hu : usedNbr (T b) (T c) = false := by
      cases hx : usedNbr (T b) (T c) with
      | false => rfl
      | true =>
        have : (c, d, relLevel g b c) ∈ solveNbrs g E T b :=
          List.mem_map.2 ⟨(c, d), List.mem_filter.2 ⟨hs, hx⟩, rfl⟩
        rw [h] at this; cases this
    by_cases hb : T b = 2
    · unfold usedNbr; simp [hb]
    · rw [usedNbr_symm hc hb]; exact hu

theorem cacheFold {E : Nat → Bool} {len : Nat → V3 Rat} {l : List Nat} (hE : exist p.owner = E) (hn : l.Nodup)
    (hF : ∀ c ∈ l, p.data c = some (F c)) (hT : ∀ c ∈ l, (F c).typ = T c)
    (hf : ∀ c ∈ l, faceNeighbors g E c = .ok (faceList g E c))
    (hb : ∀ c ∈ l, ∀ y ∈ faceList g E c, (∃ d, (c, d) ∈ faceList g E y.1) ∧ ∃ a, access p y.1 = some a ∧ Seen g E T y.1 a.typ)
    (acc : List (Nat × List NbrInfo)) :
    ∃ q, Out.fold (cacheCell g len) l (p, acc) = .ok (q, acc ++ (l.filter fun c => decide (finalType g E T c ≠ 2)).map fun c =>
        (c, solveNbrs g E T c)) ∧ q = { p with data := q.data } ∧
      ∀ c, q.data c = if c ∈ l then some (cachedField g E len T F c) else p.data c := by
  induction l generalizing p acc with
  | nil => exact ⟨p, by simp [Out.fold], rfl, fun c => by simp⟩
  | cons x l ih =>
    rw [List.nodup_cons] at hn
    have h0 := hF x (List.mem_cons_self ..)
    have t0 := hT x (List.mem_cons_self ..)
    have hx : cacheCell g len x (p, acc) = .ok ({ p with data := fun d => if d = x then some (cachedField g E len T F x) else p.data d },
        acc ++ ([x].filter fun c => decide (finalType g E T c ≠ 2)).map fun c => (c, solveNbrs g E T c)) := by
      unfold cacheCell
      show (match access p x with | none => _ | some a => _) = _
      rw [access_data h0]
      show (if (F x).typ = 2 then _ else _) = _
      rw [t0]
      by_cases ht : T x = 2
      · have hft : finalType g E T x = 2 := by unfold finalType; split <;> simp [ht]
        rw [if_pos ht]
        have : (fun d => if d = x then some (cachedField g E len T F x) else p.data d) = p.data := by
          funext d
          split
          · rename_i e; rw [e, h0]; unfold cachedField; rw [if_pos ht]
          · rfl
        rw [this]
        simp [hft]
      · rw [if_neg ht]
        show ((faceNeighbors g (exist p.owner) x).bind _) = _
        rw [hE, hf x (List.mem_cons_self ..), Out.bind_ok]
        rw [faceInfo_spec (U := T) (by
          intro y hy
          obtain ⟨a1, a, a2, a3⟩ := hb x (List.mem_cons_self ..) y hy
          exact ⟨a, a2, a3.used ht a1⟩), Out.bind_ok]
        show (if (solveNbrs g E T x).isEmpty = true then _ else _) = _
        by_cases he : solveNbrs g E T x = []
        · have hft : finalType g E T x = 2 := by unfold finalType; rw [if_pos he]
          rw [if_pos (by rw [he]; rfl), write_own h0]
          simp only [cachedField, if_neg ht, if_pos he]
          simp [hft]
        · have hft : finalType g E T x ≠ 2 := by unfold finalType; rw [if_neg he]; exact ht
          rw [if_neg (by rw [List.isEmpty_iff]; exact he), write_own h0]
          simp only [cachedField, if_neg ht, if_neg he]
          rw [List.filter_cons_of_pos (by simpa using hft)]
          rfl
    obtain ⟨q, q1, q2, q3⟩ := ih (p := { p with data := fun d => if d = x then some (cachedField g E len T F x) else p.data d }) hE
      hn.2 (fun c hc => by
        have : c ≠ x := fun e => hn.1 (e ▸ hc)
        exact (if_neg this).trans (hF c (List.mem_cons_of_mem _ hc)))
      (fun c hc => hT c (List.mem_cons_of_mem _ hc)) (fun c hc => hf c (List.mem_cons_of_mem _ hc))
      (fun c hc y hy => by
        obtain ⟨a1, a, a2, a3⟩ := hb c (List.mem_cons_of_mem _ hc) y hy
        refine ⟨a1, ?_⟩
        by_cases e : y.1 = x
        · refine ⟨_, access_data (if_pos e), ?_⟩
          rw [e]
          unfold cachedField
          split
          · exact .inl t0
          · split
            · rename_i h; exact .inr ⟨rfl, h⟩
            · exact .inl t0
        · exact ⟨a, by rw [access_put e]; exact a2, a3⟩)
      (acc ++ ([x].filter fun c => decide (finalType g E T c ≠ 2)).map fun c => (c, solveNbrs g E T c))
    refine ⟨q, ?_, by rw [q2], fun c => ?_⟩
    · unfold Out.fold
      rw [hx]
      show Out.fold _ l _ = _
      rw [q1, List.append_assoc, ← List.map_append, ← List.filter_append]
      rfl
    · rw [q3]
      by_cases hc : c ∈ l
      · rw [if_pos hc, if_pos (List.mem_cons_of_mem _ hc)]
      · rw [if_neg hc]
        show (if c = x then _ else _) = _
        by_cases e : c = x
        · rw [if_pos e, if_pos (by rw [e]; exact List.mem_cons_self ..), e]
        · rw [if_neg e, if_neg]
          rw [List.mem_cons]
          rintro (h | h)
          · exact e h
          · exact hc h

theorem faceList_linked (hw : g.WF) (h : Reachable g dflt maxTag s) (hi : Inv g w s) {c : Nat} (hc : exist w c = true) {y : Nat × Int}
    (hy : y ∈ faceList g (exist w) c) : exist w y.1 = true ∧ Linked g (hoodOf g) c y.1 ∧ (c, -y.2) ∈ faceList g (exist w) y.1 := by
  obtain ⟨b, k⟩ := y
  obtain ⟨h1, -, h3⟩ := faceList_spec hw hi hc
  obtain ⟨hb, d, pos, -, q, q1, q2, q3⟩ := (h3 b k).1 hy
  obtain ⟨i, -⟩ := Option.isSome_iff_exists.1 hc
  refine ⟨hb, ⟨unitItem d pos, faces_sub_hoodOf (unitItem_mem d pos), q, q1.block, q2, q3⟩, ?_⟩
  exact (C119_symmetric hw h i i (by rw [hi.sys.owner]; exact h1) (by rw [hi.sys.owner]; exact (faceList_spec hw hi hb).1) k).1 hy

theorem cacheSystem_spec (hw : g.WF) (hn : 0 < n) (h : Reachable g dflt maxTag s) (hi : Inv g w s)
    (hF : ∀ i c, w c = some i → (s i).data c = some (F c)) (len : Nat → V3 Rat) (cells skip : Fin n → List Nat) :
    ∃ x, cacheSystem g maxTag len cells skip s = .ok x ∧
      Copied g dflt maxTag w (·.f) (cachedField g (exist w) len (typeOf w cells skip) fun c =>
        { F c with typ := typeOf w cells skip c }) x.1 ∧
      Cached g w (finalType g (exist w) (typeOf w cells skip)) (solveNbrs g (exist w) (typeOf w cells skip)) x.2 := by
  have hloc : ∀ {t : Sys n PoissonCell W}, Inv g w t → ∀ i c, isLocal i (t i) c = ((t i).data c).isSome := by
    intro t hi i c
    rw [Bool.eq_iff_iff, hi.sys.placed i]
    unfold isLocal
    rw [hi.sys.owner]
    simp
  obtain ⟨s1, a1, a2⟩ := Out.collect_all (f := fun i => classify g i (cells i) (skip i) (s i)) (P := fun i q =>
      q = { s i with data := q.data } ∧
      ∀ c, q.data c = ((s i).data c).map fun a => { a with typ := if c ∈ cells i then 0 else if c ∈ skip i then 2 else 1 }) (fun i =>
    classify_spec (hloc hi i) fun c hc => ((cells_spec hw h hi i).2 c).2 ((hi.sys.placed i c).1 hc))
  have c1 := near_put hw hn (near_start hw hn h hi hF) (t := s1) (F' := fun c => { F c with typ := typeOf w cells skip c })
    (fun _ _ => rfl) (fun i => (a2 i).1) (fun i c hc => by
      rw [(a2 i).2, hF i c hc]
      unfold typeOf
      rw [hc]; rfl) (fun i c hc => by
      rw [(a2 i).2]
      have : (s i).data c = none := by
        apply Option.not_isSome_iff_eq_none.1
        rw [hi.sys.placed i]; exact hc
      rw [this]; rfl)
  obtain ⟨s2, b1, b2⟩ := near_update hw hn c1 .type (v' := (·.typ)) (fun _ _ _ => rfl)
  obtain ⟨r, d1, d2⟩ := Out.collect_all (f := fun i => cacheCells g len i (s2 i)) (P := fun i x =>
      x.1 = { s2 i with data := x.1.data } ∧
      (∀ c, x.1.data c = if c ∈ getCells g i (s2 i) [] false defaultId false then
        some (cachedField g (exist w) len (typeOf w cells skip) (fun c => { F c with typ := typeOf w cells skip c }) c) else (s2 i).data c) ∧
      x.2 = ((getCells g i (s2 i) [] false defaultId false).filter fun c =>
        decide (finalType g (exist w) (typeOf w cells skip) c ≠ 2)).map fun c =>
        (c, solveNbrs g (exist w) (typeOf w cells skip) c)) (fun i => by
    obtain ⟨k1, k2⟩ := cells_spec hw b2.reach b2.inv i
    obtain ⟨q, q1, q2, q3⟩ := cacheFold (p := s2 i) (F := fun c => { F c with typ := typeOf w cells skip c }) (T := typeOf w cells skip)
      (E := exist w) (len := len) (l := getCells g i (s2 i) [] false defaultId false) (by rw [b2.inv.sys.owner]) k1
      (fun c hc => b2.own i c ((k2 c).1 hc)) (fun c _ => rfl)
      (fun c hc => (faceList_spec hw hi (exist_of ((k2 c).1 hc))).1)
      (fun c hc y hy => by
        have hc := (k2 c).1 hc
        obtain ⟨l1, l2, l3⟩ := faceList_linked hw h hi (exist_of hc) hy
        refine ⟨⟨_, l3⟩, ?_⟩
        obtain ⟨a, e1, e2⟩ := b2.nbr hc l1 l2
        exact ⟨a, e1, .inl e2⟩) []
    exact ⟨_, q1, q2, q3, List.nil_append _⟩)
  have c3 := near_put hw hn (b2.weaken (v' := fun _ => ()) (fun _ _ _ => rfl)) (t := fun i => (r i).1)
    (F' := cachedField g (exist w) len (typeOf w cells skip) fun c => { F c with typ := typeOf w cells skip c })
    (fun _ _ => rfl) (fun i => (d2 i).1) (fun i c hc => by
      show (r i).1.data c = _
      rw [(d2 i).2.1, if_pos (((cells_spec hw b2.reach b2.inv i).2 c).2 hc)]) (fun i c hc => by
      show (r i).1.data c = _
      rw [(d2 i).2.1, if_neg (fun e => hc (((cells_spec hw b2.reach b2.inv i).2 c).1 e))])
  obtain ⟨s3, e1, e2⟩ := near_update hw hn c3 .geometry (v' := (·.f)) (fun _ _ _ => rfl)
  refine ⟨(s3, fun i => (r i).2), ?_, e2, fun i => ?_, fun i x hx => ?_, fun i c => ?_, fun c hc ht y hy => ?_⟩
  · unfold cacheSystem
    rw [a1, Out.bind_ok, b1, Out.bind_ok, d1, Out.bind_ok, e1]; rfl
  · show ((r i).2.map (·.1)).Nodup
    rw [(d2 i).2.2, List.map_map]
    rw [show ((fun x : Nat × List NbrInfo => x.1) ∘ fun c => (c, solveNbrs g (exist w) (typeOf w cells skip) c)) = fun c => c from rfl,
      List.map_id']
    exact (cells_spec hw b2.reach b2.inv i).1.filter _
  · have hx : x ∈ (r i).2 := hx
    rw [(d2 i).2.2] at hx
    obtain ⟨c, -, rfl⟩ := List.mem_map.1 hx
    rfl
  · show c ∈ (r i).2.map (·.1) ↔ _
    rw [(d2 i).2.2, List.map_map]
    rw [show ((fun x : Nat × List NbrInfo => x.1) ∘ fun c => (c, solveNbrs g (exist w) (typeOf w cells skip) c)) = fun c => c from rfl,
      List.map_id', List.mem_filter, (cells_spec hw b2.reach b2.inv i).2, decide_eq_true_eq]
  · obtain ⟨z, hz, rfl⟩ := List.mem_map.1 hy
    obtain ⟨l1, l2, -⟩ := faceList_linked hw h hi hc (List.mem_filter.1 hz).1
    exact ⟨l1, l2⟩

theorem cachedField_typ (g : Cfg) (E : Nat → Bool) (len : Nat → V3 Rat) (T : Nat → Nat) (F : Nat → PoissonCell) (c : Nat) :
    (cachedField g E len T (fun c => { F c with typ := T c }) c).typ = finalType g E T c := by
  unfold cachedField finalType
  by_cases h1 : T c = 2
  · rw [if_pos h1]
    split
    · exact h1
    · rfl
  · rw [if_neg h1]
    split <;> rfl

/-! ## Solving without processes -/

/-- Data of all cells while solving. -/
structure GState where
  F : Nat → PoissonCell
  dotR : Rat
  resMin : Option Rat
  iter : Nat

/-- Start of solving. -/
def gStart (g : Cfg) (E : Nat → Bool) (nb : Nat → List NbrInfo) (F : Nat → PoissonCell) : GState :=
  ⟨passed nb startSolve F, gSum g E false (fun a => a.r0 * a.r1) (passed nb startSolve F), none, 0⟩

/-- One iteration. -/
def gIter (g : Cfg) (E : Nat → Bool) (nb : Nat → List NbrInfo) (a : PParams) (x : GState) : GState × Bool :=
  let F2 := passed nb (fun c l => { c with ap := timesA (·.p0) c l }) x.F
  let dotP := gSum g E false (fun c => c.p1 * c.ap) F2
  if dotP = 0 then (⟨F2, x.dotR, x.resMin, x.iter + 1⟩, false)
  else
    let F3 := passed nb (fun c _ => { c with sol := c.sol + x.dotR / dotP * c.p0 }) F2
    let res := a.root (gSum g E true (fun c => a.pow c.r0.abs) F3)
    let F4 := if lessThan res x.resMin then passed nb (fun c _ => { c with best := c.sol }) F3 else F3
    let m := if lessThan res x.resMin then res else x.resMin.getD res
    if (res ≤ a.stopRes ∧ a.minIter ≤ x.iter + 1) ∨ (a.stopInc * m ≤ res ∧ a.minIter ≤ x.iter + 1) then
      (⟨F4, x.dotR, some m, x.iter + 1⟩, false)
    else
      let F5 := passed nb (fun c _ => { c with r0 := c.r0 - x.dotR / dotP * c.ap }) F4
      let F6 := passed nb (fun c l => { c with r1 := c.r1 - x.dotR / dotP * timesAT (·.p1) c l }) F5
      if x.dotR = 0 then (⟨F6, x.dotR, some m, x.iter + 1⟩, false)
      else
        let d := gSum g E false (fun c => c.r0 * c.r1) F6
        (⟨passed nb (fun c _ => { c with p0 := c.r0 + d / x.dotR * c.p0, p1 := c.r1 + d / x.dotR * c.p1 }) F6, d, some m, x.iter + 1⟩,
          decide (x.iter + 1 < a.maxIter))

/-- Iterations. -/
def gLoop (g : Cfg) (E : Nat → Bool) (nb : Nat → List NbrInfo) (a : PParams) : Nat → GState → GState
  | 0, x => (gIter g E nb a x).1
  | k + 1, x => if (gIter g E nb a x).2 then gLoop g E nb a k (gIter g E nb a x).1 else (gIter g E nb a x).1

/-- Data of all cells after solving. -/
def gSolve (g : Cfg) (E : Nat → Bool) (len : Nat → V3 Rat) (a : PParams) (T : Nat → Nat) (F : Nat → PoissonCell) : Nat → PoissonCell :=
  passed (solveNbrs g E T) (fun c _ => { c with sol := c.best }) (gLoop g E (solveNbrs g E T) a a.maxIter
    (gStart g E (solveNbrs g E T) (cachedField g E len T fun c => { F c with typ := T c }))).F

/-! ## Solving on processes -/

theorem timesA_only (k : PoissonCell → Rat) (hk : ∃ k' : V → Rat, ∀ a, k a = k' (v a)) (a : PoissonCell) {l l' : List (PoissonCell × Int × Int)}
    (h : l.map (fun y => (v y.1, y.2)) = l'.map fun y => (v y.1, y.2)) : timesA k a l = timesA k a l' := by
  obtain ⟨k', hk⟩ := hk
  have : ∀ l : List (PoissonCell × Int × Int), timesA k a l =
      (l.map fun y => (v y.1, y.2)).foldl (fun r y => r + nbrWeight a.f y.2.1 y.2.2 * k' y.1) (a.scale * k a) := by
    intro l
    unfold timesA
    rw [List.foldl_map]
    simp only [hk]
  rw [this, this, h]

theorem timesAT_only (k : PoissonCell → Rat) (hk : ∃ k' : V → Rat, ∀ a, k a = k' (v a)) (hf : ∃ k' : V → Int → Rat, ∀ a : PoissonCell, a.f = k' (v a))
    (a : PoissonCell) {l l' : List (PoissonCell × Int × Int)}
    (h : l.map (fun y => (v y.1, y.2)) = l'.map fun y => (v y.1, y.2)) : timesAT k a l = timesAT k a l' := by
  obtain ⟨k', hk⟩ := hk
  obtain ⟨f', hf⟩ := hf
  have : ∀ l : List (PoissonCell × Int × Int), timesAT k a l =
      (l.map fun y => (v y.1, y.2)).foldl (fun r y => r + nbrWeight (f' y.1) (-y.2.1) y.2.2 * k' y.1) (a.scale * k a) := by
    intro l
    unfold timesAT
    rw [List.foldl_map]
    simp only [hk, hf]
  rw [this, this, h]

/-- What neighbors have while solving. -/
abbrev pView (a : PoissonCell) : (Int → Rat) × Rat × Rat := (a.f, a.p0, a.p1)

/-- A state of the solver on processes has the data of a state without processes. -/
structure Solves (g : Cfg) (dflt : PoissonCell) (maxTag : Nat) (w : Owner n) (T : Nat → Nat) (nb : Nat → List NbrInfo) (x : PState n W)
    (G : GState) : Prop where
  copied : Copied g dflt maxTag w (·.f) G.F x.sys
  cached : Cached g w T nb x.info
  typ : ∀ c, exist w c = true → (G.F c).typ = T c
  dotR : x.dotR = G.dotR
  resMin : x.resMin = G.resMin
  iter : x.iter = G.iter

theorem startPoisson_solves (hw : g.WF) (hn : 0 < n) {x : Sys n PoissonCell W × (Fin n → List (Nat × List NbrInfo))}
    (h : Copied g dflt maxTag w (·.f) F x.1) (hc : Cached g w T nb x.2) (hT : ∀ c, exist w c = true → (F c).typ = T c) :
    ∃ y, startPoisson g maxTag x = .ok y ∧ Solves g dflt maxTag w T nb y (gStart g (exist w) nb F) := by
  obtain ⟨s1, a1, a2⟩ := near_update hw hn h .init (v' := fun a => (a.f, a.sol)) (by
    intro x y e
    exact congrArg (fun f => (f, x.sol)) e)
  have hU : Uses (fun a : PoissonCell => (a.f, a.sol)) startSolve := by
    refine ⟨fun a l l' e => ?_, fun _ _ => rfl, fun _ _ => rfl⟩
    have : ∀ l : List (PoissonCell × Int × Int), l.foldl (fun r y => r - nbrWeight a.f y.2.1 y.2.2 * y.1.sol) (a.rhs - a.scale * a.sol) =
        (l.map fun y => ((y.1.f, y.1.sol), y.2)).foldl (fun r y => r - nbrWeight a.f y.2.1 y.2.2 * y.1.2) (a.rhs - a.scale * a.sol) := by
      intro l
      rw [List.foldl_map]
    unfold startSolve
    rw [this, this, e]
  obtain ⟨s2, b1, b2⟩ := near_pass hw hn hc hT hU a2
  have hT2 : ∀ c, exist w c = true → (passed nb startSolve F c).typ = T c := fun c e => (passed_typ hU c).trans (hT c e)
  refine ⟨⟨s2, x.2, gSum g (exist w) false (fun a => a.r0 * a.r1) (passed nb startSolve F), none, 0⟩, ?_,
    b2.weaken fun x y e => (Prod.mk.inj e).1, hc, hT2, rfl, rfl, rfl⟩
  unfold startPoisson
  rw [a1, Out.bind_ok, b1, Out.bind_ok, near_sum hc hT2 b2]
  rfl

theorem poissonIter_solves (hw : g.WF) (hn : 0 < n) (a : PParams) {x : PState n W} {G : GState} (h : Solves g dflt maxTag w T nb x G) :
    ∃ y, poissonIter g maxTag a x = .ok (y, (gIter g (exist w) nb a G).2) ∧
      Solves g dflt maxTag w T nb y (gIter g (exist w) nb a G).1 := by
  obtain ⟨s0, info, dR, rM, it⟩ := x
  obtain ⟨F, dR', rM', it'⟩ := G
  obtain ⟨hcp, hc, hT, e1, e2, e3⟩ := h
  replace e1 : dR = dR' := e1
  replace e2 : rM = rM' := e2
  replace e3 : it = it' := e3
  subst e1 e2 e3
  replace hc : Cached g w T nb info := hc
  replace hT : ∀ c, exist w c = true → (F c).typ = T c := hT
  obtain ⟨s1, a1, a2⟩ := near_update hw hn hcp .solving (v' := pView) (by
    intro x y e
    exact congrArg (fun f => (f, x.p0, x.p1)) e)
  have u1 : Uses pView fun c l => { c with ap := timesA (·.p0) c l } :=
    ⟨fun c l l' e => by rw [timesA_only (v := pView) _ ⟨fun y => y.2.1, fun _ => rfl⟩ c e], fun _ _ => rfl, fun _ _ => rfl⟩
  obtain ⟨s2, b1, b2⟩ := near_pass hw hn hc hT u1 a2
  have hT2 := fun c e => (passed_typ (nb := nb) (F := F) u1 c).trans (hT c e)
  unfold poissonIter
  rw [a1, Out.bind_ok, b1, Out.bind_ok, near_sum hc hT2 b2, Out.bind_ok]
  unfold gIter
  generalize hF2 : passed nb (fun c l => { c with ap := timesA (·.p0) c l }) F = F2 at *
  show ∃ y, (if gSum g (exist w) false (fun c => c.p1 * c.ap) F2 = 0 then _ else _) = _ ∧ _
  simp only
  generalize hdp : gSum g (exist w) false (fun c => c.p1 * c.ap) F2 = dotP at *
  by_cases hp : dotP = 0
  · rw [if_pos hp, if_pos hp]
    exact ⟨_, rfl, b2.weaken fun x y e => (Prod.mk.inj e).1, hc, hT2, rfl, rfl, rfl⟩
  rw [if_neg hp, if_neg hp]
  have u2 : Uses pView fun c _ => { c with sol := c.sol + dR / dotP * c.p0 } := ⟨fun _ _ _ _ => rfl, fun _ _ => rfl, fun _ _ => rfl⟩
  obtain ⟨s3, c1, c2⟩ := near_pass hw hn hc hT2 u2 b2
  have hT3 := fun c e => (passed_typ (nb := nb) (F := F2) u2 c).trans (hT2 c e)
  rw [c1, Out.bind_ok, near_sum hc hT3 c2, Out.bind_ok]
  generalize hF3 : passed nb (fun c _ => { c with sol := c.sol + dR / dotP * c.p0 }) F2 = F3 at *
  generalize hres : a.root (gSum g (exist w) true (fun c => a.pow c.r0.abs) F3) = res at *
  have u3 : Uses pView fun c _ => { c with best := c.sol } := ⟨fun _ _ _ _ => rfl, fun _ _ => rfl, fun _ _ => rfl⟩
  have hT4 : ∀ c, exist w c = true →
      ((if lessThan res rM = true then passed nb (fun c _ => { c with best := c.sol }) F3 else F3) c).typ = T c := by
    intro c e
    split
    · exact (passed_typ u3 c).trans (hT3 c e)
    · exact hT3 c e
  have h4 : ∃ s4, (if lessThan res rM = true then solveCells (fun c _ => { c with best := c.sol }) info s3 else .ok s3) = .ok s4 ∧
      Copied g dflt maxTag w pView (if lessThan res rM = true then passed nb (fun c _ => { c with best := c.sol }) F3 else F3) s4 := by
    split
    · exact near_pass hw hn hc hT3 u3 c2
    · exact ⟨s3, rfl, c2⟩
  obtain ⟨s4, d1, d2⟩ := h4
  rw [d1, Out.bind_ok]
  generalize hF4 : (if lessThan res rM = true then passed nb (fun c _ => { c with best := c.sol }) F3 else F3) = F4 at *
  generalize hm : (if lessThan res rM = true then res else rM.getD res) = m at *
  by_cases hs : (res ≤ a.stopRes ∧ a.minIter ≤ it + 1) ∨ (a.stopInc * m ≤ res ∧ a.minIter ≤ it + 1)
  · rw [if_pos hs, if_pos hs]
    exact ⟨_, rfl, d2.weaken fun x y e => (Prod.mk.inj e).1, hc, hT4, rfl, rfl, rfl⟩
  rw [if_neg hs, if_neg hs]
  have u5 : Uses pView fun c _ => { c with r0 := c.r0 - dR / dotP * c.ap } := ⟨fun _ _ _ _ => rfl, fun _ _ => rfl, fun _ _ => rfl⟩
  obtain ⟨s5, f1, f2⟩ := near_pass hw hn hc hT4 u5 d2
  have hT5 := fun c e => (passed_typ (nb := nb) (F := F4) u5 c).trans (hT4 c e)
  have u6 : Uses pView fun c l => { c with r1 := c.r1 - dR / dotP * timesAT (·.p1) c l } :=
    ⟨fun c l l' e => by
      rw [timesAT_only (v := pView) _ ⟨fun y => y.2.2, fun _ => rfl⟩ ⟨fun y => y.1, fun _ => rfl⟩ c e], fun _ _ => rfl, fun _ _ => rfl⟩
  obtain ⟨s6, g1, g2⟩ := near_pass hw hn hc hT5 u6 f2
  have hT6 := fun c e => (passed_typ (nb := nb) u6 c).trans (hT5 c e)
  rw [f1, Out.bind_ok, g1, Out.bind_ok]
  generalize hF6 : passed nb (fun c l => { c with r1 := c.r1 - dR / dotP * timesAT (·.p1) c l })
    (passed nb (fun c _ => { c with r0 := c.r0 - dR / dotP * c.ap }) F4) = F6 at *
  by_cases hd : dR = 0
  · rw [if_pos hd, if_pos hd]
    exact ⟨_, rfl, g2.weaken fun x y e => (Prod.mk.inj e).1, hc, hT6, rfl, rfl, rfl⟩
  rw [if_neg hd, if_neg hd, near_sum hc hT6 g2, Out.bind_ok]
  generalize hdd : gSum g (exist w) false (fun c => c.r0 * c.r1) F6 = d at *
  have u7 : Uses (fun a : PoissonCell => a.f) fun c _ => { c with p0 := c.r0 + d / dR * c.p0, p1 := c.r1 + d / dR * c.p1 } :=
    ⟨fun _ _ _ _ => rfl, fun _ _ => rfl, fun _ _ => rfl⟩
  obtain ⟨s7, i1, i2⟩ := near_pass hw hn hc hT6 u7 (g2.weaken (v' := fun a : PoissonCell => a.f) fun x y e => (Prod.mk.inj e).1)
  have hT7 := fun c e => (passed_typ (nb := nb) u7 c).trans (hT6 c e)
  rw [i1]
  exact ⟨_, rfl, i2, hc, hT7, rfl, rfl, rfl⟩

theorem poissonLoop_solves (hw : g.WF) (hn : 0 < n) (a : PParams) (k : Nat) {x : PState n W} {G : GState}
    (h : Solves g dflt maxTag w T nb x G) :
    ∃ y, poissonLoop g maxTag a k x = .ok y ∧ Solves g dflt maxTag w T nb y (gLoop g (exist w) nb a k G) := by
  induction k generalizing x G with
  | zero =>
    obtain ⟨y, h1, h2⟩ := poissonIter_solves hw hn a h
    exact ⟨y, by unfold poissonLoop; rw [h1]; rfl, h2⟩
  | succ k ih =>
    obtain ⟨y, h1, h2⟩ := poissonIter_solves hw hn a h
    unfold poissonLoop gLoop
    rw [h1, Out.bind_ok]
    simp only
    split
    · exact ih h2
    · exact ⟨y, rfl, h2⟩

theorem poissonSolve_holds (hw : g.WF) (hn : 0 < n) (h : Reachable g dflt maxTag s) (hi : Inv g w s)
    (hF : ∀ i c, w c = some i → (s i).data c = some (F c)) (len : Nat → V3 Rat) (a : PParams) (cells skip : Fin n → List Nat) :
    ∃ t, poissonSolve g maxTag len a cells skip s = .ok t ∧ Reachable g dflt maxTag t ∧ Inv g w t ∧
      ∀ i c, w c = some i → (t i).data c = some (gSolve g (exist w) len a (typeOf w cells skip) F c) := by
  obtain ⟨x, x1, x2, x3⟩ := cacheSystem_spec hw hn h hi hF len cells skip
  obtain ⟨y, y1, y2⟩ := startPoisson_solves hw hn x2 x3 fun c _ => cachedField_typ ..
  obtain ⟨z, z1, z2⟩ := poissonLoop_solves hw hn a a.maxIter y2
  obtain ⟨t, t1, t2⟩ := near_pass hw hn z2.cached z2.typ (P := fun c _ => { c with sol := c.best })
    ⟨fun _ _ _ _ => rfl, fun _ _ => rfl, fun _ _ => rfl⟩ z2.copied
  refine ⟨t, ?_, t2.reach, t2.inv, t2.own⟩
  unfold poissonSolve
  rw [x1, Out.bind_ok, y1, Out.bind_ok, z1, Out.bind_ok]
  exact t1

/-- What solving does not change. -/
structure SolveKept (F F' : Nat → PoissonCell) : Prop where
  typ : ∀ c, (F' c).typ = (F c).typ
  rhs : ∀ c, (F' c).rhs = (F c).rhs
  rest : ∀ c, (F c).typ ≠ 0 → F' c = F c

theorem SolveKept.trans {F1 F2 F3 : Nat → PoissonCell} (h : SolveKept F1 F2) (h' : SolveKept F2 F3) : SolveKept F1 F3 :=
  ⟨fun c => (h'.typ c).trans (h.typ c), fun c => (h'.rhs c).trans (h.rhs c), fun c hc =>
    (h'.rest c (by rw [h.typ]; exact hc)).trans (h.rest c hc)⟩

theorem passed_kept {P : PoissonCell → List (PoissonCell × Int × Int) → PoissonCell} (hP : ∀ a l, (P a l).typ = a.typ ∧ (P a l).rhs = a.rhs) :
    SolveKept F (passed nb P F) := by
  refine ⟨fun c => ?_, fun c => ?_, fun c hc => ?_⟩
  · unfold passed; split
    · exact (hP _ _).1
    · rfl
  · unfold passed; split
    · exact (hP _ _).2
    · rfl
  · unfold passed; rw [if_neg hc]

theorem gIter_kept (E : Nat → Bool) (a : PParams) (x : GState) : SolveKept x.F (gIter g E nb a x).1.F := by
  have k : ∀ {P : PoissonCell → List (PoissonCell × Int × Int) → PoissonCell} {F : Nat → PoissonCell},
      (∀ a l, (P a l).typ = a.typ ∧ (P a l).rhs = a.rhs) → SolveKept F (passed nb P F) := passed_kept
  unfold gIter
  simp only
  split
  · dsimp only
    refine k ?_
    exact fun _ _ => ⟨rfl, rfl⟩
  refine (k (P := fun c l => { c with ap := timesA (·.p0) c l }) fun _ _ => ⟨rfl, rfl⟩).trans ?_
  generalize passed nb (fun c l => { c with ap := timesA (·.p0) c l }) x.F = F2
  generalize gSum g E false (fun c => c.p1 * c.ap) F2 = dotP
  refine (k (P := fun c _ => { c with sol := c.sol + x.dotR / dotP * c.p0 }) fun _ _ => ⟨rfl, rfl⟩).trans ?_
  generalize passed nb (fun c _ => { c with sol := c.sol + x.dotR / dotP * c.p0 }) F2 = F3
  generalize a.root (gSum g E true (fun c => a.pow c.r0.abs) F3) = res
  have h4 : SolveKept F3 (if lessThan res x.resMin = true then passed nb (fun c _ => { c with best := c.sol }) F3 else F3) := by
    split
    · exact k fun _ _ => ⟨rfl, rfl⟩
    · exact ⟨fun _ => rfl, fun _ => rfl, fun _ _ => rfl⟩
  refine h4.trans ?_
  generalize (if lessThan res x.resMin = true then passed nb (fun c _ => { c with best := c.sol }) F3 else F3) = F4
  generalize (if lessThan res x.resMin = true then res else x.resMin.getD res) = m
  split
  · exact ⟨fun _ => rfl, fun _ => rfl, fun _ _ => rfl⟩
  have h6 := (k (P := fun c _ => { c with r0 := c.r0 - x.dotR / dotP * c.ap }) (F := F4) fun _ _ => ⟨rfl, rfl⟩).trans
    (k (P := fun c l => { c with r1 := c.r1 - x.dotR / dotP * timesAT (·.p1) c l }) fun _ _ => ⟨rfl, rfl⟩)
  split
  · exact h6
  · refine h6.trans ?_
    dsimp only
    refine k ?_
    exact fun _ _ => ⟨rfl, rfl⟩

theorem gLoop_kept (E : Nat → Bool) (a : PParams) (k : Nat) (x : GState) : SolveKept x.F (gLoop g E nb a k x).F := by
  induction k generalizing x with
  | zero => exact gIter_kept E a x
  | succ k ih =>
    unfold gLoop
    split
    · exact (gIter_kept E a x).trans (ih _)
    · exact gIter_kept E a x

/-- Two grids with the same cells and data. -/
theorem same_field {n' : Nat} {W' : Type} {dflt' : PoissonCell} {maxTag' : Nat} {s' : Sys n' PoissonCell W'} (hw : g.WF)
    (hn : 0 < n) (hn' : 0 < n') (h : Reachable g dflt maxTag s) (h' : Reachable g dflt' maxTag' s') (hs : SameData s s')
    {cells skip : Fin n → List Nat} {cells' skip' : Fin n' → List Nat}
    (hc : ∀ i j c, (s i).owner c = some i → (s' j).owner c = some j →
      (c ∈ cells i ↔ c ∈ cells' j) ∧ (c ∈ skip i ↔ c ∈ skip' j)) :
    ∃ (w : Owner n) (w' : Owner n') (F : Nat → PoissonCell), Inv g w s ∧ Inv g w' s' ∧ exist w = exist w' ∧
      typeOf w cells skip = typeOf w' cells' skip' ∧ (∀ i c, w c = some i → (s i).data c = some (F c)) ∧
      (∀ i c, w' c = some i → (s' i).data c = some (F c)) := by
  obtain ⟨w, hi⟩ := h.inv hw hn
  obtain ⟨w', hi'⟩ := h'.inv hw hn'
  obtain ⟨u, hu, hu'⟩ := hs.holds hi hi' hn hn'
  have hE : exist w = exist w' := by
    funext c
    have := hs.1 ⟨0, hn⟩ ⟨0, hn'⟩ c
    rw [hi.sys.owner, hi'.sys.owner] at this
    exact this
  have hT : typeOf w cells skip = typeOf w' cells' skip' := by
    funext c
    have he := congrFun hE c
    unfold typeOf
    cases e : w c with
    | none =>
      have : w' c = none := by
        unfold exist at he
        rw [e] at he
        exact Option.not_isSome_iff_eq_none.1 (by rw [← he]; simp)
      rw [this]
    | some i =>
      have : exist w' c = true := by rw [← he]; exact exist_of e
      obtain ⟨j, e'⟩ := Option.isSome_iff_exists.1 this
      rw [e']
      obtain ⟨h1, h2⟩ := hc i j c (by rw [hi.sys.owner]; exact e) (by rw [hi'.sys.owner]; exact e')
      simp only [h1, h2]
  have own : ∀ i c, w c = some i → (s i).data c = some ((u c).getD dflt) := by
    intro i c e
    rw [((hu i c).1 i (by rw [hi.sys.owner]; exact e)).2]
    have := (hi.access_own e).2
    rw [((hu i c).1 i (by rw [hi.sys.owner]; exact e)).2] at this
    cases hx : u c with
    | none => exact absurd hx this
    | some x => rfl
  have own' : ∀ i c, w' c = some i → (s' i).data c = some ((u c).getD dflt) := by
    intro i c e
    rw [((hu' i c).1 i (by rw [hi'.sys.owner]; exact e)).2]
    have := (hi'.access_own e).2
    rw [((hu' i c).1 i (by rw [hi'.sys.owner]; exact e)).2] at this
    cases hx : u c with
    | none => exact absurd hx this
    | some x => rfl
  exact ⟨w, w', _, hi, hi', hE, hT, own, own'⟩

/-- C124: the solver can always be used, and the results do not depend on the number of processes nor on which cells they have:
if the same cells with the same data exist and lists of cells to solve and to skip given on the processes of cells are the
same then data of all cells is the same after solving. -/
theorem C124_same_results {n' : Nat} {W' : Type} {dflt' : PoissonCell} {maxTag' : Nat} {s' : Sys n' PoissonCell W'} (hw : g.WF)
    (hn : 0 < n) (hn' : 0 < n') (h : Reachable g dflt maxTag s) (h' : Reachable g dflt' maxTag' s') (hs : SameData s s')
    (len : Nat → V3 Rat) (a : PParams) {cells skip : Fin n → List Nat} {cells' skip' : Fin n' → List Nat}
    (hc : ∀ i j c, (s i).owner c = some i → (s' j).owner c = some j →
      (c ∈ cells i ↔ c ∈ cells' j) ∧ (c ∈ skip i ↔ c ∈ skip' j)) :
    ∃ t t', poissonSolve g maxTag len a cells skip s = .ok t ∧ poissonSolve g maxTag' len a cells' skip' s' = .ok t' ∧
      Reachable g dflt maxTag t ∧ Reachable g dflt' maxTag' t' ∧ SameData t t' := by
  obtain ⟨w, w', F, hi, hi', hE, hT, own, own'⟩ := same_field hw hn hn' h h' hs hc
  obtain ⟨t, t1, t2, t3, t4⟩ := poissonSolve_holds hw hn h hi own len a cells skip
  obtain ⟨t', t1', t2', t3', t4'⟩ := poissonSolve_holds hw hn' h' hi' own' len a cells' skip'
  refine ⟨t, t', t1, t1', t2, t2', fun i j c => ?_, fun i j c e e' => ?_⟩
  · rw [t3.sys.owner, t3'.sys.owner, hE]
  · rw [t3.sys.owner] at e
    rw [t3'.sys.owner] at e'
    rw [(t3.access_own e).1, (t3'.access_own e').1, t4 i c e, t4' j c e', hE, hT]

/-- C124: solving does not change which cells exist nor where they are. It does not change right hand sides, and changes
solutions only in cells to solve, not in boundary cells nor in cells to skip. -/
theorem C124_rest (hw : g.WF) (hn : 0 < n) (h : Reachable g dflt maxTag s) (len : Nat → V3 Rat) (a : PParams)
    (cells skip : Fin n → List Nat) :
    ∃ t, poissonSolve g maxTag len a cells skip s = .ok t ∧ ∀ i, (t i).owner = (s i).owner ∧
      ∀ c, (s i).owner c = some i → ∃ x y, access (s i) c = some x ∧ access (t i) c = some y ∧ y.rhs = x.rhs ∧
        (c ∉ cells i → y.sol = x.sol) := by
  obtain ⟨w, hi⟩ := h.inv hw hn
  have own : ∀ i c, w c = some i → (s i).data c = some ((fun c => (((w c).bind fun i => (s i).data c).getD dflt)) c) := by
    intro i c e
    have := (hi.access_own e).2
    show _ = some (((w c).bind fun i => (s i).data c).getD dflt)
    rw [e]
    show _ = some (((s i).data c).getD dflt)
    cases hx : (s i).data c with
    | none => exact absurd hx this
    | some x => rfl
  obtain ⟨t, t1, t2, t3, t4⟩ := poissonSolve_holds hw hn h hi own len a cells skip
  refine ⟨t, t1, fun i => ⟨by rw [t3.sys.owner, hi.sys.owner], fun c e => ?_⟩⟩
  rw [hi.sys.owner] at e
  refine ⟨_, _, access_data (own i c e), access_data (t4 i c e), ?_⟩
  generalize (fun c => (((w c).bind fun i => (s i).data c).getD dflt)) = F
  have k1 : ∀ F', SolveKept F' (passed (solveNbrs g (exist w) (typeOf w cells skip)) (fun c _ => { c with sol := c.best })
      (gLoop g (exist w) (solveNbrs g (exist w) (typeOf w cells skip)) a a.maxIter
        (gStart g (exist w) (solveNbrs g (exist w) (typeOf w cells skip)) F')).F) := by
    intro F'
    refine SolveKept.trans ?_ (passed_kept fun _ _ => ⟨rfl, rfl⟩)
    refine SolveKept.trans ?_ (gLoop_kept _ _ _ _)
    exact passed_kept fun _ _ => ⟨rfl, rfl⟩
  have k2 := k1 (cachedField g (exist w) len (typeOf w cells skip) fun c => { F c with typ := typeOf w cells skip c })
  have hr : ∀ c, (cachedField g (exist w) len (typeOf w cells skip) (fun c => { F c with typ := typeOf w cells skip c }) c).rhs = (F c).rhs ∧
      (cachedField g (exist w) len (typeOf w cells skip) (fun c => { F c with typ := typeOf w cells skip c }) c).sol = (F c).sol := by
    intro c
    unfold cachedField
    split
    · exact ⟨rfl, rfl⟩
    · split <;> exact ⟨rfl, rfl⟩
  refine ⟨(k2.rhs c).trans (hr c).1, fun hcc => ?_⟩
  unfold gSolve
  rw [k2.rest c]
  · exact (hr c).2
  rw [cachedField_typ]
  unfold finalType
  split
  · decide
  · unfold typeOf
    rw [e]
    show (if c ∈ cells i then _ else _) ≠ 0
    rw [if_neg hcc]
    split <;> decide

/-! ## Witnesses -/

/-- A cell with given right hand side and solution. -/
def poissonCell (rhs sol : Rat) : PoissonCell := ⟨rhs, sol, 0, 0, 0, 0, 0, 0, 0, fun _ => 0, 0⟩

/-- Parameters with norm 1. -/
def poissonParams (stopRes : Rat) : PParams := ⟨10, 0, stopRes, 10, fun x => x, fun x => x⟩

/-- A grid of two cells on any number of processes with any data. -/
theorem poissonDemo_start (hn : 0 < n) (F : Nat → PoissonCell) : ∃ s : Sys n PoissonCell Nat,
    Reachable tinyG (poissonCell 0 0) 146 s ∧ Inv tinyG (createLevel0 n 2).2 s ∧
    ∀ i c, (createLevel0 n 2).2 c = some i → (s i).data c = some (F c) := by
  obtain ⟨s, h1, hx, hy⟩ := createGrid_spec (n := n) (W := Nat) (maxTag := 146) tiny_wf hn (poissonCell 0 0)
    (fitsTags_mono (by rw [tiny_last]; exact Nat.le_refl _)
      (fitsTags_last (createLevel0_tiled tiny_wf hn).valid))
  have htot : tinyG.total = 2 := by decide
  rw [htot] at hx hy
  have hr : Reachable tinyG (poissonCell 0 0) 146 s := .init h1
  have hr' : Reachable tinyG (poissonCell 0 0) 146 fun i => { s i with data := fun c => ((s i).data c).map fun _ => F c } :=
    reachable_data tiny_wf hr (fun i => rfl) fun i c => by
      show (((s i).data c).map fun _ => F c).isSome = _
      rw [Option.isSome_map]
  refine ⟨_, hr', inv_of tiny_wf hn hr' fun i => hx.owner i, fun i c hc => ?_⟩
  show ((s i).data c).map _ = _
  have hi : Inv tinyG (createLevel0 n 2).2 s := inv_of tiny_wf hn hr hx.owner
  obtain ⟨x, e⟩ := Option.ne_none_iff_exists'.1 (hi.access_own hc).2
  rw [e]; rfl

theorem demo_exist (hn : 0 < n) : exist (createLevel0 n 2).2 = fun c => decide (1 ≤ c ∧ c ≤ 2) := by
  funext c
  rw [Bool.eq_iff_iff, createLevel0_exist hn, decide_eq_true_eq]

/-- Hypotheses of theorems are met on two processes and on one process by a grid of two cells where the solution is 1/2 in cell 2
and cell 1 is solved with right hand side 2, and then the solution in cell 1 is -3/2. -/
example : ∃ (s t : Sys 2 PoissonCell Nat) (s' t' : Sys 1 PoissonCell Nat), Reachable tinyG (poissonCell 0 0) 146 s ∧
    Reachable tinyG (poissonCell 0 0) 146 s' ∧ SameData s s' ∧ (s 0).owner 1 = some 0 ∧ (s 1).owner 2 = some 1 ∧
    poissonSolve tinyG 146 (fun _ _ => 1) (poissonParams 0) (fun _ => [1]) (fun _ => []) s = .ok t ∧
    poissonSolve tinyG 146 (fun _ _ => 1) (poissonParams 0) (fun _ => [1]) (fun _ => []) s' = .ok t' ∧
    (access (t 0) 1).map (·.sol) = some (-3 / 2) ∧ (access (t' 0) 1).map (·.sol) = some (-3 / 2) := by
  obtain ⟨s, h1, h2, h3⟩ := poissonDemo_start (n := 2) (by decide) fun c => if c = 1 then poissonCell 2 0 else poissonCell 0 (1 / 2)
  obtain ⟨s', h1', h2', h3'⟩ := poissonDemo_start (n := 1) (by decide) fun c => if c = 1 then poissonCell 2 0 else poissonCell 0 (1 / 2)
  have hs : SameData s s' := by
    refine ⟨fun i j c => ?_, fun i j c e e' => ?_⟩
    · rw [h2.sys.owner, h2'.sys.owner, demo_exist (by decide), demo_exist (by decide)]
    · rw [h2.sys.owner] at e
      rw [h2'.sys.owner] at e'
      rw [access_data (h3 i c e), access_data (h3' j c e')]
  obtain ⟨t, t', a1, a2, a3, a4, a5⟩ := C124_same_results tiny_wf (by decide) (by decide) h1 h1' hs (fun _ _ => 1) (poissonParams 0)
    (cells := fun _ => [1]) (skip := fun _ => []) (cells' := fun _ => [1]) (skip' := fun _ => []) (fun _ _ _ _ _ => ⟨Iff.rfl, Iff.rfl⟩)
  have e1 : (createLevel0 2 2).2 1 = some 0 := by decide
  have e2 : (createLevel0 2 2).2 2 = some 1 := by decide
  have e1' : (createLevel0 1 2).2 1 = some 0 := by decide
  obtain ⟨t0, b1, -, b3, b4⟩ := poissonSolve_holds tiny_wf (by decide) h1 h2 h3 (fun _ _ => 1) (poissonParams 0) (fun _ => [1]) (fun _ => [])
  have et : t0 = t := by
    rw [a1] at b1
    injection b1 with b1; exact b1.symm
  subst et
  have hv : (access (t0 0) 1).map (·.sol) = some (-3 / 2) := by
    rw [access_data (b4 0 1 e1), demo_exist (by decide)]
    have hT : typeOf (createLevel0 2 2).2 (fun _ => [1]) (fun _ => []) = fun c => if c = 1 then 0 else 1 := by
      funext c
      unfold typeOf
      by_cases hc : c = 1
      · subst hc; rfl
      · cases (createLevel0 2 2).2 c <;> simp [hc]
    rw [hT]
    have : (gSolve tinyG (fun c => decide (1 ≤ c ∧ c ≤ 2)) (fun _ _ => 1) (poissonParams 0) (fun c => if c = 1 then 0 else 1)
      (fun c => if c = 1 then poissonCell 2 0 else poissonCell 0 (1 / 2)) 1).sol = -3 / 2 := by decide +kernel
    exact congrArg some this
  refine ⟨s, t0, s', t', h1, h1', hs, by rw [h2.sys.owner]; exact e1, by rw [h2.sys.owner]; exact e2, a1, a2, hv, ?_⟩
  have ht : (t' 0).owner 1 = some 0 := by
    obtain ⟨t1, k1, k2⟩ := C124_rest tiny_wf (by decide) h1' (fun _ _ => 1) (poissonParams 0) (fun _ => [1]) (fun _ => [])
    rw [a2] at k1
    injection k1 with k1
    subst k1
    rw [(k2 0).1, h2'.sys.owner]; exact e1'
  rw [← a5.2 0 0 1 (by rw [b3.sys.owner]; exact e1) ht]
  exact hv

end Dccrg
