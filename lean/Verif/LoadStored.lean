import Verif.StoredHist
import Verif.LoadGrid
import Verif.Props.LoadGrid
/-!
# Loaded grids with what is stored

What processes store when a grid is loaded, and what can be done with the grid after that.
-/
namespace Dccrg
open Cfg
variable {n : Nat} {D W : Type} {g : Cfg} {dflt : D} {maxTag : Nat}

/-- What `start_loading_grid_data` stores before `load_cells` (dccrg.hpp:2058-2069): as `initialize` but iterators are not
made. `p` is the process after that. -/
def startStore (g : Cfg) (maxTag : Nat) (i : Fin n) (p : Proc n D W) : Out (Store n) :=
  let σ : Store n := { Store.empty n with six := updateSix g p.owner }
  (initLists g p.owner σ).bind fun σ =>
  (updateInfo g i p σ).bind fun σ =>
  updateSends maxTag i p σ

/-- Operations one after another. -/
def runStored (g : Cfg) (dflt : D) (maxTag : Nat) : Sys n D W → (Fin n → Store n) → List (Op n D W) →
    Out (Sys n D W × (Fin n → Store n))
  | s, σ, [] => .ok (s, σ)
  | s, σ, op :: ops => (stepStored g dflt maxTag s σ op).bind fun x => runStored g dflt maxTag x.1 x.2 ops

/-- `startLoading` with what is stored. -/
def startLoadingStored (e : Order) (f : File) (off : Nat) (M0 : Meta) (dflt : D) (maxTag : Nat)
    (ord : Fin n → List Nat → List Nat) :
    Out (Option (Meta × Sys n D W × (Fin n → Store n) × (Fin n → List (Nat × Nat)))) :=
  match readMeta e f off M0 with
  | none => .ok none
  | some (M, o) =>
    (createGrid M.grid n dflt maxTag).bind fun s =>
    (Out.collect fun i => startStore M.grid maxTag i (s i)).bind fun σ =>
    let total := dec e (f.get o 8)
    if 2 * total > intMax then .throws
    else
      let all := pairsOf (dec64 e (2 * total) (f.get (o + 8) (2 * total * 8)))
      if all.any (fun x => x.1 == 0) then .throws
      else
        let mine := fun i => all.filter fun x => overlapsLocal M.grid i (s i).owner x.1
        (runStored M.grid dflt maxTag (noCopies s) σ
          (loadOps M.grid ord (noCopies s) fun i => (mine i).map Prod.fst)).bind fun x =>
        if ∃ i, localCount M.grid (x.1 i) ≠ (mine i).length then .throws
        else .ok (some (M, x.1, x.2, mine))

/-- `load` with what is stored. -/
def loadStored (e : Order) (f : File) (off : Nat) (header : Piece) (M0 : Meta) (dflt : D) (maxTag : Nat)
    (ord : Fin n → List Nat → List Nat) (K : CellClass D) (calls : Nat) :
    Out (Option (List Nat × Meta × Sys n D W × (Fin n → Store n))) :=
  if header.size * header.count > intMax then .throws
  else
    (startLoadingStored e f (off + header.size * header.count) M0 dflt maxTag ord).bind fun r =>
    match r with
    | none => .ok none
    | some (M, s, σ, l) =>
      (continueAll K f calls s l).bind fun s' => .ok (some (f.read off header.bytes, M, s', σ))

/-- Grids that have been started to be loaded and then changed in any way, with what is stored. Flag `m` tells whether
iterators of the default neighborhood have been made after that: by `stop_refining`, `balance_load` or copy
construction. Flag `b` is as in `WithStore`. `fill` are changes of data of cells by `continue_loading_grid_data`. -/
inductive Loaded {n : Nat} {W : Type} (g : Cfg) :
    {D : Type} → D → Nat → Sys n D W → (Fin n → Store n) → Bool → Bool → Prop
  | start {D : Type} {dflt : D} {maxTag : Nat} {s : Sys n D W} {σ : Fin n → Store n} :
      createGrid g n dflt maxTag = .ok s → (Out.collect fun i => startStore g maxTag i (s i)) = .ok σ →
      Loaded g dflt maxTag (noCopies s) σ false true
  | step {D : Type} {dflt : D} {maxTag : Nat} {s s' : Sys n D W} {σ σ' : Fin n → Store n} {m b : Bool} (op : Op n D W) :
      Loaded g dflt maxTag s σ m b → op.Ok s → stepStored g dflt maxTag s σ op = .ok (s', σ') →
      Loaded g dflt maxTag s' σ' (op.makes m) (op.makes b)
  | copy {D D0 : Type} {dflt : D} {dflt0 : D0} {maxTag : Nat} {s : Sys n D0 W} {σ σ' : Fin n → Store n} {m b : Bool} :
      Loaded g dflt0 maxTag s σ m b →
      (Out.collect fun i => copyStore g (copyProc g dflt i (s i)) (σ i)) = .ok σ' →
      Loaded g dflt maxTag (copyGrid g dflt s) σ' true false
  | fill {D : Type} {dflt : D} {maxTag : Nat} {s : Sys n D W} {σ : Fin n → Store n} {m b : Bool} (fin : Nat → D) :
      Loaded g dflt maxTag s σ m b →
      Loaded g dflt maxTag (fun i => { s i with data := fun c => ((s i).data c).map fun _ => fin c }) σ m b

/-! ## What is stored -/

theorem startStore_ok {w : Owner n} {i : Fin n} {p : Proc n D W} (hw : g.WF) (hg : Good g w maxTag i p) (hno : p.hoods = []) :
    ∃ σ', startStore g maxTag i p = .ok σ' ∧ Coherent g i p σ' true (some Cache.none) := by
  have ho := hg.owner
  have hl : ∀ {β : Type} (f : List (V3 Int) → β), (fun id => (p.hoods.lookup id).map f) = fun _ => none := by
    intro β f; funext id; rw [hno]; rfl
  have main : ∀ σ, Half g i p σ (some Cache.none) → (σ.userPtr = fun _ => none) → Coherent g i p σ true (some Cache.none) := by
    intro σ h1 h2
    refine h1.coherent ?_ ?_
    · intro id k h
      have h : σ.userPtr id = some k := h
      rw [h2] at h; cases h
    · intro _ id h; rw [hno] at h; cases h
  unfold startStore
  simp only []
  rw [ho, updateSix_eq hw hg.tiled, initLists_eq hw hg.tiled hg.balanced rfl rfl rfl, Out.bind_ok,
    updateInfo_eq' hw hg.tiled hg.balanced (fun o h => h) ho hg.placed rfl rfl, Out.bind_ok,
    updateSends_eq hw hg rfl rfl rfl (hl _).symm (hl _).symm (hl _).symm (fun _ _ => rfl) (fun _ _ => rfl)]
  refine ⟨_, rfl, main _ ⟨?_, nofun, ?_⟩ rfl⟩
  · constructor <;> first | rfl | (simp only [ho]; done) | exact (hl _).symm
  · intro k hk; injection hk

theorem storeAfter_noCopies (op : Op n D W) (i : Fin n) (p p' : Proc n D W) (r : Nat → Option D) (σ : Store n) :
    storeAfter g maxTag op i { p with remote := r } p' σ = storeAfter g maxTag op i p p' σ := by
  cases op <;> rfl

theorem storeAfter_keeps {s : Sys n D W} {op : Op n D W} (hk : op.keeps g s) (i : Fin n) (p' : Proc n D W) (r : Nat → Option D)
    (σ : Store n) : storeAfter g maxTag op i (s i) { p' with remote := r } σ = storeAfter g maxTag op i (s i) p' σ := by
  cases op with
  | addHood id items =>
    unfold storeAfter
    simp only []
    rw [if_pos (hk i), if_pos (hk i)]
  | stop z => exact hk.elim
  | balance z => exact hk.elim
  | _ => rfl

/-- Cells do not change while iterators are not made. -/
theorem exists_unmade (hw : g.WF) {s s' : Sys n D W} {w : Owner n} (hi : Inv g w s) {op : Op n D W}
    (hs : step g dflt maxTag s op = .ok s') (hm : op.makes false = false) (i : Fin n) : (s' i).owner = (s i).owner := by
  cases hp : op.plain with
  | true => exact (step_plain hw hi hp hs i).1
  | false =>
    cases op with
    | addHood id items =>
      obtain ⟨r, h1, h2⟩ := Out.bind_inv hs
      injection h2 with h2; subst h2
      have h3 := addHood_inv (b := (r i).1) (p' := (r i).2) (Out.collect_inv h1 i)
      show (r i).2.owner = _
      cases hb : (r i).1 with
      | false => rw [h3.2.1 hb]
      | true => rw [h3.2.2 hb]
    | removeHood id =>
      injection hs with hs; subst hs
      show (Dccrg.removeHood (s i) id).owner = _
      unfold Dccrg.removeHood
      split <;> rfl
    | stop z => cases hm
    | balance z => cases hm
    | _ => cases hp

theorem createGrid_hoods (hw : g.WF) (hn : 0 < n) {s : Sys n D W} (hs : createGrid g n dflt maxTag = .ok s) (i : Fin n) :
    (s i).hoods = [] := (createGrid_bare hw hn hs).hoods i

/-- A grid that could have been made without loading, or such a grid without copies of remote neighbors; stored lists are up
to date, and so are iterators if they have been made. -/
def LoadSpec (g : Cfg) (dflt : D) (maxTag : Nat) (s : Sys n D W) (σ : Fin n → Store n) (m b : Bool) : Prop :=
  ∃ s0, Reachable g dflt maxTag s0 ∧ (s = s0 ∨ (m = false ∧ Bare g dflt s0 ∧ s = noCopies s0)) ∧
    (m = false → ∀ i c, exist (s i).owner c = true → g.lvl c = 0) ∧
    ∀ i, Coherent g i (s0 i) (σ i) b (if m then none else some Cache.none)

theorem LoadSpec.step (hw : g.WF) {s s1 : Sys n D W} {σ : Fin n → Store n} {m b : Bool}
    (h : LoadSpec g dflt maxTag s σ m b) {op : Op n D W} (ho : op.Ok s) (h1 : step g dflt maxTag s op = .ok s1) :
    ∃ σ', (Out.collect fun i => storeAfter g maxTag op i (s i) (s1 i) (σ i)) = .ok σ' ∧
      LoadSpec g dflt maxTag s1 σ' (op.makes m) (op.makes b) := by
  obtain ⟨s0, hr, hcase, hlv, hc⟩ := h
  have hlvl : ∀ {t t' : Sys n D W}, Reachable g dflt maxTag t → Dccrg.step g dflt maxTag t op = .ok t' →
      (∀ i, (t i).owner = (s i).owner) → op.makes m = false → ∀ i c, exist (t' i).owner c = true → g.lvl c = 0 := by
    intro t t' ht hs' ho' hm' i c hc'
    have e : op.makes false = false := by
      cases op <;> first | rfl | exact Bool.noConfusion (show true = false from hm')
    obtain ⟨w', hi'⟩ := ht.inv hw (by have := i.2; omega)
    rw [exists_unmade hw hi' hs' e i, ho'] at hc'
    have : m = false := by cases m with
      | false => rfl
      | true => cases op <;> cases hm'
    exact hlv this i c hc'
  have hflag : (if op.makes m = true then none else some Cache.none) =
      if op.makes false then none else if m then none else some Cache.none := by
    cases op <;> cases m <;> rfl
  have same : ∀ s2, Dccrg.step g dflt maxTag s0 op = .ok s2 → op.Ok s0 → ∀ i, ∃ σ2,
      storeAfter g maxTag op i (s0 i) (s2 i) (σ i) = .ok σ2 ∧
      Coherent g i (s2 i) σ2 (op.makes b) (if op.makes m then none else some Cache.none) := by
    intro s2 hs2 ho2 i
    rw [hflag]
    exact storeAfter_ok hw hr ho2 hs2 (hc i)
  rcases hcase with e | ⟨hmf, hbare, e⟩
  · subst e
    obtain ⟨σ', e1, e2⟩ := Out.collect_all (same s1 h1 ho)
    exact ⟨σ', e1, s1, .step op hr ho h1, Or.inl rfl, fun e => hlvl hr h1 (fun _ => rfl) e, e2⟩
  · subst e
    have ho0 : op.Ok s0 := by cases op <;> exact ho
    rcases step_bare hw hr hbare h1 with h | ⟨s2, h, hb2, e, hk⟩ | ⟨e, j, c, v, rfl⟩
    · obtain ⟨σ', e1, e2⟩ := Out.collect_all (same s1 h ho0)
      refine ⟨σ', ?_, s1, .step op hr ho0 h, Or.inl rfl, fun e => hlvl hr h (fun _ => rfl) e, e2⟩
      rw [← e1]
      exact congrArg _ (funext fun i => storeAfter_noCopies op i (s0 i) (s1 i) (fun _ => none) (σ i))
    · have hl' := hlvl hr h (fun _ => rfl)
      have hm2 : op.makes m = false := by
        subst hmf
        cases op <;> first | rfl | exact hk.elim
      obtain ⟨σ', e1, e2⟩ := Out.collect_all (same s2 h ho0)
      refine ⟨σ', ?_, s2, .step op hr ho0 h, Or.inr ⟨hm2, hb2, e⟩, ?_, e2⟩
      · rw [← e1, e]
        exact congrArg _ (funext fun i => (storeAfter_noCopies op i (s0 i) _ (fun _ => none) (σ i)).trans
          (storeAfter_keeps hk i (s2 i) (fun _ => none) (σ i)))
      · rw [e]; exact hl'
    · refine ⟨σ, Out.collect_ok fun i => rfl, s0, hr, Or.inr ⟨hmf, hbare, e⟩, fun _ => ?_, fun i => hc i⟩
      rw [e]; exact hbare.lvl

theorem Loaded.spec (hw : g.WF) (hn : 0 < n) {s : Sys n D W} {σ : Fin n → Store n} {m b : Bool}
    (h : Loaded g dflt maxTag s σ m b) : LoadSpec g dflt maxTag s σ m b := by
  induction h with
  | @start D dflt maxTag s σ hs hc =>
    have hr : Reachable g dflt maxTag s := .init hs
    have hb := createGrid_bare hw hn hs
    refine ⟨s, hr, Or.inr ⟨rfl, hb, rfl⟩, fun _ => hb.lvl, fun i => ?_⟩
    obtain ⟨w, hg⟩ := hr.good hw i
    obtain ⟨σ', e1, e2⟩ := startStore_ok hw hg (hb.hoods i)
    rw [Out.collect_inv hc i] at e1
    injection e1 with e1
    rw [e1]; exact e2
  | @step D dflt maxTag s s' σ σ' m b op hst ho hs ih =>
    obtain ⟨s1, h1, h2⟩ := Out.bind_inv hs
    obtain ⟨σ1, h3, h4⟩ := Out.bind_inv h2
    injection h4 with h4
    injection h4 with h4 h5
    subst h4; subst h5
    obtain ⟨σ', e1, e2⟩ := ih.step hw ho h1
    rw [h3] at e1
    injection e1 with e1
    rw [e1]; exact e2
  | @copy D D0 dflt dflt0 maxTag s σ σ' m b hst hs ih =>
    obtain ⟨s0, hr, hcase, hlv, hc⟩ := ih
    have e : copyGrid g dflt s = copyGrid g dflt s0 := by
      rcases hcase with e | ⟨-, -, e⟩ <;> rw [e] <;> rfl
    have e' : ∀ i, copyProc g dflt i (s i) = copyProc g dflt i (s0 i) := by
      rcases hcase with e | ⟨-, -, e⟩ <;> rw [e] <;> exact fun _ => rfl
    have hr' : Reachable g dflt maxTag (copyGrid g dflt s0) := .copy hr
    refine ⟨copyGrid g dflt s0, hr', Or.inl e, nofun, fun i => ?_⟩
    obtain ⟨w, hg⟩ := hr'.good hw i
    obtain ⟨σ2, e1, e2⟩ := copyStore_ok hw (hc i) (dflt := dflt) hg
    have e3 := Out.collect_inv hs i
    simp only [e'] at e3
    rw [e1] at e3
    injection e3 with e3
    rw [← e3]; exact e2
  | @fill D dflt maxTag s σ m b fin hst ih =>
    obtain ⟨s0, hr, hcase, hlv, hc⟩ := ih
    have hr' := hr.fill hw hn fin
    have hh : ∀ i, ({ s0 i with data := fun c => ((s0 i).data c).map fun _ => fin c } : Proc n D W).has = (s0 i).has := by
      intro i; funext c; show (((s0 i).data c).map _).isSome = _; rw [Option.isSome_map]; rfl
    refine ⟨_, hr', ?_, hlv, fun i => ?_⟩
    · rcases hcase with e | ⟨h1, h2, e⟩
      · exact Or.inl (by rw [e])
      · refine Or.inr ⟨h1, ⟨h2.lvl, h2.hoods, fun i c => ?_, h2.refined, h2.unrefined⟩, by rw [e]; rfl⟩
        simp only [Option.isSome_map]
        exact h2.remote i c
    · obtain ⟨w, hg⟩ := hr.good hw i
      obtain ⟨w', hg'⟩ := hr'.good hw i
      have ew : w' = w := by rw [← hg'.owner, ← hg.owner]
      subst ew
      exact (hc i).same hw hg hg' rfl (hh i) rfl

theorem Loaded.inv (hw : g.WF) (hn : 0 < n) {s : Sys n D W} {σ : Fin n → Store n} {m b : Bool}
    (h : Loaded g dflt maxTag s σ m b) : ∃ w, Inv g w s := by
  obtain ⟨s0, hr, hcase, -⟩ := h.spec hw hn
  obtain ⟨w, hi⟩ := hr.inv hw hn
  rcases hcase with e | ⟨-, -, e⟩
  · rw [e]; exact ⟨w, hi⟩
  · rw [e]; exact ⟨w, hi.noCopies⟩

/-- Cells stay on the processes that created them while iterators are not made. -/
theorem Loaded.owners (hw : g.WF) (hn : 0 < n) {s : Sys n D W} {σ : Fin n → Store n} {m b : Bool}
    (h : Loaded g dflt maxTag s σ m b) : m = false → ∀ i, (s i).owner = (createLevel0 n g.total).2 := by
  induction h with
  | @start D dflt maxTag s σ hs hc =>
    intro _ i
    exact createGrid_owner hw hn hs i
  | @step D dflt maxTag s s' σ σ' m b op hst ho hs ih =>
    intro hm i
    obtain ⟨w, hi⟩ := hst.inv hw hn
    obtain ⟨s1, h1, h2⟩ := Out.bind_inv hs
    obtain ⟨σ1, -, h3⟩ := Out.bind_inv h2
    injection h3 with h3
    injection h3 with h3 h4
    subst h3
    have hm' : m = false := by cases m with
      | false => rfl
      | true => cases op <;> exact Bool.noConfusion (show true = false from hm)
    subst hm'
    rw [exists_unmade hw hi h1 hm i, ih rfl i]
  | copy => intro h; cases h
  | fill fin h ih => exact ih

/-- Nothing more can go wrong in operations than without what is stored. -/
theorem Loaded.progress (hw : g.WF) (hn : 0 < n) {s s' : Sys n D W} {σ : Fin n → Store n} {m b : Bool}
    (h : Loaded g dflt maxTag s σ m b) {op : Op n D W} (ho : op.Ok s) (hs : Dccrg.step g dflt maxTag s op = .ok s') :
    ∃ σ', stepStored g dflt maxTag s σ op = .ok (s', σ') ∧ Loaded g dflt maxTag s' σ' (op.makes m) (op.makes b) := by
  obtain ⟨σ', e1, -⟩ := (h.spec hw hn).step hw ho hs
  have e : stepStored g dflt maxTag s σ op = .ok (s', σ') := by
    unfold stepStored
    rw [hs, Out.bind_ok, e1, Out.bind_ok]
  exact ⟨σ', e, .step op h ho e⟩

/-! ## Loading -/

/-- Whether one of operations makes iterators. -/
def anyMakes : List (Op n D W) → Bool → Bool
  | [], m => m
  | op :: ops, m => anyMakes ops (op.makes m)

theorem run_loaded (hw : g.WF) (hn : 0 < n) {ops : List (Op n D W)} (hops : ∀ op ∈ ops, ∀ s, op.Ok s) {s s' : Sys n D W}
    {σ : Fin n → Store n} {m b : Bool} (h : Loaded g dflt maxTag s σ m b) (hs : run g dflt maxTag s ops = .ok s') :
    ∃ σ', runStored g dflt maxTag s σ ops = .ok (s', σ') ∧ Loaded g dflt maxTag s' σ' (anyMakes ops m) (anyMakes ops b) := by
  induction ops generalizing s σ m b with
  | nil =>
    injection hs with hs
    subst hs
    exact ⟨σ, rfl, h⟩
  | cons op ops ih =>
    obtain ⟨s1, h1, h2⟩ := Out.bind_inv hs
    obtain ⟨σ1, e1, e2⟩ := h.progress hw hn (hops op (List.mem_cons_self ..) s) h1
    obtain ⟨σ2, e3, e4⟩ := ih (fun o ho => hops o (List.mem_cons_of_mem _ ho)) e2 h2
    refine ⟨σ2, ?_, e4⟩
    rw [runStored, e1, Out.bind_ok]
    exact e3

theorem runStored_run {ops : List (Op n D W)} {s s' : Sys n D W} {σ σ' : Fin n → Store n}
    (h : runStored g dflt maxTag s σ ops = .ok (s', σ')) : run g dflt maxTag s ops = .ok s' := by
  induction ops generalizing s σ with
  | nil => injection h with h; injection h with h1 h2; rw [h1]; rfl
  | cons op ops ih =>
    obtain ⟨x, h1, h2⟩ := Out.bind_inv h
    obtain ⟨s1, h3, h4⟩ := Out.bind_inv h1
    obtain ⟨σ1, h5, h6⟩ := Out.bind_inv h4
    injection h6 with h6
    rw [run, h3, Out.bind_ok]
    rw [← h6] at h2
    exact ih h2

theorem anyMakes_append (a b : List (Op n D W)) (m : Bool) : anyMakes (a ++ b) m = anyMakes b (anyMakes a m) := by
  induction a generalizing m with
  | nil => rfl
  | cons op a ih => exact ih _

theorem anyMakes_true (l : List (Op n D W)) : anyMakes l true = true := by
  induction l with
  | nil => rfl
  | cons op l ih =>
    show anyMakes l (op.makes true) = true
    have : op.makes true = true := by cases op <;> rfl
    rw [this]; exact ih

theorem anyMakes_level (par : Fin n → List Nat) (l : List (Op n D W)) (m : Bool) : anyMakes (loadLevel par ++ l) m = true := by
  unfold loadLevel
  rw [anyMakes_append, anyMakes_append]
  show anyMakes l (anyMakes _ true) = true
  rw [anyMakes_true, anyMakes_true]

theorem loadOps_ok (ord : Fin n → List Nat → List Nat) (s : Sys n D W) (given : Fin n → List Nat) :
    ∀ op ∈ loadOps g ord s given, ∀ s' : Sys n D W, op.Ok s' := by
  intro op hop s'
  unfold loadOps loadLevel at hop
  simp only [List.mem_flatMap, List.mem_append, List.mem_cons, List.mem_map] at hop
  obtain ⟨l, -, (⟨i, -, c, -, rfl⟩ | rfl | ⟨i, -, rfl⟩)⟩ := hop <;> exact trivial

theorem foldl_max_pos {α : Type} {f : α → Nat} {l : List α} {m : Nat} (h : m < l.foldl (fun m c => max (f c) m) m) :
    ∃ c ∈ l, 0 < f c := by
  induction l generalizing m with
  | nil => exact absurd h (Nat.lt_irrefl _)
  | cons a l ih =>
    rw [List.foldl_cons] at h
    by_cases ha : 0 < f a
    · exact ⟨a, List.mem_cons_self .., ha⟩
    · have : max (f a) m = m := by omega
      rw [this] at h
      obtain ⟨c, h1, h2⟩ := ih h
      exact ⟨c, List.mem_cons_of_mem _ h1, h2⟩

theorem anyMakes_loadOps (ord : Fin n → List Nat → List Nat) (s : Sys n D W) (given : Fin n → List Nat) :
    anyMakes (loadOps g ord s given) false = true ↔
      ∃ i, ∃ c ∈ overlappingLocal g i (s i).owner (given i), 0 < g.lvl c := by
  unfold loadOps
  simp only []
  generalize hm : maxOver (fun i => maxLvlOf g (overlappingLocal g i (s i).owner (given i))) = m
  constructor
  · intro h
    cases m with
    | zero => cases h
    | succ m =>
      unfold maxOver at hm
      obtain ⟨i, -, h1⟩ := foldl_max_pos (m := 0) (f := fun i => maxLvlOf g (overlappingLocal g i (s i).owner (given i)))
        (l := List.finRange n) (by rw [hm]; omega)
      obtain ⟨c, h2, h3⟩ := foldl_max_pos (m := 0) (f := g.lvl) h1
      exact ⟨i, c, h2, h3⟩
  · rintro ⟨i, c, h1, h2⟩
    have h3 := le_maxLvlOf (g := g) h1
    have h4 := le_maxOver (fun i => maxLvlOf g (overlappingLocal g i (s i).owner (given i))) i
    rw [hm] at h4
    cases m with
    | zero => omega
    | succ m =>
      rw [List.range_succ_eq_map, List.flatMap_cons]
      exact anyMakes_level ..

/-- `continue_loading_grid_data` changes only data of cells. -/
theorem continueAll_data {K : CellClass D} {f : File} {k : Nat} {s s' : Sys n D W} {l : Fin n → List (Nat × Nat)}
    (h : continueAll K f k s l = .ok s') :
    ∃ d : Fin n → Nat → Option D, (s' = fun i => { s i with data := d i }) ∧ ∀ i c, (d i c).isSome = ((s i).data c).isSome := by
  induction k generalizing s l with
  | zero => injection h with h; exact ⟨fun i => (s i).data, by rw [h], fun _ _ => rfl⟩
  | succ k ih =>
    obtain ⟨r, h1, h2⟩ := Out.bind_inv h
    obtain ⟨d, e1, e2⟩ := ih h2
    have h3 : ∀ i, ∃ d', (r i).1 = { s i with data := d' } ∧ ∀ c, (d' c).isSome = ((s i).data c).isSome := by
      intro i
      have := Out.collect_inv h1 i
      unfold continueLoading at this
      split at this
      · cases this
      · injection this with this
        rw [← this]
        exact ⟨_, rfl, fun c => by rw [Option.isSome_map]⟩
    refine ⟨d, ?_, fun i c => ?_⟩
    · rw [e1]
      funext i
      obtain ⟨d', e3, -⟩ := h3 i
      rw [e3]
    · obtain ⟨d', e3, e4⟩ := h3 i
      rw [e2, e3, ← e4]

theorem Loaded.continued (hw : g.WF) (hn : 0 < n) {K : CellClass D} {f : File} {k : Nat} {s s' : Sys n D W}
    {l : Fin n → List (Nat × Nat)} {σ : Fin n → Store n} {m b : Bool} (h : Loaded g dflt maxTag s σ m b)
    (hs : continueAll K f k s l = .ok s') : Loaded g dflt maxTag s' σ m b := by
  obtain ⟨d, e1, e2⟩ := continueAll_data hs
  obtain ⟨s0, hr, hcase, -⟩ := h.spec hw hn
  obtain ⟨w, hi⟩ := hr.inv hw hn
  have hp : ∀ i c, ((s i).data c).isSome = true → w c = some i := by
    intro i c hc
    rcases hcase with e | ⟨-, -, e⟩ <;> rw [e] at hc <;> exact (hi.sys.placed i c).1 hc
  have e : s' = fun i => { s i with data := fun c => ((s i).data c).map fun _ => ((w c).bind fun j => d j c).getD dflt } := by
    rw [e1]
    suffices ∀ i, d i = fun c => ((s i).data c).map fun _ => ((w c).bind fun j => d j c).getD dflt by
      funext i
      rw [this i]
    intro i
    funext c
    cases hc : (s i).data c with
    | none =>
      have := e2 i c
      rw [hc] at this
      rw [Option.map_none]
      cases hd : d i c with
      | none => rfl
      | some x => rw [hd] at this; cases this
    | some x =>
      have := e2 i c
      rw [hc] at this
      obtain ⟨y, hy⟩ := Option.isSome_iff_exists.1 this
      rw [hp i c (by rw [hc]; rfl), Option.map_some, Option.bind_some, hy, Option.getD_some]
  rw [e]
  exact .fill _ h

/-- Loading gives what it would without what is stored, and a loaded grid. Iterators have been made if and only if one of
cells loaded by processes is larger than 0 in level. -/
theorem startLoadingStored_ok {e : Order} {f : File} {off : Nat} {M0 M : Meta} (hn : 0 < n) (hw : M.grid.WF)
    {ord : Fin n → List Nat → List Nat} {s : Sys n D W} {mine : Fin n → List (Nat × Nat)}
    (h : startLoading e f off M0 dflt maxTag ord = .ok (some (M, s, mine))) :
    ∃ σ m, startLoadingStored e f off M0 dflt maxTag ord = .ok (some (M, s, σ, mine)) ∧
      Loaded M.grid dflt maxTag s σ m true ∧ (m = true ↔ ∃ i, ∃ x ∈ mine i, 0 < M.grid.lvl x.1) := by
  unfold startLoading at h
  unfold startLoadingStored
  cases hr : readMeta e f off M0 with
  | none => rw [hr] at h; injection h with h; cases h
  | some x =>
    obtain ⟨M', o⟩ := x
    rw [hr] at h
    simp only [] at h ⊢
    obtain ⟨s0, h1, h2⟩ := Out.bind_inv h
    split at h2
    · cases h2
    · rename_i hb
      split at h2
      · cases h2
      · rename_i ha
        obtain ⟨s1, h3, h4⟩ := Out.bind_inv h2
        split at h4
        · cases h4
        · rename_i hc
          injection h4 with h4
          injection h4 with h4
          injection h4 with h4 h5
          injection h5 with h5 h6
          subst h4; subst h5
          have hr0 : Reachable M'.grid dflt maxTag s0 := .init h1
          obtain ⟨σ0, e1, -⟩ := Out.collect_all (f := fun i => startStore M'.grid maxTag i (s0 i)) (P := fun _ _ => True)
            (fun i => by
              obtain ⟨w, hg⟩ := hr0.good hw i
              obtain ⟨σ', e1, -⟩ := startStore_ok hw hg (createGrid_hoods hw hn h1 i)
              exact ⟨σ', e1, trivial⟩)
          obtain ⟨σ', e2, e3⟩ := run_loaded hw hn (loadOps_ok _ _ _) (.start h1 e1) h3
          rw [anyMakes_true] at e3
          refine ⟨σ', _, ?_, e3, ?_⟩
          · rw [h1, Out.bind_ok, e1, Out.bind_ok, if_neg hb, if_neg ha, e2, Out.bind_ok, if_neg hc, h6]
          · rw [anyMakes_loadOps, ← h6]
            constructor
            · rintro ⟨i, c, c1, c2⟩
              obtain ⟨x, x1, x2⟩ := List.mem_map.1 (List.mem_filter.1 c1).1
              exact ⟨i, x, x1, by rw [x2]; exact c2⟩
            · rintro ⟨i, x, x1, x2⟩
              exact ⟨i, x.1, List.mem_filter.2 ⟨List.mem_map.2 ⟨x, x1, rfl⟩, (List.mem_filter.1 x1).2⟩, x2⟩

end Dccrg
