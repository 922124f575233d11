import Verif.Props.Schedule
import Verif.Props.Lists
import Verif.Props.Load
import Verif.Props.RefineData
import Verif.Props.Halo
/-!
# C115: results of a simulation do not depend on the number of processes nor on owners of cells

A simulation is a list of stages that are the same for any number of processes: updates of data of every cell from its
own data and data of its neighbors, adaptation of the grid to data of its cells, and anything that moves cells between
processes. The order in which a process handles its cells is arbitrary and can be different in every run.
-/
namespace Dccrg
open Cfg
variable {n : Nat} {D W : Type} {g : Cfg} {w : Owner n} {s s' t t' : Sys n D W} {dflt : D} {maxTag : Nat}

/-- What a simulation asks for one cell: nothing, `refine_completely`, `unrefine_completely` or `dont_unrefine`. -/
inductive Wish where
  | nothing
  | refine
  | unrefine
  | hold

/-- Stages of a simulation. -/
inductive SimStage (D : Type) where
  /-- Update remote neighbors of neighborhood `id` with items `H`, and replace data of every cell by a function of the
  cell, its data and the cells, offsets and data given by `get_neighbors_of`, in that order. -/
  | sweep (id : Int) (H : List (V3 Int)) (f : Nat → Option D → List ((Nat × V3 Int) × Option D) → D)
  /-- Make requests that depend on the cell and its data, call `stop_refining`, set data of every new child from that of
  its parent and data of every new parent from that of its children. -/
  | adapt (want : Nat → Option D → Wish) (child : Nat → Option D → D) (parent : Nat → List (Option D) → D)
  /-- Balance load, any number of times and in any way, and add and remove neighborhoods. -/
  | move

/-- New data of a cell in a sweep, from what `operator[]` and `get_neighbors_of` return on a process. -/
def sweepValue (g : Cfg) (p : Proc n D W) (id : Int) (f : Nat → Option D → List ((Nat × V3 Int) × Option D) → D)
    (c : Nat) : D :=
  f c (access p c) (((getNeighborsOf g p c id).getD []).map fun x => (x, access p x.1))

/-- Calls that have to do with moving cells, and adding and removing neighborhoods. -/
def Op.Moves : Op n D W → Prop
  | .pin _ _ _ | .unpin _ _ | .unpinLocal _ | .setWeight _ _ _ | .clearRefined _ | .unpinAll | .update _
  | .balance _ | .addHood _ _ | .removeHood _ => True
  | _ => False

/-- Processes perform a stage. -/
inductive Performs (g : Cfg) (dflt : D) (maxTag : Nat) : SimStage D → Sys n D W → Sys n D W → Prop
  | sweep {id : Int} {H : List (V3 Int)} {f : Nat → Option D → List ((Nat × V3 Int) × Option D) → D}
      {s s1 t : Sys n D W} {ops : List (Op n D W)} :
      (∀ i, hoodFor g (s i) id = some H) →
      step g dflt maxTag s (.update id) = .ok s1 →
      (∀ op, op ∈ ops ↔ ∃ i c, (s1 i).owner c = some i ∧ op = .write i c (sweepValue g (s1 i) id f c)) →
      Ops g dflt maxTag s1 ops t → Performs g dflt maxTag (.sweep id H f) s t
  | adapt {want : Nat → Option D → Wish} {child : Nat → Option D → D} {parent : Nat → List (Option D) → D}
      {s s1 t : Sys n D W} {asks sets : List (Op n D W)} {sorted sorted' : Bool}
      {res : Fin n → Proc n D W × List Nat} :
      (∀ op, op ∈ asks ↔ ∃ i c, (s i).owner c = some i ∧
        (want c (access (s i) c) = .refine ∧ op = .refine i c ∨
         want c (access (s i) c) = .unrefine ∧ op = .unrefine i c ∨
         want c (access (s i) c) = .hold ∧ op = .dontUnrefine i c)) →
      Ops g dflt maxTag s asks s1 →
      stopRefining g dflt maxTag sorted s1 = .ok res →
      (∀ op, op ∈ sets ↔ ∃ i,
        (∃ x ∈ (res i).2, op = .write i x (child x (access (res i).1 (g.parent x)))) ∨
        ∃ c ∈ getRemovedCells g (res i).1 sorted', op = .write i (g.parent c)
          (parent (g.parent c) ((g.children (g.parent c)).map (access (res i).1)))) →
      Ops g dflt maxTag (fun i => (res i).1) sets t → Performs g dflt maxTag (.adapt want child parent) s t
  | move {s t : Sys n D W} : Runs g dflt maxTag Op.Moves s t → Performs g dflt maxTag .move s t

/-- Processes perform stages one after another. -/
inductive Simulates (g : Cfg) (dflt : D) (maxTag : Nat) : List (SimStage D) → Sys n D W → Sys n D W → Prop
  | nil (s : Sys n D W) : Simulates g dflt maxTag [] s s
  | cons {x : SimStage D} {l : List (SimStage D)} {s s1 t : Sys n D W} : Performs g dflt maxTag x s s1 →
      Simulates g dflt maxTag l s1 t → Simulates g dflt maxTag (x :: l) s t

/-- The state is reachable and there are no requests for refinement. -/
def Idle (g : Cfg) (dflt : D) (maxTag : Nat) (s : Sys n D W) : Prop :=
  ∃ k, History g dflt maxTag k s ∧ ∀ c, ¬ k.refine c ∧ ¬ k.unrefine c ∧ ¬ k.dontRefine c ∧ ¬ k.dontUnrefine c

/-- The same cells exist and have the same data on their processes. -/
def SameData {n' : Nat} {W' : Type} (s : Sys n D W) (t : Sys n' D W') : Prop :=
  (∀ i j c, exist (s i).owner c = exist (t j).owner c) ∧
  ∀ i j c, (s i).owner c = some i → (t j).owner c = some j → access (s i) c = access (t j) c

/-! ## Data of all cells -/

/-- Data of every cell is given by `u`. -/
def Holds (s : Sys n D W) (u : Nat → Option D) : Prop :=
  ∀ i c, (∀ j, (s i).owner c = some j → access (s j) c = u c ∧ (s j).data c = u c) ∧
    (exist (s i).owner c = true ↔ u c ≠ none)

theorem Inv.access_own (hi : Inv g w s) {i : Fin n} {c : Nat} (h : w c = some i) :
    access (s i) c = (s i).data c ∧ (s i).data c ≠ none := by
  have h1 := (hi.sys.placed i c).2 h
  unfold access
  cases h2 : (s i).data c with
  | none => rw [h2] at h1; cases h1
  | some d => exact ⟨rfl, by simp⟩

theorem Inv.holds_of (hi : Inv g w s) {u : Nat → Option D} (h1 : ∀ i c, w c = some i → (s i).data c = u c)
    (h2 : ∀ c, w c = none → u c = none) : Holds s u := by
  intro i c
  rw [hi.sys.owner]
  refine ⟨fun j e => ⟨by rw [(hi.access_own e).1, h1 j c e], h1 j c e⟩, ?_⟩
  cases h : w c with
  | none => rw [h2 c h]; unfold exist; rw [h]; simp
  | some j =>
    rw [← h1 j c h]
    exact ⟨fun _ => (hi.access_own h).2, fun _ => exist_of h⟩

theorem Inv.holds (hi : Inv g w s) : ∃ u, Holds s u := by
  refine ⟨fun c => (w c).bind fun i => (s i).data c, hi.holds_of (fun i c e => ?_) (fun c e => ?_)⟩
  · show _ = (w c).bind _
    rw [e]; rfl
  · show (w c).bind _ = _
    rw [e]; rfl

theorem Holds.unique {u v : Nat → Option D} (h : Holds s u) (h' : Holds s v) (i : Fin n) : u = v := by
  funext c
  cases hc : (s i).owner c with
  | none =>
    have e : exist (s i).owner c = false := by unfold exist; rw [hc]; rfl
    have e1 := (h i c).2
    have e2 := (h' i c).2
    rw [e] at e1 e2
    simp at e1 e2
    rw [e1, e2]
  | some j => exact (((h i c).1 j hc).2).symm.trans ((h' i c).1 j hc).2

theorem Holds.same {n' : Nat} {W' : Type} {t : Sys n' D W'} {u : Nat → Option D} (h : Holds s u) (h' : Holds t u) :
    SameData s t := by
  refine ⟨fun i j c => ?_, fun i j c h1 h2 => ?_⟩
  · rw [Bool.eq_iff_iff, (h i c).2, (h' j c).2]
  · rw [((h i c).1 i h1).1, ((h' j c).1 j h2).1]

theorem SameData.holds {n' : Nat} {W' : Type} {t : Sys n' D W'} {v : Owner n'} (hi : Inv g w s) (hj : Inv g v t)
    (hn : 0 < n) (hn' : 0 < n') (h : SameData s t) : ∃ u, Holds s u ∧ Holds t u := by
  obtain ⟨u, hu⟩ := hi.holds
  refine ⟨u, hu, hj.holds_of (fun j c e => ?_) (fun c e => ?_)⟩
  · have he : exist (t j).owner c = true := by rw [hj.sys.owner]; exact exist_of e
    have he' : exist (s ⟨0, hn⟩).owner c = true := by rw [h.1 _ j]; exact he
    rw [hi.sys.owner] at he'
    cases hc : w c with
    | none => unfold exist at he'; rw [hc] at he'; cases he'
    | some i =>
      have := h.2 i j c (by rw [hi.sys.owner]; exact hc) (by rw [hj.sys.owner]; exact e)
      rw [← (hj.access_own e).1, ← this]
      exact ((hu i c).1 i (by rw [hi.sys.owner]; exact hc)).1
  · have he : exist (t ⟨0, hn'⟩).owner c = false := by rw [hj.sys.owner]; unfold exist; rw [e]; rfl
    rw [← h.1 ⟨0, hn⟩] at he
    have := (hu ⟨0, hn⟩ c).2
    rw [he] at this
    simpa using this

/-! ## Idle states -/

theorem Idle.reachable (h : Idle g dflt maxTag s) : Reachable g dflt maxTag s := by
  obtain ⟨k, h, -⟩ := h
  exact h.reachable

/-- Calls that make no requests. -/
def Op.Calm : Op n D W → Prop
  | .refine _ _ | .unrefine _ _ | .dontRefine _ _ | .dontUnrefine _ _ => False
  | _ => True

theorem Idle.step (h : Idle g dflt maxTag s) (op : Op n D W) (hc : op.Calm) (ho : op.Ok s)
    (hs : Dccrg.step g dflt maxTag s op = .ok s') : Idle g dflt maxTag s' := by
  obtain ⟨k, h, hk⟩ := h
  by_cases hq : op.Quiet
  · refine ⟨_, .call op h hq hs, fun c => ⟨?_, ?_, ?_, ?_⟩⟩
    · rintro (e | ⟨i, e, -⟩)
      · exact (hk c).1 e
      · subst e; exact hc
    · rintro (e | ⟨i, e, -⟩)
      · exact (hk c).2.1 e
      · subst e; exact hc
    · rintro (e | ⟨i, e, -⟩)
      · exact (hk c).2.2.1 e
      · subst e; exact hc
    · rintro (e | ⟨i, e, -⟩)
      · exact (hk c).2.2.2 e
      · subst e; exact hc
  · cases op with
    | stop sorted =>
      refine ⟨_, .stop sorted h hs, fun c => ⟨id, id, ?_, id⟩⟩
      rintro ⟨i, e⟩
      exact Veto.none (fun x => (hk x).2.2.1) e
    | balance z => exact ⟨_, .balance z h ho hs, fun c => ⟨id, id, id, id⟩⟩
    | _ => exact absurd trivial hq

theorem Ops.idle (h : Idle g dflt maxTag s) {ops : List (Op n D W)} (hc : ∀ op ∈ ops, op.Calm)
    (hs : Ops g dflt maxTag s ops s') : Idle g dflt maxTag s' := by
  induction hs with
  | nil => exact h
  | cons ho h1 _ ih =>
    exact ih (h.step _ (hc _ (List.mem_cons_self ..)) ho h1) (fun op h => hc op (List.mem_cons_of_mem _ h))

/-! ## Writing -/

/-- Data after writing to cells of each process. -/
theorem Ops.writes {V : Fin n → Nat → D} (hi : Inv g w s) {ops : List (Op n D W)}
    (hc : ∀ op ∈ ops, ∃ i c, w c = some i ∧ op = .write i c (V i c)) (hs : Ops g dflt maxTag s ops s') :
    Inv g w s' ∧ ∀ i c, w c = some i →
      (Op.write i c (V i c) ∈ ops → (s' i).data c = some (V i c)) ∧
      (Op.write i c (V i c) ∉ ops → (s' i).data c = (s i).data c) := by
  induction hs with
  | nil => exact ⟨hi, fun i c _ => ⟨fun h => (by cases h), fun _ => rfl⟩⟩
  | @cons s s1 s2 op ops ho h1 _ ih =>
    obtain ⟨i0, c0, e0, rfl⟩ := hc op (List.mem_cons_self ..)
    injection h1 with h1
    have hd : (s i0).data c0 ≠ none := (hi.access_own e0).2
    have hd' : ((s i0).data c0).isSome = true := by
      cases h : (s i0).data c0 with
      | none => exact absurd h hd
      | some _ => rfl
    have hwr : write (s i0) c0 (V i0 c0) =
        { s i0 with data := fun x => if x = c0 then some (V i0 c0) else (s i0).data x } := by
      unfold write
      rw [if_pos hd']
    rw [hwr] at h1
    have hi1 : Inv g w s1 := by
      rw [← h1]
      refine hi.set ⟨hi.sys.owner i0, fun c => ?_, rfl, hi.sys.newPins i0, hi.sys.weights i0, rfl, hi.req i0⟩
      rw [← hi.sys.placed i0 c]
      show (if c = c0 then some (V i0 c0) else (s i0).data c).isSome = true ↔ _
      split
      · rename_i e; subst e; simp [hd']
      · rfl
    obtain ⟨h2, h3⟩ := ih hi1 (fun op h => hc op (List.mem_cons_of_mem _ h))
    refine ⟨h2, fun i c e => ?_⟩
    obtain ⟨h4, h5⟩ := h3 i c e
    have hs1 : ¬ (i = i0 ∧ c = c0) → (s1 i).data c = (s i).data c := by
      intro h
      rw [← h1]
      unfold Sys.set
      split
      · rename_i e1
        subst e1
        show (if c = c0 then some (V i c0) else (s i).data c) = _
        rw [if_neg (fun e2 => h ⟨rfl, e2⟩)]
      · rfl
    constructor
    · intro hm
      by_cases hx : Op.write i c (V i c) ∈ ops
      · exact h4 hx
      · rw [h5 hx]
        rcases List.mem_cons.1 hm with hm | hm
        · injection hm with e1 e2
          subst e1; subst e2
          rw [← h1, Sys.set_same]
          exact if_pos rfl
        · exact absurd hm hx
    · intro hm
      rw [h5 (fun h => hm (List.mem_cons_of_mem _ h))]
      apply hs1
      rintro ⟨rfl, rfl⟩
      exact hm (List.mem_cons_self ..)

/-! ## Sweeps -/

/-- Data of a neighbor after an update. -/
theorem updated_access {id : Int} {H : List (V3 Int)} {u : Nat → Option D} (hw : g.WF) (h : Reachable g dflt maxTag s)
    (hu : Holds s u) (hH : ∀ i, hoodFor g (s i) id = some H) (hs : step g dflt maxTag s (.update id) = .ok s')
    {i : Fin n} {c : Nat} (hc : (s i).owner c = some i) :
    (s' i).owner = (s i).owner ∧ (s' i).data = (s i).data ∧
    access (s' i) c = u c ∧ ∃ l, getNeighborsOf g (s' i) c id = some l ∧
      findNeighborsOf g (exist (s i).owner) c H = .ok l ∧ ∀ x ∈ l, access (s' i) x.1 = u x.1 := by
  obtain ⟨res, hr, e⟩ := Out.bind_inv hs
  injection e with e
  obtain ⟨w, hi⟩ := h.inv hw (by have := i.2; omega)
  obtain ⟨h1, h2⟩ := C33_rest hw h hr i
  have e' : s' i = (res i).2 := by rw [← e]
  have ho : (s' i).owner = (s i).owner := by rw [e', h1]
  have hc' : exist w c = true := by rw [hi.sys.owner] at hc; exact exist_of hc
  obtain ⟨f, g1, g2, g3⟩ := hi.neighborsOf hw (hH i) hc'
  have hnb : getNeighborsOf g (s' i) c id = getNeighborsOf g (s i) c id := by rw [e', h1]; rfl
  refine ⟨ho, by rw [e', h1], ?_, H.flatMap f, by rw [hnb]; exact g1, ?_, ?_⟩
  · rw [e', h2 c (Or.inl hc)]
    exact ((hu i c).1 i hc).1
  · unfold getNeighborsOf at g1
    rw [hi.sys.owner, if_pos hc', hH] at g1
    rw [hi.sys.owner]
    cases h3 : findNeighborsOf g (exist w) c H with
    | ok l =>
      simp only [h3] at g1
      injection g1 with g1
      rw [g1]
    | _ => simp only [h3] at g1; cases g1
  · rintro ⟨b, off⟩ hx
    show access (s' i) b = u b
    have hb := ((g3 b).1 ⟨off, hx⟩).1
    cases hwb : w b with
    | none => unfold exist at hb; rw [hwb] at hb; cases hb
    | some j =>
      have hbj : (s i).owner b = some j := by rw [hi.sys.owner]; exact hwb
      by_cases hij : j = i
      · subst hij
        rw [e', h2 b (Or.inl hbj)]
        exact ((hu j b).1 j hbj).1
      · rw [e', (C33_copies hw h hr i j hc ⟨_, off, g1, hx⟩ hbj hij).1]
        exact ((hu i b).1 j hbj).2

/-- Data after a sweep, with one process for everything. -/
noncomputable def sweptField (g : Cfg) (H : List (V3 Int)) (f : Nat → Option D → List ((Nat × V3 Int) × Option D) → D)
    (u : Nat → Option D) (c : Nat) : Option D :=
  match u c with
  | none => none
  | some d => match findNeighborsOf g (fun c => (u c).isSome) c H with
    | .ok l => some (f c (some d) (l.map fun x => (x, u x.1)))
    | _ => none

theorem isSome_eq_exist {u : Nat → Option D} (hu : Holds s u) (i : Fin n) :
    (fun c => (u c).isSome) = exist (s i).owner := by
  funext c
  rw [Bool.eq_iff_iff, (hu i c).2]
  cases u c <;> simp

theorem Performs.sweep_holds {id : Int} {H : List (V3 Int)} {f : Nat → Option D → List ((Nat × V3 Int) × Option D) → D}
    {u : Nat → Option D} (hw : g.WF) (hn : 0 < n) (h : Idle g dflt maxTag s) (hu : Holds s u)
    (hp : Performs g dflt maxTag (.sweep id H f) s t) : Idle g dflt maxTag t ∧ Holds t (sweptField g H f u) := by
  cases hp with
  | @sweep _ _ _ _ s1 _ ops hH h1 hops h2 =>
    have hr := h.reachable
    have h1' : Idle g dflt maxTag s1 := h.step (.update id) trivial trivial h1
    obtain ⟨w, hi⟩ := hr.inv hw hn
    obtain ⟨w', hi1⟩ := h1'.reachable.inv hw hn
    have hww : w' = w := by
      rw [← hi1.sys.owner ⟨0, hn⟩, (step_quiet (.update id) trivial h1 ⟨0, hn⟩).1, hi.sys.owner]
    subst hww
    have hops' : ∀ op ∈ ops, ∃ i c, w' c = some i ∧ op = .write i c (sweepValue g (s1 i) id f c) := by
      intro op hop
      obtain ⟨i, c, e1, e2⟩ := (hops op).1 hop
      exact ⟨i, c, by rw [← hi1.sys.owner i]; exact e1, e2⟩
    refine ⟨Ops.idle h1' (fun op hop => ?_) h2, ?_⟩
    · obtain ⟨i, c, -, rfl⟩ := hops' op hop
      trivial
    · obtain ⟨hi2, hd⟩ := Ops.writes (V := fun i c => sweepValue g (s1 i) id f c) hi1 hops' h2
      refine hi2.holds_of (fun i c e => ?_) (fun c e => ?_)
      · rw [(hd i c e).1 ((hops _).2 ⟨i, c, by rw [hi1.sys.owner]; exact e, rfl⟩)]
        have hc : (s i).owner c = some i := by rw [hi.sys.owner]; exact e
        obtain ⟨-, -, e1, l, e2, e3, e4⟩ := updated_access hw hr hu hH h1 hc
        unfold sweepValue sweptField
        have hne : u c ≠ none := ((hu i c).2).1 (exist_of hc)
        rw [isSome_eq_exist hu i, e3, e1, e2]
        cases hx : u c with
        | none => exact absurd hx hne
        | some d =>
          show some (f c (some d) (l.map _)) = some (f c (some d) (l.map _))
          congr 2
          apply List.map_congr_left
          intro x hx
          rw [e4 x hx]
      · unfold sweptField
        have : u c = none := by
          have := (hu ⟨0, hn⟩ c).2
          rw [hi.sys.owner] at this
          unfold exist at this
          rw [e] at this
          simpa using this
        rw [this]

/-! ## Moving cells -/

theorem Runs.moves_holds {u : Nat → Option D} (hw : g.WF) (hn : 0 < n) (h : Idle g dflt maxTag s) (hu : Holds s u)
    (hp : Runs g dflt maxTag Op.Moves s t) : Idle g dflt maxTag t ∧ Holds t u := by
  induction hp with
  | refl => exact ⟨h, hu⟩
  | @step s1 s2 op _ hm ho h1 ih =>
    obtain ⟨hI, hu1⟩ := ih
    have hcalm : op.Calm := by cases op <;> first | trivial | cases hm
    have hI2 := hI.step op hcalm ho h1
    refine ⟨hI2, ?_⟩
    obtain ⟨w, hi⟩ := hI.reachable.inv hw hn
    obtain ⟨w', hi'⟩ := hI2.reachable.inv hw hn
    by_cases hq : op.Quiet
    · have hww : w' = w := by
        rw [← hi'.sys.owner ⟨0, hn⟩, (step_quiet op hq h1 ⟨0, hn⟩).1, hi.sys.owner]
      subst hww
      refine hi'.holds_of (fun i c e => ?_) (fun c e => ?_)
      · have hc1 : (s1 i).owner c = some i := by rw [hi.sys.owner]; exact e
        have hc2 : (s2 i).owner c = some i := by rw [hi'.sys.owner]; exact e
        rw [← (hi'.access_own e).1]
        have hd : access (s2 i) c = access (s1 i) c := by
          by_cases hk : op.Keeps i c
          · exact C28_until_cleared hw hI.reachable (Or.inl hc1) (.step op (.refl s1) hk ho h1)
          · cases op with
            | clearRefined j =>
              injection h1 with h1
              rw [(hi'.access_own e).1, (hi.access_own e).1, ← h1]
              unfold Sys.set
              split
              · rename_i e; subst e; rfl
              · rfl
            | balance z => cases hq
            | _ => first | (cases hm; done) | exact absurd trivial hk
        rw [hd]
        exact ((hu1 i c).1 i hc1).1
      · have := (hu1 ⟨0, hn⟩ c).2
        rw [hi.sys.owner] at this
        unfold exist at this
        rw [e] at this
        simpa using this
    · cases op with
      | balance z =>
        refine hi'.holds_of (fun i c e => ?_) (fun c e => ?_)
        · obtain ⟨h2, -, h3⟩ := C30_cells_and_data hw hI.reachable ho h1 i i c
          have hE : exist (s1 i).owner c = true := by rw [← h2, hi'.sys.owner]; exact exist_of e
          rw [hi.sys.owner] at hE
          cases hp : w c with
          | none => unfold exist at hE; rw [hp] at hE; cases hE
          | some p =>
            have hp' : (s1 i).owner c = some p := by rw [hi.sys.owner]; exact hp
            rw [(h3 p i hp' (by rw [hi'.sys.owner]; exact e)).1]
            exact ((hu1 i c).1 p hp').2
        · obtain ⟨h2, -⟩ := C30_cells_and_data hw hI.reachable ho h1 ⟨0, hn⟩ ⟨0, hn⟩ c
          have := (hu1 ⟨0, hn⟩ c).2
          rw [← h2, hi'.sys.owner] at this
          unfold exist at this
          rw [e] at this
          simpa using this
      | _ => first | (cases hm; done) | exact absurd trivial hq

/-! ## Adaptation -/

/-- Requests and cells after some requests. -/
theorem Ops.asks {k : Calls} (hw : g.WF) (hn : 0 < n) (h : History g dflt maxTag k s) (hi : Inv g w s)
    (hN : ∀ c, ¬ k.dontRefine c) {ops : List (Op n D W)}
    (hc : ∀ op ∈ ops, ∃ i c, w c = some i ∧ (op = .refine i c ∨ op = .unrefine i c ∨ op = .dontUnrefine i c))
    (hs : Ops g dflt maxTag s ops t) :
    ∃ k', History g dflt maxTag k' t ∧ Inv g w t ∧ (∀ c, ¬ k'.dontRefine c) ∧
      (∀ c, k'.refine c ↔ k.refine c ∨ ∃ i, Op.refine i c ∈ ops) ∧
      (∀ c, k'.dontUnrefine c ↔ k.dontUnrefine c ∨ ∃ i, Op.dontUnrefine i c ∈ ops) ∧
      (∀ c, k'.unrefine c → k.unrefine c ∨ ∃ i, Op.unrefine i c ∈ ops) ∧
      (∀ c, (k.unrefine c ∨ ∃ i, Op.unrefine i c ∈ ops) → (∀ x ∈ g.children (g.parent c), exist w x = true) →
        k'.unrefine c) ∧
      ∀ i, (t i).data = (s i).data := by
  induction hs generalizing k with
  | nil => exact ⟨k, h, hi, hN, fun c => by simp, fun c => by simp, fun c e => Or.inl e, fun c e _ => by simpa using e, fun i => rfl⟩
  | @cons s s1 s2 op ops ho h1 _ ih =>
    obtain ⟨i0, c0, e0, hop⟩ := hc op (List.mem_cons_self ..)
    have hq : op.Quiet := by rcases hop with rfl | rfl | rfl <;> trivial
    have h' := History.call op h hq h1
    have hi1 : Inv g w s1 := by
      obtain ⟨w', hi'⟩ := h'.reachable.inv hw hn
      have : w' = w := by
        rw [← hi'.sys.owner ⟨0, hn⟩, (step_quiet op hq h1 ⟨0, hn⟩).1, hi.sys.owner]
      rwa [this] at hi'
    have hd : ∀ i, (s1 i).data = (s i).data := by
      intro i
      have : ∃ o, s.ask i0 o = .ok s1 := by rcases hop with rfl | rfl | rfl <;> exact ⟨_, h1⟩
      obtain ⟨o, ho⟩ := this
      obtain ⟨b, r, -, rfl⟩ := ask_inv ho
      unfold Sys.set
      split
      · rename_i e; subst e; rfl
      · rfl
    obtain ⟨w', hi'', hst⟩ := h.stored hw hn
    have : w' = w := by rw [← hi''.sys.owner ⟨0, hn⟩, hi.sys.owner]
    subst this
    have hce := exist_of e0
    have say1 : op = .refine i0 c0 → SaysRefine g (s i0) c0 := by
      intro _
      by_cases hl : g.lvl c0 < g.maxLvl
      · have hr : ¬ Refused g w' (s i0).req c0 := by
          rintro (e | ⟨b, -, -, -, e⟩)
          · exact hN _ (hst.dontRefine' i0 _ e)
          · exact hN _ (hst.dontRefine' i0 _ e)
        have := refineCompletely_ok hw hi.sys.tiled hi.sys.balanced (hi.sys.placed i0) e0 hl hr
        exact ⟨_, by rw [hi.sys.owner]; exact this⟩
      · obtain ⟨r', e, -⟩ := refineCompletely_max (r := (s i0).req) hw hi.sys.tiled (hi.sys.placed i0) e0
          (by have := lvl_le (hi.sys.tiled.valid c0 hce); omega)
        exact ⟨r', by rw [hi.sys.owner]; exact e⟩
    have say2 : op = .dontUnrefine i0 c0 → SaysDontUnrefine g (s i0) c0 := by
      intro _
      obtain ⟨b, r, f1, f2, -⟩ := dontUnrefine_spec (r := (s i0).req) (c := c0) hw hi.sys.tiled
      rw [f2.2 hce] at f1
      exact ⟨r, by rw [hi.sys.owner]; exact f1⟩
    have say3 : op = .unrefine i0 c0 → (∀ x ∈ g.children (g.parent c0), exist w' x = true) →
        SaysUnrefine g (s i0) c0 := by
      intro _ hx
      obtain ⟨b, r, f1, f2, -⟩ := unrefineCompletely_spec (r := (s i0).req) hw hi.sys.tiled hi.sys.balanced
        (hi.sys.placed i0) e0
      cases b with
      | true => exact ⟨r, by rw [hi.sys.owner]; exact f1⟩
      | false =>
        obtain ⟨-, -, x, hx1, hx2⟩ := f2 rfl
        rw [hx x hx1] at hx2; cases hx2
    have hN1 : ∀ c, ¬ (k.add g s op).dontRefine c := by
      rintro c (e | ⟨i, e, -⟩)
      · exact hN c e
      · subst e; rcases hop with e | e | e <;> cases e
    obtain ⟨k', a1, a2, a3, a4, a5, a6, a7, a8⟩ := ih h' hi1 hN1 (fun op h => hc op (List.mem_cons_of_mem _ h))
    refine ⟨k', a1, a2, a3, fun c => ?_, fun c => ?_, fun c e => ?_, fun c e hx => ?_, fun i => by rw [a8, hd]⟩
    · rw [a4]
      constructor
      · rintro ((e | ⟨i, e, -⟩) | ⟨i, e⟩)
        · exact Or.inl e
        · exact Or.inr ⟨i, by rw [e]; exact List.mem_cons_self ..⟩
        · exact Or.inr ⟨i, List.mem_cons_of_mem _ e⟩
      · rintro (e | ⟨i, e⟩)
        · exact Or.inl (Or.inl e)
        · rcases List.mem_cons.1 e with e | e
          · subst e
            rcases hop with e | e | e
            · injection e with e1 e2
              subst e1; subst e2
              exact Or.inl (Or.inr ⟨_, rfl, say1 rfl⟩)
            · cases e
            · cases e
          · exact Or.inr ⟨i, e⟩
    · rw [a5]
      constructor
      · rintro ((e | ⟨i, e, -⟩) | ⟨i, e⟩)
        · exact Or.inl e
        · exact Or.inr ⟨i, by rw [e]; exact List.mem_cons_self ..⟩
        · exact Or.inr ⟨i, List.mem_cons_of_mem _ e⟩
      · rintro (e | ⟨i, e⟩)
        · exact Or.inl (Or.inl e)
        · rcases List.mem_cons.1 e with e | e
          · subst e
            rcases hop with e | e | e
            · cases e
            · cases e
            · injection e with e1 e2
              subst e1; subst e2
              exact Or.inl (Or.inr ⟨_, rfl, say2 rfl⟩)
          · exact Or.inr ⟨i, e⟩
    · rcases a6 c e with (e | ⟨i, e, -⟩) | ⟨i, e⟩
      · exact Or.inl e
      · exact Or.inr ⟨i, by rw [e]; exact List.mem_cons_self ..⟩
      · exact Or.inr ⟨i, List.mem_cons_of_mem _ e⟩
    · refine a7 c ?_ hx
      rcases e with e | ⟨i, e⟩
      · exact Or.inl (Or.inl e)
      · rcases List.mem_cons.1 e with e | e
        · subst e
          rcases hop with e | e | e
          · cases e
          · injection e with e1 e2
            subst e1; subst e2
            exact Or.inl (Or.inr ⟨_, rfl, say3 rfl hx⟩)
          · cases e
        · exact Or.inr ⟨i, e⟩

/-- Calls that a simulation makes when data of cells is `u`. -/
def wishes (want : Nat → Option D → Wish) (u : Nat → Option D) : Calls where
  refine c := u c ≠ none ∧ want c (u c) = .refine
  unrefine c := u c ≠ none ∧ want c (u c) = .unrefine
  dontRefine _ := False
  dontUnrefine c := u c ≠ none ∧ want c (u c) = .hold

/-- Cells that are refined. -/
def WillRefine (g : Cfg) (want : Nat → Option D → Wish) (u : Nat → Option D) (c : Nat) : Prop :=
  Forced g (fun c => (u c).isSome) (wishes want u) c

/-- Cells that are unrefined. -/
def WillUnrefine (g : Cfg) (want : Nat → Option D → Wish) (u : Nat → Option D) (c : Nat) : Prop :=
  0 < g.lvl c ∧ (∃ x ∈ g.children (g.parent c), (wishes want u).unrefine x) ∧
  (∀ x ∈ g.children (g.parent c), (u x).isSome = true ∧ ¬ (wishes want u).refine x ∧
    ¬ (wishes want u).dontUnrefine x ∧ ¬ WillRefine g want u x) ∧
  ∀ b, (u b).isSome = true → ∀ o ∈ hoodOf g, Meets g (g.parent c) o b →
    g.lvl b ≤ g.lvl c ∧ (g.lvl b = g.lvl c → ¬ WillRefine g want u b)

open Classical in
/-- Data after adaptation. -/
noncomputable def adaptedField (g : Cfg) (want : Nat → Option D → Wish) (child : Nat → Option D → D)
    (parent : Nat → List (Option D) → D) (u : Nat → Option D) (x : Nat) : Option D :=
  if ∃ c, (u c).isSome = true ∧ WillRefine g want u c ∧ x ∈ g.children c then some (child x (u (g.parent x)))
  else if ∃ c, (u c).isSome = true ∧ WillUnrefine g want u c ∧ x = g.parent c then
    some (parent x ((g.children x).map u))
  else if (u x).isSome = true ∧ ¬ WillRefine g want u x ∧ ¬ WillUnrefine g want u x then u x
  else none

/-- Cells that exist after `stop_refining`. -/
theorem History.exist_after {k : Calls} {sorted : Bool} {res : Fin n → Proc n D W × List Nat} (hw : g.WF)
    (h : History g dflt maxTag k s) (hr : stopRefining g dflt maxTag sorted s = .ok res) (j : Fin n) (x : Nat) :
    exist (res j).1.owner x = true ↔
      (exist (s j).owner x = true ∧ ¬ Finer g (exist (res j).1.owner) x ∧ ¬ Coarser g (exist (res j).1.owner) x) ∨
      (∃ c, exist (s j).owner c = true ∧ Finer g (exist (res j).1.owner) c ∧ x ∈ g.children c) ∨
      ∃ c, exist (s j).owner c = true ∧ Coarser g (exist (res j).1.owner) c ∧ x = g.parent c := by
  obtain ⟨w, hi, hst, h3, h4, h5, hq⟩ := (h.recorded hw j).stopped hw hr j
  have hF : ∀ c, exist w c = true → (Finer g (exist (res j).1.owner) c ↔ Refines g w s c) := fun c hc => by
    rw [h4, h3.finer_iff hw hi.tiled h5 hc]
  have hC : ∀ c, exist w c = true → (Coarser g (exist (res j).1.owner) c ↔ Fam g (Unrefines g w s) c) := fun c hc => by
    rw [h4, h3.coarser_iff hw hi.tiled h5 hc]
  rw [show exist (res j).1.owner x = true ↔ After g (exist w) (Refines g w s) (Unrefines g w s) x by rw [h4]; exact h5 x,
    hi.owner]
  unfold After
  refine or_congr ?_ (or_congr ?_ ?_)
  · constructor
    · rintro ⟨a, b, c⟩; exact ⟨a, by rw [hF x a]; exact b, by rw [hC x a]; exact c⟩
    · rintro ⟨a, b, c⟩; exact ⟨a, by rw [← hF x a]; exact b, by rw [hC x a] at c; exact c⟩
  · constructor
    · rintro ⟨r, a, b⟩
      have e := (h3.refE r a).1
      exact ⟨r, e, (hF r e).2 a, b⟩
    · rintro ⟨r, e, a, b⟩
      exact ⟨r, (hF r e).1 a, b⟩
  · constructor
    · rintro ⟨u, a, b⟩
      obtain ⟨e, el, -⟩ := h3.unE u a
      exact ⟨u, e, (hC u e).2 ⟨u, a, mem_children_parent hw (hi.tiled.valid u e) el⟩, b⟩
    · rintro ⟨c, e, a, b⟩
      obtain ⟨u, e1, e2⟩ := (hC c e).1 a
      obtain ⟨p1, p2, -⟩ := h3.parent hw hi.tiled e1
      exact ⟨u, e1, by rw [b]; exact ((children_spec hw p1 p2).1 e2).2.2⟩

theorem Performs.adapt_holds {want : Nat → Option D → Wish} {child : Nat → Option D → D}
    {parent : Nat → List (Option D) → D} {u : Nat → Option D} (hw : g.WF) (hn : 0 < n) (h : Idle g dflt maxTag s)
    (hu : Holds s u) (hp : Performs g dflt maxTag (.adapt want child parent) s t) :
    Idle g dflt maxTag t ∧ Holds t (adaptedField g want child parent u) := by
  cases hp with
  | @adapt _ _ _ _ s1 _ asks sets sorted sorted' res hask h1 hres hset h2 =>
    obtain ⟨w, hi⟩ := h.reachable.inv hw hn
    obtain ⟨k, hk, hk0⟩ := h
    have hu' : ∀ i c, w c = some i → access (s i) c = u c := fun i c e =>
      ((hu i c).1 i (by rw [hi.sys.owner]; exact e)).1
    have hE : (fun c => (u c).isSome) = exist w := by
      rw [isSome_eq_exist hu ⟨0, hn⟩, hi.sys.owner]
    have hEc : ∀ c, (u c).isSome = exist w c := fun c => congrFun hE c
    have hne : ∀ c, u c ≠ none ↔ exist w c = true := fun c => by rw [← hEc]; cases u c <;> simp
    have hasks : ∀ op ∈ asks, ∃ i c, w c = some i ∧
        (op = .refine i c ∨ op = .unrefine i c ∨ op = .dontUnrefine i c) := by
      intro op hop
      obtain ⟨i, c, e1, e2⟩ := (hask op).1 hop
      rw [hi.sys.owner] at e1
      exact ⟨i, c, e1, e2.imp And.right (Or.imp And.right And.right)⟩
    obtain ⟨k', b1, b2, b3, b4, b5, b6, b7, b8⟩ := Ops.asks hw hn hk hi (fun c => (hk0 c).2.2.1) hasks h1
    have own : ∀ c, exist w c = true → ∃ i, w c = some i := by
      intro c hc
      cases hx : w c with
      | none => unfold exist at hc; rw [hx] at hc; cases hc
      | some i => exact ⟨i, rfl⟩
    -- calls
    have kR : ∀ c, k'.refine c ↔ (wishes want u).refine c := by
      intro c
      rw [b4]
      constructor
      · rintro (e | ⟨i, e⟩)
        · exact absurd e (hk0 c).1
        · obtain ⟨i', c', e1, e2⟩ := (hask _).1 e
          rw [hi.sys.owner] at e1
          rcases e2 with ⟨e2, e3⟩ | ⟨_, e3⟩ | ⟨_, e3⟩
          · injection e3 with _ e3; subst e3
            rw [hu' _ _ e1] at e2
            exact ⟨(hne c).2 (exist_of e1), e2⟩
          · cases e3
          · cases e3
      · rintro ⟨e1, e2⟩
        obtain ⟨i, hi'⟩ := own c ((hne c).1 e1)
        exact Or.inr ⟨i, (hask _).2 ⟨i, c, by rw [hi.sys.owner]; exact hi', Or.inl ⟨by rw [hu' _ _ hi']; exact e2, rfl⟩⟩⟩
    have kH : ∀ c, k'.dontUnrefine c ↔ (wishes want u).dontUnrefine c := by
      intro c
      rw [b5]
      constructor
      · rintro (e | ⟨i, e⟩)
        · exact absurd e (hk0 c).2.2.2
        · obtain ⟨i', c', e1, e2⟩ := (hask _).1 e
          rw [hi.sys.owner] at e1
          rcases e2 with ⟨_, e3⟩ | ⟨_, e3⟩ | ⟨e2, e3⟩
          · cases e3
          · cases e3
          · injection e3 with _ e3; subst e3
            rw [hu' _ _ e1] at e2
            exact ⟨(hne c).2 (exist_of e1), e2⟩
      · rintro ⟨e1, e2⟩
        obtain ⟨i, hi'⟩ := own c ((hne c).1 e1)
        exact Or.inr ⟨i, (hask _).2 ⟨i, c, by rw [hi.sys.owner]; exact hi',
          Or.inr (Or.inr ⟨by rw [hu' _ _ hi']; exact e2, rfl⟩)⟩⟩
    have kU : ∀ c, k'.unrefine c → (wishes want u).unrefine c := by
      intro c e
      rcases b6 c e with e | ⟨i, e⟩
      · exact absurd e (hk0 c).2.1
      · obtain ⟨i', c', e1, e2⟩ := (hask _).1 e
        rw [hi.sys.owner] at e1
        rcases e2 with ⟨_, e3⟩ | ⟨e2, e3⟩ | ⟨_, e3⟩
        · cases e3
        · injection e3 with _ e3; subst e3
          rw [hu' _ _ e1] at e2
          exact ⟨(hne c).2 (exist_of e1), e2⟩
        · cases e3
    have kU' : ∀ c, (wishes want u).unrefine c → (∀ x ∈ g.children (g.parent c), exist w x = true) →
        k'.unrefine c := by
      rintro c ⟨e1, e2⟩ hx
      obtain ⟨i, hi'⟩ := own c ((hne c).1 e1)
      exact b7 c (Or.inr ⟨i, (hask _).2 ⟨i, c, by rw [hi.sys.owner]; exact hi',
          Or.inr (Or.inl ⟨by rw [hu' _ _ hi']; exact e2, rfl⟩)⟩⟩) hx
    have hF : ∀ c, Forced g (exist w) k' c ↔ WillRefine g want u c := by
      intro c
      unfold WillRefine
      rw [hE]
      constructor
      · intro hx
        induction hx with
        | base h1 h2 _ => exact .base ((kR _).1 h1) h2 (Veto.none fun _ => id)
        | step _ h1 h2 h3 h4 ih => exact .step ih h1 h2 h3 h4
      · intro hx
        induction hx with
        | base h1 h2 _ => exact .base ((kR _).2 h1) h2 (Veto.none b3)
        | step _ h1 h2 h3 h4 ih => exact .step ih h1 h2 h3 h4
    have hR : ∀ j c, exist w c = true → (Finer g (exist (res j).1.owner) c ↔ WillRefine g want u c) := by
      intro j c hc
      rw [(b1.recorded hw j).refined_cells hw hres j (by rw [b2.sys.owner]; exact hc), b2.sys.owner, hF]
    have hU : ∀ j c, exist w c = true → (Coarser g (exist (res j).1.owner) c ↔ WillUnrefine g want u c) := by
      intro j c hc
      rw [(b1.recorded hw j).unrefined_cells hw b3 hres j (by rw [b2.sys.owner]; exact hc), b2.sys.owner]
      unfold WillUnrefine
      simp only [hF, kR, kH, hEc]
      have hv := hi.sys.tiled.valid c hc
      constructor
      · rintro ⟨a1, ⟨x, a2, a3⟩, a4, a5⟩
        exact ⟨a1, ⟨x, a2, kU x a3⟩, a4, a5⟩
      · rintro ⟨a1, ⟨x, a2, a3⟩, a4, a5⟩
        refine ⟨a1, ⟨x, a2, kU' x a3 ?_⟩, a4, a5⟩
        rw [((children_spec hw (parent_valid hw hv) (lvl_parent_lt hw hv a1)).1 a2).2.2]
        exact fun y hy => (a4 y hy).1
    -- after stop_refining
    have hstop : step g dflt maxTag s1 (.stop sorted) = .ok fun i => (res i).1 := by
      show (stopRefining g dflt maxTag sorted s1).bind _ = _
      rw [hres]; rfl
    have hI2 : Idle g dflt maxTag fun i => (res i).1 :=
      ⟨_, .stop sorted b1 hstop, fun c => ⟨id, id, fun ⟨_, e⟩ => Veto.none b3 e, id⟩⟩
    obtain ⟨v, hv⟩ := hI2.reachable.inv hw hn
    have hvo : ∀ i, (res i).1.owner = v := hv.sys.owner
    have hr1 := b1.reachable
    have ht := hi.sys.tiled
    have hnew : ∀ i x, x ∈ (res i).2 ↔ v x = some i ∧
        ∃ c, exist w c = true ∧ Finer g (exist v) c ∧ x ∈ g.children c := by
      intro i x
      have := (C27_new_cells hw hr1 hres i).2.2 x
      rw [hvo, b2.sys.owner] at this
      exact this
    have hrem : ∀ i c, c ∈ getRemovedCells g (res i).1 sorted' ↔ exist w c = true ∧ exist v c = false ∧
        v (g.parent c) = some i := by
      intro i c
      have := (C69_removed_cells hw hr1 hres i sorted').2.2 c
      rw [hvo, b2.sys.owner] at this
      exact this
    simp only [hvo] at hR hU
    -- a cell is not both a new child and a new parent
    have excl : ∀ x, (∃ c, exist w c = true ∧ WillRefine g want u c ∧ x ∈ g.children c) →
        ¬ ∃ c, exist w c = true ∧ 0 < g.lvl c ∧ x = g.parent c := by
      rintro x ⟨c0, e1, e2, e3⟩ ⟨c, e4, e5, rfl⟩
      have hf := (hR ⟨0, hn⟩ c0 e1).2 e2
      have hl0 : g.lvl c0 < g.maxLvl := by
        obtain ⟨y, p, y1, -, -, y2⟩ := hf
        have := lvl_le (hv.sys.tiled.valid y y1)
        omega
      have hc0 := ht.valid c0 e1
      have hc := ht.valid c e4
      obtain ⟨m1, m2, m3⟩ := (children_spec hw hc0 hl0).1 e3
      have p1 := mem_parent hw hc (mem_self (g := g) c)
      have p2 := mem_parent hw m1 p1
      rw [m3] at p2
      have := ht.unique _ _ _ e4 e1 (mem_self c) p2
      subst this
      rw [lvl_parent hw hc] at m2
      omega
    have hpar : ∀ i c, c ∈ getRemovedCells g (res i).1 sorted' → exist w c = true ∧ 0 < g.lvl c ∧
        WillUnrefine g want u c ∧ v (g.parent c) = some i := by
      intro i c hc
      obtain ⟨e1, e2, e3⟩ := (hrem i c).1 hc
      have hcv := ht.valid c e1
      have hl : 0 < g.lvl c := by
        apply Nat.pos_of_ne_zero
        intro h0
        unfold Cfg.parent at e3
        rw [if_pos h0] at e3
        rw [exist_of e3] at e2
        cases e2
      refine ⟨e1, hl, (hU ⟨0, hn⟩ c e1).1 ⟨g.parent c, g.idx c, exist_of e3, mem_parent hw hcv (mem_self c),
        mem_self c, ?_⟩, e3⟩
      rw [lvl_parent hw hcv]; omega
    have hchild : ∀ i x, x ∈ (res i).2 → ∃ c, exist w c = true ∧ WillRefine g want u c ∧ x ∈ g.children c := by
      intro i x hx
      obtain ⟨-, c, e1, e2, e3⟩ := (hnew i x).1 hx
      exact ⟨c, e1, (hR ⟨0, hn⟩ c e1).1 e2, e3⟩
    let V : Fin n → Nat → D := fun i x => if x ∈ (res i).2 then child x (access (res i).1 (g.parent x)) else
      parent x ((g.children x).map (access (res i).1))
    have hsets : ∀ op ∈ sets, ∃ i c, v c = some i ∧ op = .write i c (V i c) := by
      intro op hop
      obtain ⟨i, ⟨x, e1, rfl⟩ | ⟨c, e1, rfl⟩⟩ := (hset op).1 hop
      · refine ⟨i, x, ((hnew i x).1 e1).1, ?_⟩
        show _ = Op.write i x (if _ then _ else _)
        rw [if_pos e1]
      · obtain ⟨a1, a2, -, a3⟩ := hpar i c e1
        refine ⟨i, g.parent c, a3, ?_⟩
        show _ = Op.write i (g.parent c) (if _ then _ else _)
        rw [if_neg (fun e => excl _ (hchild i _ e) ⟨c, a1, a2, rfl⟩)]
    refine ⟨Ops.idle hI2 (fun op hop => ?_) h2, ?_⟩
    · obtain ⟨i, c, -, rfl⟩ := hsets op hop
      trivial
    obtain ⟨hi2, hd⟩ := Ops.writes (V := V) hv hsets h2
    have hac : ∀ (j : Fin n) x, exist v x = true ↔
        (exist w x = true ∧ ¬ WillRefine g want u x ∧ ¬ WillUnrefine g want u x) ∨
        (∃ c, exist w c = true ∧ WillRefine g want u c ∧ x ∈ g.children c) ∨
        ∃ c, exist w c = true ∧ WillUnrefine g want u c ∧ x = g.parent c := by
      intro j x
      have := b1.exist_after hw hres j x
      rw [hvo, b2.sys.owner] at this
      rw [this]
      refine or_congr ?_ (or_congr ?_ ?_)
      · constructor
        · rintro ⟨a, b, c⟩; exact ⟨a, by rw [← hR j x a]; exact b, by rw [← hU j x a]; exact c⟩
        · rintro ⟨a, b, c⟩; exact ⟨a, by rw [hR j x a]; exact b, by rw [hU j x a]; exact c⟩
      · exact ⟨fun ⟨c, a, b, d⟩ => ⟨c, a, (hR j c a).1 b, d⟩, fun ⟨c, a, b, d⟩ => ⟨c, a, (hR j c a).2 b, d⟩⟩
      · exact ⟨fun ⟨c, a, b, d⟩ => ⟨c, a, (hU j c a).1 b, d⟩, fun ⟨c, a, b, d⟩ => ⟨c, a, (hU j c a).2 b, d⟩⟩
    refine hi2.holds_of (fun i x e => ?_) (fun x e => ?_)
    · unfold adaptedField
      classical
      simp only [hEc]
      by_cases hx1 : ∃ c, exist w c = true ∧ WillRefine g want u c ∧ x ∈ g.children c
      · rw [if_pos hx1]
        obtain ⟨c, c1, c2, c3⟩ := hx1
        have hf := (hR i c c1).2 c2
        have hx : x ∈ (res i).2 := (hnew i x).2 ⟨e, c, c1, hf, c3⟩
        have hVx : V i x = child x (access (res i).1 (g.parent x)) := if_pos hx
        rw [(hd i x e).1 (by rw [hVx]; exact (hset _).2 ⟨i, Or.inl ⟨x, hx, rfl⟩⟩), hVx]
        have hl0 : g.lvl c < g.maxLvl := by
          obtain ⟨y, p, y1, -, -, y2⟩ := hf
          have := lvl_le (hv.sys.tiled.valid y y1)
          omega
        have hpx : g.parent x = c := ((children_spec hw (ht.valid c c1) hl0).1 c3).2.2
        rw [hpx]
        have hf' : Finer g (exist (res i).1.owner) c := by rw [hvo]; exact hf
        have ho := (C27_owners hw hr1 hres i (by rw [b2.sys.owner]; exact c1)).1 hf' x c3
        rw [hvo, e] at ho
        obtain ⟨q1, -⟩ := C28_data (j := i) hw hr1 hres ho.symm
        rw [q1 hf', b8]
        rw [b2.sys.owner] at ho
        rw [((hu i c).1 i (by rw [hi.sys.owner]; exact ho.symm)).2]
      · rw [if_neg hx1]
        by_cases hx2 : ∃ c, exist w c = true ∧ WillUnrefine g want u c ∧ x = g.parent c
        · rw [if_pos hx2]
          obtain ⟨c, c1, c2, rfl⟩ := hx2
          have hcv := ht.valid c c1
          have hl := c2.1
          have hkids : ∀ y ∈ g.children (g.parent c), exist w y = true ∧ Coarser g (exist (res i).1.owner) y ∧
              g.parent y = g.parent c := by
            intro y hy
            obtain ⟨y1, y2, y3⟩ := (children_spec hw (parent_valid hw hcv) (lvl_parent_lt hw hcv hl)).1 hy
            refine ⟨by have := (c2.2.2.1 y hy).1; rwa [hEc] at this, ?_, y3⟩
            refine ⟨g.parent c, g.idx y, by rw [hvo]; exact exist_of e, by rw [← y3]; exact mem_parent hw y1 (mem_self y),
              mem_self y, by omega⟩
          have hcr : c ∈ getRemovedCells g (res i).1 sorted' := by
            refine (hrem i c).2 ⟨c1, ?_, e⟩
            cases hx : exist v c with
            | false => rfl
            | true =>
              have := hv.sys.tiled.unique _ _ _ (exist_of e) hx (mem_parent hw hcv (mem_self c)) (mem_self c)
              have h3 := lvl_parent hw hcv
              rw [this] at h3
              omega
          have hVx : V i (g.parent c) = parent (g.parent c) ((g.children (g.parent c)).map (access (res i).1)) :=
            if_neg (fun h => hx1 (hchild i _ h))
          rw [(hd i _ e).1 (by rw [hVx]; exact (hset _).2 ⟨i, Or.inr ⟨c, hcr, rfl⟩⟩), hVx]
          congr 2
          apply List.map_congr_left
          intro y hy
          obtain ⟨y1, y2, y3⟩ := hkids y hy
          obtain ⟨q, hq⟩ := own y y1
          have hq' : (s1 q).owner y = some q := by rw [b2.sys.owner]; exact hq
          obtain ⟨-, q2, -⟩ := C28_data (j := i) hw hr1 hres hq'
          rw [q2 (by rw [hvo] at y2 ⊢; exact y2) (by rw [hvo, y3]; exact e), b8]
          exact ((hu q y).1 q (by rw [hi.sys.owner]; exact hq)).2
        · rw [if_neg hx2]
          have hx3 := ((hac i x).1 (exist_of e)).resolve_right (fun h => h.elim hx1 hx2)
          rw [if_pos hx3]
          obtain ⟨c1, c2, c3⟩ := hx3
          have hno : Op.write i x (V i x) ∉ sets := by
            intro hm
            obtain ⟨i', ⟨y, d1, d2⟩ | ⟨y, d1, d2⟩⟩ := (hset _).1 hm
            · injection d2 with d2 d3
              subst d3
              exact hx1 (hchild i' _ d1)
            · injection d2 with d2 d3
              obtain ⟨f1, f2, f3, -⟩ := hpar i' y d1
              exact hx2 ⟨y, f1, f3, d3⟩
          rw [(hd i x e).2 hno]
          have hnf : ¬ Finer g (exist (res i).1.owner) x := by rw [hvo, hR i x c1]; exact c2
          have hnc : ¬ Coarser g (exist (res i).1.owner) x := by rw [hvo, hU i x c1]; exact c3
          have ho := (C27_owners hw hr1 hres i (by rw [b2.sys.owner]; exact c1)).2.2 hnf hnc
          rw [hvo, e] at ho
          obtain ⟨-, -, q3, -⟩ := C28_data (j := i) hw hr1 hres ho.symm
          rw [← (hv.access_own e).1, q3 hnf hnc, b8]
          rw [b2.sys.owner] at ho
          exact ((hu i x).1 i (by rw [hi.sys.owner]; exact ho.symm)).2
    · have hno : ¬ exist v x = true := by unfold exist; rw [e]; simp
      rw [hac ⟨0, hn⟩ x] at hno
      unfold adaptedField
      classical
      simp only [hEc]
      rw [if_neg (fun h => hno (Or.inr (Or.inl h))), if_neg (fun h => hno (Or.inr (Or.inr h))),
        if_neg (fun h => hno (Or.inl h))]

/-! ## The property -/

/-- Data of all cells after a stage. -/
noncomputable def SimStage.field (g : Cfg) : SimStage D → (Nat → Option D) → Nat → Option D
  | .sweep _ H f, u => sweptField g H f u
  | .adapt want child parent, u => adaptedField g want child parent u
  | .move, u => u

theorem Performs.holds {x : SimStage D} {u : Nat → Option D} (hw : g.WF) (hn : 0 < n) (h : Idle g dflt maxTag s)
    (hu : Holds s u) (hp : Performs g dflt maxTag x s t) : Idle g dflt maxTag t ∧ Holds t (x.field g u) := by
  cases x with
  | sweep id H f => exact hp.sweep_holds hw hn h hu
  | adapt want child parent => exact hp.adapt_holds hw hn h hu
  | move =>
    cases hp with
    | move hp => exact hp.moves_holds hw hn h hu

theorem Simulates.holds {l : List (SimStage D)} {u : Nat → Option D} (hw : g.WF) (hn : 0 < n) (h : Idle g dflt maxTag s)
    (hu : Holds s u) (hp : Simulates g dflt maxTag l s t) :
    Idle g dflt maxTag t ∧ Holds t (l.foldl (fun u x => x.field g u) u) := by
  induction hp generalizing u with
  | nil => exact ⟨h, hu⟩
  | cons h1 _ ih =>
    obtain ⟨h2, h3⟩ := h1.holds hw hn h hu
    exact ih h2 h3

/-- C115: if two runs of a simulation, with different numbers of processes and anything else about them different, start
from the same cells and data they end with the same cells and data. -/
theorem C115_same_results {n' : Nat} {W' : Type} {dflt' : D} {maxTag' : Nat} {t t' : Sys n' D W'} (hw : g.WF)
    (hn : 0 < n) (hn' : 0 < n') (h : Idle g dflt maxTag s) (h' : Idle g dflt' maxTag' t) (hst : SameData s t)
    {l : List (SimStage D)} (h1 : Simulates g dflt maxTag l s s') (h2 : Simulates g dflt' maxTag' l t t') :
    SameData s' t' := by
  obtain ⟨w, hi⟩ := h.reachable.inv hw hn
  obtain ⟨v, hj⟩ := h'.reachable.inv hw hn'
  obtain ⟨u, hu, hv⟩ := hst.holds hi hj hn hn'
  exact (h1.holds hw hn h hu).2.same (h2.holds hw hn' h' hv).2

/-- C115: every process that owns a neighbor's cell gets its data in a sweep: functions that calculate new data never see
a cell without data. -/
theorem C115_data_is_there {id : Int} {H : List (V3 Int)} {s1 : Sys n D W} (hw : g.WF) (h : Idle g dflt maxTag s)
    (hH : ∀ i, hoodFor g (s i) id = some H) (h1 : step g dflt maxTag s (.update id) = .ok s1) (i : Fin n) {c : Nat}
    (hc : (s i).owner c = some i) :
    (∃ d, access (s1 i) c = some d) ∧ ∃ l, getNeighborsOf g (s1 i) c id = some l ∧ ∀ x ∈ l,
      ∃ d, access (s1 i) x.1 = some d ∧ ∀ j, (s i).owner x.1 = some j → access (s j) x.1 = some d := by
  have hn : 0 < n := by have := i.2; omega
  obtain ⟨w, hi⟩ := h.reachable.inv hw hn
  obtain ⟨u, hu⟩ := hi.holds
  obtain ⟨-, -, e1, l, e2, e3, e4⟩ := updated_access hw h.reachable hu hH h1 hc
  have hsome : ∀ b, exist (s i).owner b = true → ∃ d, u b = some d := by
    intro b hb
    have := ((hu i b).2).1 hb
    cases hx : u b with
    | none => exact absurd hx this
    | some d => exact ⟨d, rfl⟩
  refine ⟨by rw [e1]; exact hsome c (exist_of hc), l, e2, ?_⟩
  rintro ⟨b, off⟩ hb
  obtain ⟨f, g1, -, g3⟩ := hi.neighborsOf hw (hH i) (by rw [hi.sys.owner] at hc; exact exist_of hc)
  have g1' : getNeighborsOf g (s1 i) c id = getNeighborsOf g (s i) c id := by
    obtain ⟨res, hr, e⟩ := Out.bind_inv h1
    injection e with e
    rw [← e]
    show getNeighborsOf g (res i).2 c id = _
    rw [(C33_rest hw h.reachable hr i).1]
    rfl
  rw [g1', g1] at e2
  injection e2 with e2
  have hE : exist (s i).owner b = true := by rw [hi.sys.owner]; exact ((g3 b).1 ⟨off, by rw [e2]; exact hb⟩).1
  obtain ⟨d, hd⟩ := hsome b hE
  exact ⟨d, by rw [e4 _ hb]; exact hd, fun j hj => by rw [((hu i b).1 j hj).1]; exact hd⟩

/-! ## Stages can be performed -/

theorem Ops.reachable {ops : List (Op n D W)} (hs : Ops g dflt maxTag s ops t) (h : Reachable g dflt maxTag s) :
    Reachable g dflt maxTag t := by
  induction hs with
  | nil => exact h
  | cons ho h1 _ ih => exact ih (.step _ h ho h1)

theorem Ops.exists_calm (hw : g.WF) (hn : 0 < n) (hm : g.last ≤ maxTag) (ops : List (Op n D W))
    (hk : ∀ op ∈ ops, op.caller ≠ none) (h : Reachable g dflt maxTag s) : ∃ t, Ops g dflt maxTag s ops t := by
  induction ops generalizing s with
  | nil => exact ⟨s, .nil s⟩
  | cons op ops ih =>
    have hc := hk op (List.mem_cons_self ..)
    have ho : ∀ s : Sys n D W, op.Ok s ∧ op.Known g s := by
      intro s
      cases op <;> first | exact ⟨trivial, trivial⟩ | exact absurd rfl hc
    obtain ⟨w, hi⟩ := h.inv hw hn
    obtain ⟨s1, h1⟩ := step_ok hw hn dflt hi hm op (ho s).1 (ho s).2
    obtain ⟨t, h2⟩ := ih (fun op h => hk op (List.mem_cons_of_mem _ h)) (.step op h (ho s).1 h1)
    exact ⟨t, .cons (ho s).1 h1 h2⟩

/-- Calls of all processes for their cells in some order. -/
theorem exists_calls (hi : Inv g w s) (f : Fin n → Nat → List (Op n D W)) :
    ∃ ops : List (Op n D W), ∀ op, op ∈ ops ↔ ∃ i c, w c = some i ∧ op ∈ f i c := by
  refine ⟨(List.finRange n).flatMap fun i => (ids g).flatMap fun c => if w c = some i then f i c else [], fun op => ?_⟩
  simp only [List.mem_flatMap]
  constructor
  · rintro ⟨i, -, c, -, h⟩
    split at h
    · rename_i e; exact ⟨i, c, e, h⟩
    · cases h
  · rintro ⟨i, c, e, h⟩
    exact ⟨i, List.mem_finRange i, c, mem_ids.2 (hi.sys.tiled.valid c (exist_of e)).2, by rw [if_pos e]; exact h⟩

/-- C115: every stage can be performed. -/
theorem C115_possible (hw : g.WF) (hn : 0 < n) (hm : g.last ≤ maxTag) (h : Idle g dflt maxTag s) (x : SimStage D)
    (hx : ∀ id H f, x = .sweep id H f → ∀ i, hoodFor g (s i) id = some H) :
    ∃ t, Performs g dflt maxTag x s t ∧ Idle g dflt maxTag t := by
  obtain ⟨w, hi⟩ := h.reachable.inv hw hn
  obtain ⟨u, hu⟩ := hi.holds
  suffices ∃ t, Performs g dflt maxTag x s t by
    obtain ⟨t, ht⟩ := this
    exact ⟨t, ht, (ht.holds hw hn h hu).1⟩
  cases x with
  | sweep id H f =>
    have hH := hx id H f rfl
    obtain ⟨s1, h1⟩ := step_ok hw hn dflt hi hm (.update id) trivial (fun i => by rw [hH]; rfl)
    have hr1 : Reachable g dflt maxTag s1 := .step (.update id) h.reachable trivial h1
    obtain ⟨w1, hi1⟩ := hr1.inv hw hn
    obtain ⟨ops, hops⟩ := exists_calls hi1 (fun i c => [Op.write i c (sweepValue g (s1 i) id f c)])
    obtain ⟨t, ht⟩ := Ops.exists_calm hw hn hm ops (fun op hop => by
      obtain ⟨i, c, -, e⟩ := (hops op).1 hop
      rw [List.mem_singleton] at e
      subst e
      intro e; cases e) hr1
    refine ⟨t, .sweep hH h1 (fun op => ?_) ht⟩
    rw [hops]
    simp only [List.mem_singleton, hi1.sys.owner]
  | adapt want child parent =>
    obtain ⟨asks, hasks⟩ := exists_calls hi (fun i c => match want c (access (s i) c) with
      | .nothing => []
      | .refine => [Op.refine i c]
      | .unrefine => [Op.unrefine i c]
      | .hold => [Op.dontUnrefine i c])
    have hasks' : ∀ op, op ∈ asks ↔ ∃ i c, (s i).owner c = some i ∧
        (want c (access (s i) c) = .refine ∧ op = .refine i c ∨
         want c (access (s i) c) = .unrefine ∧ op = .unrefine i c ∨
         want c (access (s i) c) = .hold ∧ op = .dontUnrefine i c) := by
      intro op
      rw [hasks]
      simp only [hi.sys.owner]
      refine exists_congr fun i => exists_congr fun c => and_congr_right fun _ => ?_
      cases want c (access (s i) c) <;> simp
    obtain ⟨s1, h1⟩ := Ops.exists_calm hw hn hm asks (fun op hop => by
      obtain ⟨i, c, -, e⟩ := (hasks' op).1 hop
      rcases e with ⟨-, e⟩ | ⟨-, e⟩ | ⟨-, e⟩ <;> (subst e; intro e; cases e)) h.reachable
    have hr1 : Reachable g dflt maxTag s1 := h1.reachable h.reachable
    obtain ⟨w1, hi1⟩ := hr1.inv hw hn
    obtain ⟨s2, h2⟩ := step_ok hw hn dflt hi1 hm (.stop true) trivial trivial
    obtain ⟨res, hres, e⟩ := Out.bind_inv h2
    injection e with e
    have hr2 : Reachable g dflt maxTag fun i => (res i).1 := by rw [e]; exact .step (.stop true) hr1 trivial h2
    let sets : List (Op n D W) := (List.finRange n).flatMap fun i =>
      ((res i).2.map fun x => Op.write i x (child x (access (res i).1 (g.parent x)))) ++
      (getRemovedCells g (res i).1 true).map fun c => Op.write i (g.parent c)
          (parent (g.parent c) ((g.children (g.parent c)).map (access (res i).1)))
    have hsets : ∀ op, op ∈ sets ↔ ∃ i,
        (∃ x ∈ (res i).2, op = .write i x (child x (access (res i).1 (g.parent x)))) ∨
        ∃ c ∈ getRemovedCells g (res i).1 true, op = .write i (g.parent c)
          (parent (g.parent c) ((g.children (g.parent c)).map (access (res i).1))) := by
      intro op
      simp only [sets, List.mem_flatMap, List.mem_append, List.mem_map, List.mem_finRange, true_and]
      simp only [eq_comm]
    obtain ⟨t, ht⟩ := Ops.exists_calm hw hn hm sets (fun op hop => by
      obtain ⟨i, ⟨x, -, e⟩ | ⟨c, -, e⟩⟩ := (hsets op).1 hop <;> (subst e; intro e; cases e)) hr2
    exact ⟨t, .adapt hasks' h1 hres hsets ht⟩
  | move => exact ⟨s, .move (.refl s)⟩

/-- C115: simulations that use the default neighborhood can always be performed. -/
theorem C115_possible_all (hw : g.WF) (hn : 0 < n) (hm : g.last ≤ maxTag) (h : Idle g dflt maxTag s)
    (l : List (SimStage D)) (hl : ∀ id H f, SimStage.sweep id H f ∈ l → id = defaultId ∧ H = hoodOf g) :
    ∃ t, Simulates g dflt maxTag l s t ∧ Idle g dflt maxTag t := by
  induction l generalizing s with
  | nil => exact ⟨s, .nil s, h⟩
  | cons x l ih =>
    obtain ⟨s1, h1, h1'⟩ := C115_possible hw hn hm h x (fun id H f e i => by
      subst e
      obtain ⟨e1, e2⟩ := hl id H f (List.mem_cons_self ..)
      subst e1; subst e2
      unfold hoodFor
      rw [if_pos rfl])
    obtain ⟨t, h2, h2'⟩ := ih h1' (fun id H f e => hl id H f (List.mem_cons_of_mem _ e))
    exact ⟨t, .cons h1 h2, h2'⟩

/-- C115: `initialize` gives the same cells and data with any numbers of processes. -/
theorem C115_initialize {n' : Nat} {W' : Type} {maxTag' : Nat} {t : Sys n' D W'} (hw : g.WF)
    (h : createGrid g n dflt maxTag = .ok s) (h' : createGrid g n' dflt maxTag' = .ok t) :
    Idle g dflt maxTag s ∧ Idle g dflt maxTag' t ∧ SameData s t := by
  refine ⟨⟨_, .init h, fun c => ⟨id, id, id, id⟩⟩, ⟨_, .init h', fun c => ⟨id, id, id, id⟩⟩, ?_⟩
  obtain ⟨f, hf⟩ := C10_initial_distribution hw h
  obtain ⟨f', hf'⟩ := C10_initial_distribution hw h'
  refine ⟨fun i j c => ?_, fun i j c e e' => ?_⟩
  · rw [Bool.eq_iff_iff, (hf i).2.1, (hf' j).2.1]
  · unfold access
    rw [(hf i).2.2 c, (hf' j).2.2 c, if_pos e, if_pos e']

/-- A simulation: add data of neighbors, refine cell 1 and unrefine everything that has more than 5, move cells, and add data
of neighbors again. -/
def tinyStages : List (SimStage Nat) :=
  let f : Nat → Option Nat → List ((Nat × V3 Int) × Option Nat) → Nat :=
    fun c d l => c + d.getD 0 + (l.map fun x => x.2.getD 0).sum
  [.sweep defaultId (hoodOf tinyG) f,
    .adapt (fun c d => if c = 1 then .refine else if d.getD 0 > 5 then .unrefine else .hold)
      (fun c d => c + d.getD 0) (fun _ l => (l.map fun x => x.getD 0).sum),
    .move, .sweep defaultId (hoodOf tinyG) f]

/-- On two processes and on one. -/
theorem tiny_simulated : ∃ (s s' : Sys 2 Nat Nat) (t t' : Sys 1 Nat Nat), Idle tinyG 0 146 s ∧ Idle tinyG 0 146 t ∧
    SameData s t ∧ Simulates tinyG 0 146 tinyStages s s' ∧ Simulates tinyG 0 146 tinyStages t t' := by
  obtain ⟨s, h1, -⟩ := createGrid_spec (n := 2) (W := Nat) (maxTag := 146) tiny_wf (by omega) (0 : Nat)
    (fitsTags_mono (by rw [tiny_last]; exact Nat.le_refl _)
      (fitsTags_last (createLevel0_tiled tiny_wf (by omega)).valid))
  obtain ⟨t, h2, -⟩ := createGrid_spec (n := 1) (W := Nat) (maxTag := 146) tiny_wf (by omega) (0 : Nat)
    (fitsTags_mono (by rw [tiny_last]; exact Nat.le_refl _)
      (fitsTags_last (createLevel0_tiled tiny_wf (by omega)).valid))
  obtain ⟨a, b, c⟩ := C115_initialize tiny_wf h1 h2
  have hl : ∀ id H f, SimStage.sweep id H f ∈ tinyStages → id = defaultId ∧ H = hoodOf tinyG := by
    intro id H f hm
    simp only [tinyStages, List.mem_cons, List.not_mem_nil, or_false] at hm
    rcases hm with e | e | e | e
    · injection e with e1 e2 _; exact ⟨e1, e2⟩
    · cases e
    · cases e
    · injection e with e1 e2 _; exact ⟨e1, e2⟩
  obtain ⟨s', d, -⟩ := C115_possible_all tiny_wf (by omega) (by rw [tiny_last]; exact Nat.le_refl _) a tinyStages hl
  obtain ⟨t', e, -⟩ := C115_possible_all tiny_wf (by omega) (by rw [tiny_last]; exact Nat.le_refl _) b tinyStages hl
  exact ⟨s, s', t, t', a, b, c, d, e⟩

/-- Hypotheses of `C115_same_results` are met. -/
example : ∃ (s s' : Sys 2 Nat Nat) (t t' : Sys 1 Nat Nat) (l : List (SimStage Nat)), tinyG.WF ∧ Idle tinyG 0 146 s ∧
    Idle tinyG 0 146 t ∧ SameData s t ∧ l.length = 4 ∧ Simulates tinyG 0 146 l s s' ∧ Simulates tinyG 0 146 l t t' := by
  obtain ⟨s, s', t, t', a, b, c, d, e⟩ := tiny_simulated
  exact ⟨s, s', t, t', tinyStages, tiny_wf, a, b, c, rfl, d, e⟩

/-- Hypotheses of `C115_data_is_there` are met. -/
example : ∃ (s s1 : Sys 2 Nat Nat), tinyG.WF ∧ Idle tinyG 0 146 s ∧
    (∀ i, hoodFor tinyG (s i) defaultId = some (hoodOf tinyG)) ∧ step tinyG 0 146 s (.update defaultId) = .ok s1 ∧
    (s 0).owner 1 = some 0 := by
  obtain ⟨s, h1, h2, h3, h4, h5, h6, h7, h8⟩ := tiny_init
  obtain ⟨s1, e1, e2⟩ := tiny_step h2 (.update defaultId) trivial (fun i => by unfold hoodFor; rw [if_pos rfl]; rfl)
  exact ⟨s, s1, tiny_wf, ⟨_, .init h1, fun c => ⟨id, id, id, id⟩⟩, fun i => by unfold hoodFor; rw [if_pos rfl], e1,
    by rw [h3.sys.owner]; exact h7⟩

end Dccrg
