import Verif.Props.Restarts
import Verif.Props.Solver
/-!
# C117: restarting a simulation does not change its results

Simulations are those of C115 (Verif/Props/Solver.lean), restarts are those of C114 (Verif/Props/Restarts.lean): the grid is saved to a
file and another program loads the file with any number of processes.
-/
namespace Dccrg
open Cfg
variable {n n' : Nat} {D W : Type} {M : Meta} {g : Cfg} {dflt : D} {maxTag : Nat} {s s' t : Sys n D W}

/-- Grid `s'` is what has become of `s` when stages `l` have been performed, with any number of restarts before, between and
after stages. Number of processes, data of new cells and maximum tag of messages are those of the last restart. -/
inductive Computes (M : Meta) {D W : Type} {n : Nat} (dflt : D) (maxTag : Nat) (s : Sys n D W) :
    List (SimStage D) → {n' : Nat} → D → Nat → Sys n' D W → Prop
  | nil : Computes M dflt maxTag s [] dflt maxTag s
  | stage {l : List (SimStage D)} {n' : Nat} {dflt' : D} {maxTag' : Nat} {s1 s2 : Sys n' D W} (x : SimStage D) :
      Computes M dflt maxTag s l dflt' maxTag' s1 → Performs M.grid dflt' maxTag' x s1 s2 →
      Computes M dflt maxTag s (l ++ [x]) dflt' maxTag' s2
  | restart {l : List (SimStage D)} {n' n'' : Nat} {dflt' : D} {maxTag' : Nat} {s1 : Sys n' D W} {s2 : Sys n'' D W}
      (r : Restart n' n'' D) : Computes M dflt maxTag s l dflt' maxTag' s1 → r.Fits M s1 → r.Gives M s1 s2 →
      Computes M dflt maxTag s l r.d0 r.maxTag s2

/-! ## Grids without copies of remote neighbors -/

/-- State `s` is `s0`, or it has been loaded and does not have copies of remote neighbors yet. -/
def Nearly (g : Cfg) (dflt : D) (s s0 : Sys n D W) : Prop :=
  s = s0 ∨ Bare g dflt s0 ∧ s = noCopies s0

theorem Nearly.inv {w : Owner n} {s0 : Sys n D W} (h : Nearly g dflt s s0) (hi : Inv g w s0) : Inv g w s := by
  rcases h with e | ⟨-, e⟩
  · rw [e]; exact hi
  · rw [e]; exact hi.noCopies

theorem Nearly.holds {w : Owner n} {s0 : Sys n D W} {u : Nat → Option D} (h : Nearly g dflt s s0) (hi : Inv g w s0)
    (hu : Holds s0 u) : Holds s u := by
  rcases h with e | ⟨-, e⟩
  · rw [e]; exact hu
  · intro i c
    have e' : (s i).owner = (s0 i).owner := by rw [e]; rfl
    rw [e']
    refine ⟨fun j hj => ?_, (hu i c).2⟩
    have h1 := ((hu i c).1 j hj).2
    have hd : (s j).data c = (s0 j).data c := by rw [e]; rfl
    rw [hi.sys.owner] at hj
    have hi' : Inv g w s := by rw [e]; exact hi.noCopies
    exact ⟨by rw [(hi'.access_own hj).1, hd, h1], by rw [hd, h1]⟩

/-- Requests without copies. -/
theorem Ops.asks_bare {s0 s1 : Sys n D W} {ops : List (Op n D W)} (hw : g.WF)
    (hc : ∀ op ∈ ops, ∃ i c, op = .refine i c ∨ op = .unrefine i c ∨ op = .dontUnrefine i c)
    (hr : Reachable g dflt maxTag s0) (hb : Bare g dflt s0) (h : Ops g dflt maxTag (noCopies s0) ops s1) :
    ∃ t, Ops g dflt maxTag s0 ops t ∧ s1 = noCopies t := by
  generalize hx : noCopies s0 = x at h
  induction h generalizing s0 with
  | nil => exact ⟨s0, .nil _, hx.symm⟩
  | @cons x x1 x2 op ops ho h1 _ ih =>
    subst hx
    obtain ⟨i, c, hop⟩ := hc op (List.mem_cons_self ..)
    have ho' : op.Ok s0 := by rcases hop with e | e | e <;> (subst e; trivial)
    have h2 : ∃ s', step g dflt maxTag s0 op = .ok s' ∧ Bare g dflt s' ∧ x1 = noCopies s' := by
      rcases hop with e | e | e <;> subst e <;>
      · obtain ⟨s', e1, e2⟩ := Out.bind_inv ((ask_noCopies (s := s0) i _).symm.trans h1)
        injection e2 with e2
        rcases step_bare hw hr hb h1 with h3 | ⟨s'', h3, h4, h5, -⟩ | ⟨-, _, _, _, h3⟩
        · refine ⟨s', e1, ?_, e2.symm⟩
          obtain ⟨b, r, -, rfl⟩ := ask_inv e1
          have e : ∀ j, ((s0.set i { s0 i with req := r }) j) =
              { s0 j with req := ((s0.set i { s0 i with req := r }) j).req } := by
            intro j
            unfold Sys.set
            split
            · rename_i e; subst e; rfl
            · rfl
          constructor
          · intro j c; rw [e]; exact hb.lvl j c
          · intro j; rw [e]; exact hb.hoods j
          · intro j c; rw [e]; exact hb.remote j c
          · intro j c; rw [e]; exact hb.refined j c
          · intro j c; rw [e]; exact hb.unrefined j c
        · exact ⟨s'', h3, h4, h5⟩
        · cases h3
    obtain ⟨s', e1, e2, e3⟩ := h2
    obtain ⟨t, f1, f2⟩ := ih (fun op h => hc op (List.mem_cons_of_mem _ h)) (.step op hr ho' e1) e2 e3.symm
    exact ⟨t, .cons ho' e1 f1, f2⟩

/-- The same requests with and without copies. -/
theorem Ops.asks_noCopies {s0 s1 : Sys n D W} {ops : List (Op n D W)}
    (hc : ∀ op ∈ ops, ∃ i c, op = .refine i c ∨ op = .unrefine i c ∨ op = .dontUnrefine i c)
    (h : Ops g dflt maxTag s0 ops s1) : Ops g dflt maxTag (noCopies s0) ops (noCopies s1) := by
  induction h with
  | nil => exact .nil _
  | @cons x x1 x2 op ops ho h1 _ ih =>
    obtain ⟨i, c, hop⟩ := hc op (List.mem_cons_self ..)
    refine .cons (s1 := noCopies x1) ?_ ?_ (ih (fun op h => hc op (List.mem_cons_of_mem _ h)))
    · rcases hop with e | e | e <;> (subst e; trivial)
    · rcases hop with e | e | e <;> subst e <;>
      · refine (ask_noCopies (s := x) i _).trans ?_
        exact congrArg (fun o => o.bind fun s' => Out.ok (noCopies s')) h1

theorem access_noCopies {w : Owner n} {s0 : Sys n D W} (hi : Inv g w s0) {i : Fin n} {c : Nat} (h : (s0 i).owner c = some i) :
    access (noCopies s0 i) c = access (s0 i) c := by
  rw [hi.sys.owner] at h
  rw [(hi.access_own h).1, (hi.noCopies.access_own h).1]
  rfl

/-- Stages performed with a loaded grid give what they give with copies of remote neighbors. -/
theorem Performs.nearly {x : SimStage D} {s0 : Sys n D W} (hw : g.WF) (hn : 0 < n) (h : Idle g dflt maxTag s0)
    (hs : Nearly g dflt s s0) (hp : Performs g dflt maxTag x s t) :
    ∃ t0, Performs g dflt maxTag x s0 t0 ∧ Nearly g dflt t t0 := by
  rcases hs with e | ⟨hb, e⟩
  · subst e
    exact ⟨t, hp, Or.inl rfl⟩
  subst e
  have hr := h.reachable
  obtain ⟨w, hi⟩ := hr.inv hw hn
  cases hp with
  | @sweep id H f _ s1 _ ops hH h1 hops h2 =>
    refine ⟨t, .sweep hH ?_ hops h2, Or.inl rfl⟩
    rcases step_bare hw hr hb h1 with h3 | ⟨_, _, _, _, h3⟩ | ⟨-, _, _, _, h3⟩
    · exact h3
    · exact h3.elim
    · cases h3
  | @adapt want child parent _ s1 _ asks sets sorted sorted' res hask h1 hres hset h2 =>
    have hc : ∀ op ∈ asks, ∃ i c, op = .refine i c ∨ op = .unrefine i c ∨ op = .dontUnrefine i c := by
      intro op hop
      obtain ⟨i, c, -, e⟩ := (hask op).1 hop
      exact ⟨i, c, e.imp And.right (Or.imp And.right And.right)⟩
    obtain ⟨s1', e1, e2⟩ := Ops.asks_bare hw hc hr hb h1
    subst e2
    rw [stopRefining_noCopies] at hres
    refine ⟨t, .adapt (fun op => ?_) e1 hres hset h2, Or.inl rfl⟩
    rw [hask]
    refine exists_congr fun i => exists_congr fun c => and_congr_right fun hc => ?_
    rw [access_noCopies hi hc]
  | move hm =>
    suffices ∃ t0, Runs g dflt maxTag Op.Moves s0 t0 ∧ Nearly g dflt t t0 by
      obtain ⟨t0, e1, e2⟩ := this
      exact ⟨t0, .move e1, e2⟩
    clear hi
    induction hm with
    | refl => exact ⟨s0, .refl _, Or.inr ⟨hb, rfl⟩⟩
    | @step x1 x2 op _ hm ho h1 ih =>
      obtain ⟨y, f1, f2⟩ := ih
      rcases f2 with e | ⟨hb', e⟩
      · subst e
        exact ⟨x2, .step op f1 hm ho h1, Or.inl rfl⟩
      · subst e
        have hy : Reachable g dflt maxTag y := f1.reachable hr
        have ho' : op.Ok y := by cases op <;> exact ho
        rcases step_bare hw hy hb' h1 with h3 | ⟨s2, h3, h4, h5, -⟩ | ⟨-, _, _, _, h3⟩
        · exact ⟨x2, .step op f1 hm ho' h3, Or.inl rfl⟩
        · exact ⟨s2, .step op f1 hm ho' h3, Or.inr ⟨h4, h5⟩⟩
        · subst h3; cases hm

/-- Loaded grids. -/
theorem Restart.Gives.nearly {r : Restart n n' D} {s0 : Sys n D W} {s' : Sys n' D W} {u : Nat → Option D} (hok : M.mapping.OK)
    (hM : M.Readable) (hn : 0 < n) (h : Idle M.grid dflt maxTag s0) (hs : Nearly M.grid dflt s s0) (hu : Holds s0 u)
    (hr : r.Fits M s) (hg : r.Gives M s s') :
    ∃ t, Idle M.grid r.d0 r.maxTag t ∧ Nearly M.grid r.d0 s' t ∧ Holds t u := by
  have hw : M.grid.WF := grid_wf hok
  obtain ⟨w, hi⟩ := h.reachable.inv hw hn
  have hd : ∀ i, (s i).data = (s0 i).data := by
    intro i
    rcases hs with e | ⟨-, e⟩ <;> rw [e] <;> rfl
  obtain ⟨ws, l, hdr, hsave, hl, hload⟩ := hg
  have h1 := hr.mine
  have h2 := hr.cells
  have h3 := hr.fileEnd
  simp only [hd] at h1 h2 h3 hsave
  obtain ⟨s2, -, -, -, -, -, e1, -, e2, e3, e4⟩ := load_saved (W := W) hn hr.procs hok hM hr.geom h.reachable h1 hr.header.1
    hr.header.2.1 hr.header.2.2 hsave hl r.f h2 hr.tags hr.count h3 hr.ord
  rw [hload] at e1
  injection e1 with e1
  injection e1 with e1
  injection e1 with _ e1
  injection e1 with _ e1
  subst e1
  have key : ∃ t, Unasked M.grid r.d0 r.maxTag t ∧ Nearly M.grid r.d0 s' t := by
    by_cases hlv : ∃ i c, exist (s0 i).owner c = true ∧ 0 < M.grid.lvl c
    · exact ⟨s', e2 hlv, Or.inl rfl⟩
    · obtain ⟨s'', f1, f2, f3⟩ := e3 (fun i c hc => Classical.byContradiction fun h => hlv ⟨i, c, hc, by omega⟩)
      exact ⟨s'', f1, Or.inr ⟨f2, f3⟩⟩
  obtain ⟨t, ht, hnear⟩ := key
  have hI : Idle M.grid r.d0 r.maxTag t := by
    obtain ⟨k, f0, f1, f2, f3, f4⟩ := ht
    exact ⟨k, f0, fun c => ⟨fun e => (f1 c).1 e, f2 c, f3 c, f4 c⟩⟩
  refine ⟨t, hI, hnear, ?_⟩
  obtain ⟨v, hv⟩ := hI.reachable.inv hw hr.procs
  have ho : ∀ i, (s' i).owner = (t i).owner ∧ (s' i).data = (t i).data := by
    intro i
    rcases hnear with e | ⟨-, e⟩ <;> rw [e] <;> exact ⟨rfl, rfl⟩
  refine hv.holds_of (fun j c e => ?_) (fun c e => ?_)
  · have hj : (s' j).owner c = some j := by rw [(ho j).1, hv.sys.owner]; exact e
    have hx := (e4 ⟨0, hn⟩ j c).1
    rw [exist_of hj] at hx
    rw [hi.sys.owner] at hx
    obtain ⟨p, hp⟩ := Option.isSome_iff_exists.1 hx.symm
    have hp' : (s0 p).owner c = some p := by rw [hi.sys.owner]; exact hp
    obtain ⟨d, hd'⟩ := Option.isSome_iff_exists.1 ((hi.sys.placed p c).2 hp)
    have h5 := (e4 p j c).2 d hd' hj
    rw [← (ho j).2, h5, ← ((hu p c).1 p hp').2, hd']
  · have hx := (e4 ⟨0, hn⟩ ⟨0, hr.procs⟩ c).1
    rw [(ho _).1, hv.sys.owner] at hx
    have := (hu ⟨0, hn⟩ c).2
    rw [← hx] at this
    unfold exist at this
    rw [e] at this
    simpa using this

theorem Computes.holds {l : List (SimStage D)} {dflt' : D} {maxTag' : Nat} {s' : Sys n' D W} {u : Nat → Option D}
    (hok : M.mapping.OK) (hM : M.Readable) (hn : 0 < n) (h : Idle M.grid dflt maxTag s) (hu : Holds s u)
    (hc : Computes M dflt maxTag s l dflt' maxTag' s') :
    0 < n' ∧ ∃ t, Idle M.grid dflt' maxTag' t ∧ Nearly M.grid dflt' s' t ∧
      Holds t (l.foldl (fun u x => x.field M.grid u) u) := by
  have hw : M.grid.WF := grid_wf hok
  induction hc with
  | nil => exact ⟨hn, s, h, Or.inl rfl, hu⟩
  | stage x _ h1 ih =>
    obtain ⟨hn1, t, e1, e2, e3⟩ := ih
    obtain ⟨t', f1, f2⟩ := h1.nearly hw hn1 e1 e2
    obtain ⟨f3, f4⟩ := f1.holds hw hn1 e1 e3
    exact ⟨hn1, t', f3, f2, by rw [List.foldl_append]; exact f4⟩
  | restart r _ hf hg ih =>
    obtain ⟨hn1, t, e1, e2, e3⟩ := ih
    obtain ⟨t', f⟩ := hg.nearly hok hM hn1 e1 e2 e3 hf
    exact ⟨hf.procs, t', f⟩

/-! ## The property -/

/-- C117: if two runs of a simulation start with the same cells and data they end with the same cells and data, although
both may have been restarted any number of times with any numbers of processes. -/
theorem C117_same_results {n1 n2 : Nat} {dflt1 dflt2 dflt' : D} {maxTag1 maxTag2 maxTag' : Nat} {t : Sys n' D W} {s' : Sys n1 D W}
    {t' : Sys n2 D W} (hok : M.mapping.OK) (hM : M.Readable) (hn : 0 < n) (hn' : 0 < n') (h : Idle M.grid dflt maxTag s)
    (h' : Idle M.grid dflt' maxTag' t) (hst : SameData s t) {l : List (SimStage D)}
    (h1 : Computes M dflt maxTag s l dflt1 maxTag1 s') (h2 : Computes M dflt' maxTag' t l dflt2 maxTag2 t') :
    SameData s' t' := by
  have hw : M.grid.WF := grid_wf hok
  obtain ⟨w, hi⟩ := h.reachable.inv hw hn
  obtain ⟨v, hj⟩ := h'.reachable.inv hw hn'
  obtain ⟨u, hu, hv⟩ := hst.holds hi hj hn hn'
  obtain ⟨m1, a, a1, a2, a3⟩ := h1.holds hok hM hn h hu
  obtain ⟨m2, b, b1, b2, b3⟩ := h2.holds hok hM hn' h' hv
  obtain ⟨_, ha⟩ := a1.reachable.inv hw m1
  obtain ⟨_, hb⟩ := b1.reachable.inv hw m2
  exact (a2.holds ha a3).same (b2.holds hb b3)

/-- A simulation without restarts. -/
theorem Simulates.computes {l l0 : List (SimStage D)} {s0 : Sys n' D W} {dflt' : D} {maxTag' : Nat} {s1 s2 : Sys n D W}
    (h : Computes M dflt' maxTag' s0 l0 dflt maxTag s1) (hs : Simulates M.grid dflt maxTag l s1 s2) :
    Computes M dflt' maxTag' s0 (l0 ++ l) dflt maxTag s2 := by
  induction hs generalizing l0 with
  | nil => rw [List.append_nil]; exact h
  | @cons x l _ _ _ h1 _ ih =>
    have := ih (.stage x h h1)
    rwa [List.append_assoc] at this

/-- C117: in particular results are those of a run on any number of processes that is not restarted. -/
theorem C117_as_without_restarts {n1 : Nat} {dflt1 dflt' : D} {maxTag1 maxTag' : Nat} {t t' : Sys n' D W} {s' : Sys n1 D W}
    (hok : M.mapping.OK) (hM : M.Readable) (hn : 0 < n) (hn' : 0 < n') (h : Idle M.grid dflt maxTag s)
    (h' : Idle M.grid dflt' maxTag' t) (hst : SameData s t) {l : List (SimStage D)}
    (h1 : Computes M dflt maxTag s l dflt1 maxTag1 s') (h2 : Simulates M.grid dflt' maxTag' l t t') :
    SameData s' t' :=
  C117_same_results hok hM hn hn' h h' hst h1 (h2.computes .nil)

/-- C117: the next stage can be performed, also right after a restart. -/
theorem C117_possible {n1 : Nat} {dflt1 : D} {maxTag1 : Nat} {s' : Sys n1 D W} (hok : M.mapping.OK) (hM : M.Readable) (hn : 0 < n)
    (h : Idle M.grid dflt maxTag s) {l : List (SimStage D)} (h1 : Computes M dflt maxTag s l dflt1 maxTag1 s')
    (hm : M.grid.last ≤ maxTag1) (x : SimStage D)
    (hx : ∀ id H f, x = .sweep id H f → ∀ i, hoodFor M.grid (s' i) id = some H) :
    ∃ t : Sys n1 D W, Computes M dflt maxTag s (l ++ [x]) dflt1 maxTag1 t := by
  have hw : M.grid.WF := grid_wf hok
  obtain ⟨w, hi⟩ := h.reachable.inv hw hn
  obtain ⟨u, hu⟩ := hi.holds
  obtain ⟨m1, a, a1, a2, -⟩ := h1.holds hok hM hn h hu
  have hx' : ∀ id H f, x = .sweep id H f → ∀ i, hoodFor M.grid (a i) id = some H := by
    intro id H f e i
    rw [← hx id H f e i]
    rcases a2 with e | ⟨-, e⟩ <;> rw [e] <;> rfl
  obtain ⟨t, ht, -⟩ := C115_possible hw m1 hm a1 x hx'
  suffices ∃ t, Performs M.grid dflt1 maxTag1 x s' t by
    obtain ⟨t, ht⟩ := this
    exact ⟨t, .stage x h1 ht⟩
  rcases a2 with e | ⟨hb, e⟩
  · subst e; exact ⟨t, ht⟩
  subst e
  obtain ⟨v, hv⟩ := a1.reachable.inv hw m1
  cases ht with
  | @sweep id H f _ s1 _ ops hH h1 hops h2 =>
    refine ⟨t, .sweep hH ?_ hops h2⟩
    obtain ⟨s2, e2⟩ := step_ok hw m1 dflt1 hv.noCopies hm (.update id) trivial
      (fun i => by show (hoodFor M.grid (a i) id).isSome = true; rw [hH]; rfl)
    rw [e2]
    rcases step_bare hw a1.reachable hb e2 with h3 | ⟨_, _, _, _, h3⟩ | ⟨-, _, _, _, h3⟩
    · rw [← h3, h1]
    · exact h3.elim
    · cases h3
  | @adapt want child parent _ s1 _ asks sets sorted sorted' res hask h1 hres hset h2 =>
    have hc : ∀ op ∈ asks, ∃ i c, op = .refine i c ∨ op = .unrefine i c ∨ op = .dontUnrefine i c := by
      intro op hop
      obtain ⟨i, c, -, e⟩ := (hask op).1 hop
      exact ⟨i, c, e.imp And.right (Or.imp And.right And.right)⟩
    refine ⟨t, .adapt (fun op => ?_) (Ops.asks_noCopies hc h1) (by rw [stopRefining_noCopies]; exact hres) hset h2⟩
    rw [hask]
    refine exists_congr fun i => exists_congr fun c => and_congr_right fun hc => ?_
    rw [access_noCopies hv hc]
  | move _ => exact ⟨_, .move (.refl _)⟩

/-- C117: and the simulation can be restarted at any time if what is saved fits into the file. -/
theorem C117_restart {n1 n2 : Nat} {dflt1 : D} {maxTag1 : Nat} {s' : Sys n1 D W} (hok : M.mapping.OK) (hM : M.Readable) (hn : 0 < n)
    (h : Idle M.grid dflt maxTag s) {l : List (SimStage D)} (h1 : Computes M dflt maxTag s l dflt1 maxTag1 s')
    {r : Restart n1 n2 D} (hr : r.Fits M s') {ws : Fin n1 → List Write}
    (hsave : save r.e M { offset := r.off, header := r.header } r.mine (fun i c => ((s' i).data c).map r.K.saved) = .ok ws) :
    ∃ t : Sys n2 D W, Computes M dflt maxTag s l r.d0 r.maxTag t := by
  have hw : M.grid.WF := grid_wf hok
  obtain ⟨w, hi⟩ := h.reachable.inv hw hn
  obtain ⟨u, hu⟩ := hi.holds
  obtain ⟨m1, a, a1, a2, -⟩ := h1.holds hok hM hn h hu
  have ha : Almost M.grid dflt1 maxTag1 s' := ⟨a, a1.reachable, a2⟩
  obtain ⟨t, e, -⟩ := ha.restart hok hM m1 hr hsave (.refl _)
  exact ⟨t, .restart r h1 hr ⟨ws, _, _, hsave, .refl _, e⟩⟩

/-! ## Example -/

/-- Sum of data, cell and neighbors. -/
def smallSum (c : Nat) (d : Option Nat) (l : List ((Nat × V3 Int) × Option Nat)) : Nat :=
  (c + d.getD 0 + (l.map fun x => x.2.getD 0).sum) % 1000

/-- Stages before the restart: cell 1 is refined and sums are calculated. -/
def tinyBefore : List (SimStage Nat) :=
  [.adapt (fun c _ => if c = 1 then .refine else .nothing) (fun c _ => c) (fun c _ => c),
    .sweep defaultId (hoodOf tinyG) smallSum]

/-- Stages after the restart. -/
def tinyAfter : List (SimStage Nat) := [.move, .sweep defaultId (hoodOf tinyG) smallSum]

theorem Computes.possible_all {n1 : Nat} {dflt1 : D} {maxTag1 : Nat} {s' : Sys n1 D W} (hok : M.mapping.OK) (hM : M.Readable)
    (hn : 0 < n) (h : Idle M.grid dflt maxTag s) {l0 : List (SimStage D)} (h1 : Computes M dflt maxTag s l0 dflt1 maxTag1 s')
    (hm : M.grid.last ≤ maxTag1) (l : List (SimStage D))
    (hl : ∀ id H f, SimStage.sweep id H f ∈ l → id = defaultId ∧ H = hoodOf M.grid) :
    ∃ t : Sys n1 D W, Computes M dflt maxTag s (l0 ++ l) dflt1 maxTag1 t := by
  induction l generalizing l0 s' with
  | nil => exact ⟨s', by rw [List.append_nil]; exact h1⟩
  | cons x l ih =>
    obtain ⟨t, h2⟩ := C117_possible hok hM hn h h1 hm x (fun id H f e i => by
      subst e
      obtain ⟨e1, e2⟩ := hl id H f (List.mem_cons_self ..)
      subst e1; subst e2
      unfold hoodFor
      rw [if_pos rfl])
    obtain ⟨t', h3⟩ := ih h2 (fun id H f e => hl id H f (List.mem_cons_of_mem _ e))
    exact ⟨t', by rw [List.append_assoc] at h3; exact h3⟩

/-- Two processes refine cell 1 and calculate sums, save the grid, three processes load it, move cells and calculate again; one process
does everything without a restart. -/
theorem tiny_computed : ∃ (s s1 : Sys 2 Nat Nat) (s' : Sys 3 Nat Nat) (t t' : Sys 1 Nat Nat) (mine : Fin 2 → List Nat)
    (ws : Fin 2 → List Write), tinyMeta.mapping.OK ∧ tinyMeta.Readable ∧ Idle tinyMeta.grid 0 146 s ∧
    Idle tinyMeta.grid 0 146 t ∧ SameData s t ∧ Computes tinyMeta 0 146 s tinyBefore 0 146 s1 ∧
    (tinyRestart (n' := 3) mine).Fits tinyMeta s1 ∧
    save .little tinyMeta { offset := 11, header := samplePiece 3 } mine (fun i c => ((s1 i).data c).map wordClass.saved) =
      .ok ws ∧
    Computes tinyMeta 0 146 s (tinyBefore ++ tinyAfter) 0 146 s' ∧
    Simulates tinyMeta.grid 0 146 (tinyBefore ++ tinyAfter) t t' := by
  obtain ⟨s, h1, -⟩ := createGrid_spec (n := 2) (W := Nat) (maxTag := 146) tiny_wf (by omega) (0 : Nat)
    (fitsTags_mono (by rw [tiny_last]; exact Nat.le_refl _)
      (fitsTags_last (createLevel0_tiled tiny_wf (by omega)).valid))
  obtain ⟨t, h2, -⟩ := createGrid_spec (n := 1) (W := Nat) (maxTag := 146) tiny_wf (by omega) (0 : Nat)
    (fitsTags_mono (by rw [tiny_last]; exact Nat.le_refl _)
      (fitsTags_last (createLevel0_tiled tiny_wf (by omega)).valid))
  obtain ⟨a, b, c⟩ := C115_initialize tiny_wf h1 h2
  have hb : ∀ id H f, SimStage.sweep id H f ∈ tinyBefore → id = defaultId ∧ H = hoodOf tinyG := by
    intro id H f hm
    simp only [tinyBefore, List.mem_cons, List.not_mem_nil, or_false] at hm
    rcases hm with e | e
    · cases e
    · injection e with e1 e2 _; exact ⟨e1, e2⟩
  have ha : ∀ id H f, SimStage.sweep id H f ∈ tinyAfter → id = defaultId ∧ H = hoodOf tinyG := by
    intro id H f hm
    simp only [tinyAfter, List.mem_cons, List.not_mem_nil, or_false] at hm
    rcases hm with e | e
    · cases e
    · injection e with e1 e2 _; exact ⟨e1, e2⟩
  have htag : tinyG.last ≤ 146 := by rw [tiny_last]; exact Nat.le_refl _
  obtain ⟨s1, d1, d2⟩ := C115_possible_all tiny_wf (by omega) htag a tinyBefore hb
  obtain ⟨t', e, -⟩ := C115_possible_all tiny_wf (by omega) htag b (tinyBefore ++ tinyAfter) (by
    intro id H f hm
    rcases List.mem_append.1 hm with hm | hm
    · exact hb id H f hm
    · exact ha id H f hm)
  obtain ⟨w, hi⟩ := a.reachable.inv tiny_wf (by omega)
  obtain ⟨u, hu⟩ := hi.holds
  have hu1 := (d1.holds tiny_wf (by omega) a hu).2
  obtain ⟨w1, hi1⟩ := d2.reachable.inv tiny_wf (by omega)
  obtain ⟨mine, ws, f1, f2, f3, f4, f5, f6, f7⟩ := tiny_savable d2.reachable (by
    intro i c d hd
    have hc : (s1 i).owner c = some i := by rw [hi1.sys.owner]; exact (hi1.sys.placed i c).1 (by rw [hd]; rfl)
    have h3 := ((hu1 i c).1 i hc).2
    rw [hd] at h3
    have h4 : ∀ v : Nat → Option Nat, some d = sweptField tinyG (hoodOf tinyG) smallSum v c → d < 1000 := by
      intro v h
      unfold sweptField at h
      split at h
      · cases h
      · split at h
        · injection h with h
          rw [h]
          exact Nat.mod_lt _ (by omega)
        · cases h
    have := h4 _ h3
    omega)
  have hf : (tinyRestart (n' := 3) mine).Fits tinyMeta s1 :=
    ⟨by omega, rfl, f1, ⟨f2, f2, rfl, rfl⟩, f4, f5, f6, f7, fun _ _ _ => Iff.rfl⟩
  have hc1 : Computes tinyMeta 0 146 s tinyBefore 0 146 s1 := Simulates.computes (M := tinyMeta) (.nil) d1
  obtain ⟨s2, hc2⟩ := C117_restart (M := tinyMeta) tinyM_ok tinyMeta_readable (by omega) a hc1 hf f3
  obtain ⟨s', hc3⟩ := hc2.possible_all tinyM_ok tinyMeta_readable (by omega) a htag tinyAfter ha
  exact ⟨s, s1, s', t, t', mine, ws, tinyM_ok, tinyMeta_readable, a, b, c, hc1, hf, f3, hc3, e⟩

/-- Hypotheses of `C117_same_results` and `C117_as_without_restarts` are met, and results are the same. -/
example : ∃ (s : Sys 2 Nat Nat) (s' : Sys 3 Nat Nat) (t t' : Sys 1 Nat Nat) (l : List (SimStage Nat)),
    tinyMeta.mapping.OK ∧ tinyMeta.Readable ∧ Idle tinyMeta.grid 0 146 s ∧ Idle tinyMeta.grid 0 146 t ∧ SameData s t ∧
    Computes tinyMeta 0 146 s l 0 146 s' ∧ Computes tinyMeta 0 146 t l 0 146 t' ∧ Simulates tinyMeta.grid 0 146 l t t' ∧
    l.length = 4 ∧ SameData s' t' := by
  obtain ⟨s, s1, s', t, t', mine, ws, a1, a2, a3, a4, a5, a6, a7, a8, a9, a10⟩ := tiny_computed
  exact ⟨s, s', t, t', _, a1, a2, a3, a4, a5, a9,
    Simulates.computes (M := tinyMeta) (l0 := []) .nil a10, a10, rfl,
    C117_as_without_restarts a1 a2 (by omega) (by omega) a3 a4 a5 a9 a10⟩

/-- Hypotheses of `C117_possible` and `C117_restart` are met. -/
example : ∃ (s s1 : Sys 2 Nat Nat) (mine : Fin 2 → List Nat) (ws : Fin 2 → List Write), tinyMeta.mapping.OK ∧
    tinyMeta.Readable ∧ Idle tinyMeta.grid 0 146 s ∧ Computes tinyMeta 0 146 s tinyBefore 0 146 s1 ∧
    tinyMeta.grid.last ≤ 146 ∧ (∀ i, hoodFor tinyMeta.grid (s1 i) defaultId = some (hoodOf tinyG)) ∧
    (tinyRestart (n' := 3) mine).Fits tinyMeta s1 ∧
    save .little tinyMeta { offset := 11, header := samplePiece 3 } mine (fun i c => ((s1 i).data c).map wordClass.saved) =
      .ok ws := by
  obtain ⟨s, s1, s', t, t', mine, ws, a1, a2, a3, a4, a5, a6, a7, a8, a9, a10⟩ := tiny_computed
  exact ⟨s, s1, mine, ws, a1, a2, a3, a6, a7.tags, fun i => by unfold hoodFor; rw [if_pos rfl]; rfl, a7, a8⟩

end Dccrg
