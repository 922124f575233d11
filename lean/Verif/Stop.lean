import Verif.ExecAll
import Verif.Requests
/-!
# Results of stop_refining
-/
namespace Dccrg
open Cfg
variable {n : Nat} {D W : Type} {g : Cfg} {w : Owner n}

/-- Cells that are not refined due to `dont_refine`. -/
def Vetoed (g : Cfg) (w : Owner n) (s : Sys n D W) : Nat → Prop :=
  Kept g (exist w) (fun c => ∃ j, c ∈ (s j).req.notRefine)

/-- Cells that are refined by `stop_refining`. -/
def Refines (g : Cfg) (w : Owner n) (s : Sys n D W) : Nat → Prop :=
  Refd g (exist w) (fun c => (∃ j, c ∈ (s j).req.toRefine) ∧ ¬ Vetoed g w s c)

/-- Cells, one or more of each family, that are unrefined by `stop_refining`. -/
def Unrefines (g : Cfg) (w : Owner n) (s : Sys n D W) (u : Nat) : Prop :=
  (∃ j, u ∈ (s j).req.toUnrefine) ∧
  (∀ k ∈ g.children (g.parent u), ¬ Refines g w s k ∧ ∀ j, k ∉ (s j).req.notUnrefine) ∧
  ∀ b, exist w b = true → Near g (g.parent u) b →
    g.lvl b ≤ g.lvl u ∧ (g.lvl b = g.lvl u → ¬ Refines g w s b)

/-- Possible requests of a process. -/
structure ReqOk (g : Cfg) (w : Owner n) (r : Req) : Prop where
  refine : ∀ c ∈ r.toRefine, exist w c = true ∧ g.lvl c < g.maxLvl
  unrefine : ∀ u ∈ r.toUnrefine, exist w u = true ∧ 0 < g.lvl u ∧
    ∀ k ∈ g.children (g.parent u), exist w k = true

theorem Refd.exists {E : Nat → Bool} {Q : Nat → Prop} (hQ : ∀ c, Q c → E c = true) {c : Nat}
    (h : Refd g E Q c) : E c = true := by
  induction h with
  | base h => exact hQ _ h
  | step _ h _ _ _ => exact h

theorem Refd.lvl_lt {E : Nat → Bool} {Q : Nat → Prop} {m : Nat} (hQ : ∀ c, Q c → g.lvl c < m) {c : Nat}
    (h : Refd g E Q c) : g.lvl c < m := by
  induction h with
  | base h => exact hQ _ h
  | step _ _ _ h ih => omega

/-- Cells that are kept are not refined. -/
theorem Refd.not_kept {E : Nat → Bool} {Q N : Nat → Prop} (hQ : ∀ c, Q c → E c = true)
    (hN : ∀ c, Q c → ¬ Kept g E N c) {c : Nat} (h : Refd g E Q c) : ¬ Kept g E N c := by
  induction h with
  | base h => exact hN _ h
  | step hc h1 h2 h3 ih => exact fun hk => ih (Kept.step hk h1 (hc.exists hQ) h2 h3)

/-- Refinements and unrefinements decided by `stop_refining` keep the grid consistent. -/
theorem plan_of_requests {s : Sys n D W} (hr : ∀ i, ReqOk g w (s i).req) :
    Plan g (exist w) (Refines g w s) (Unrefines g w s) := by
  have hQ : ∀ c, ((∃ j, c ∈ (s j).req.toRefine) ∧ ¬ Vetoed g w s c) →
      exist w c = true ∧ g.lvl c < g.maxLvl := by
    rintro c ⟨⟨j, hj⟩, -⟩
    exact ⟨((hr j).refine c hj).1, ((hr j).refine c hj).2⟩
  constructor
  · intro r h
    exact ⟨h.exists (fun c h => (hQ c h).1), h.lvl_lt (fun c h => (hQ c h).2)⟩
  · intro r b h h1 h2 h3
    exact Refd.step h h1 h2 h3
  · intro u h
    obtain ⟨⟨j, hj⟩, h2, -⟩ := h
    obtain ⟨e1, e2, e3⟩ := (hr j).unrefine u hj
    exact ⟨e1, e2, fun k hk => ⟨e3 k hk, (h2 k hk).1⟩⟩
  · intro u b h h1 h2
    exact h.2.2 b h1 h2

theorem refines_not_vetoed {s : Sys n D W} (hr : ∀ i, ReqOk g w (s i).req) {c : Nat}
    (h : Refines g w s c) : ¬ Vetoed g w s c :=
  Refd.not_kept (fun c ⟨⟨j, hj⟩, _⟩ => ((hr j).refine c hj).1) (fun _ h => h.2) h

theorem Executed.congr {R U : Nat → Prop} {dflt : D} {s s' : Sys n D W} {w' : Owner n} {i : Fin n}
    {p' : Proc n D W} {nc nc' : List Nat} (h : Executed g w w' R U dflt s' i p' nc)
    (e1 : ∀ i, (s' i).data = (s i).data) (e2 : ∀ i, (s' i).pins = (s i).pins)
    (e3 : ∀ i, (s' i).newPins = (s i).newPins) (e4 : ∀ i, (s' i).weights = (s i).weights)
    (e5 : ∀ i, (s' i).hoods = (s i).hoods) (e6 : nc'.Perm nc) :
    Executed g w w' R U dflt s i p' nc' where
  owner := h.owner
  placed := h.placed
  dataNew := h.dataNew
  dataPar := h.dataPar
  dataSame := by rw [← e1]; exact h.dataSame
  refinedData := by rw [← e1]; exact h.refinedData
  refinedOnly := h.refinedOnly
  unrefinedData := by simp only [← e1]; exact h.unrefinedData
  unrefinedOnly := h.unrefinedOnly
  pinsNew := by rw [← e2, ← e3]; exact h.pinsNew
  pinsSame := by rw [← e2, ← e3]; exact h.pinsSame
  pinsOther := h.pinsOther
  weightsNew := by rw [← e4]; exact h.weightsNew
  weightsSame := by rw [← e4]; exact h.weightsSame
  weightsOther := by rw [← e4]; exact h.weightsOther
  remote := h.remote
  hoods := by rw [← e5]; exact h.hoods
  newNodup := e6.nodup_iff.2 h.newNodup
  newCells := fun c => e6.mem_iff.trans (h.newCells c)

/-- State of all processes after `stop_refining`. -/
structure Stopped (g : Cfg) (w : Owner n) (dflt : D) (s : Sys n D W)
    (res : Fin n → Proc n D W × List Nat) : Prop where
  plan : Plan g (exist w) (Refines g w s) (Unrefines g w s)
  exec : ∀ i, Executed g w (newOwner g w (Refines g w s) (Unrefines g w s)) (Refines g w s)
    (Unrefines g w s) dflt s i (res i).1 (res i).2
  toRefine : ∀ i, (res i).1.req.toRefine = []
  toUnrefine : ∀ i, (res i).1.req.toUnrefine = []
  notRefine : ∀ i c, c ∈ (res i).1.req.notRefine ↔ Vetoed g w s c
  notUnrefine : ∀ i, (res i).1.req.notUnrefine = []

theorem stopRefining_spec (hw : g.WF) (dflt : D) {maxTag : Nat} (sorted : Bool) {s : Sys n D W}
    (hs : SysCore g w s) (hr : ∀ i, ReqOk g w (s i).req) (hm : FitsTags maxTag w)
    (hm' : FitsTags maxTag (newOwner g w (Refines g w s) (Unrefines g w s))) :
    ∃ res, stopRefining g dflt maxTag sorted s = .ok res ∧ Stopped g w dflt s res ∧
      (sorted = true → ∀ i, (res i).2.Pairwise (· ≤ ·)) := by
  have ht := hs.tiled
  have hb := hs.balanced
  have hp := plan_of_requests hr
  obtain ⟨r, o1, o2⟩ := overrideRefines_spec hw ht hb (fun i => (s i).req)
  have hQ : ∀ c, ((∃ j, c ∈ (s j).req.toRefine) ∧ ¬ Vetoed g w s c) → exist w c = true := by
    rintro c ⟨⟨j, hj⟩, -⟩
    exact ((hr j).refine c hj).1
  obtain ⟨refs, i1, i2⟩ := induceRefines_spec hw ht hb (has := fun i c => ((s i).data c).isSome)
    hs.placed _ hQ (refs := fun i => (r i).toRefine) (fun i c => (o2 i).2.1 c)
  obtain ⟨un, u1, u2⟩ := overrideUnrefines_spec hw ht hb (notUnref := fun i => (r i).notUnrefine)
    (unref := fun i => (r i).toUnrefine) (R := Refines g w s) i2
    (by
      intro i u hu
      rw [(o2 i).2.2.1] at hu
      obtain ⟨e1, e2, e3⟩ := (hr i).unrefine u hu
      exact ⟨e1, e2, e3⟩)
  have hU : ∀ i u, u ∈ un i ↔ Unrefines g w s u := by
    intro i u
    rw [u2]
    unfold Unrefines
    constructor
    · rintro ⟨⟨j, h1⟩, h2, h3⟩
      refine ⟨⟨j, by rw [← (o2 j).2.2.1]; exact h1⟩, fun k hk => ⟨(h2 k hk).1, fun j => ?_⟩, h3⟩
      rw [← (o2 j).2.2.2]; exact (h2 k hk).2 j
    · rintro ⟨⟨j, h1⟩, h2, h3⟩
      refine ⟨⟨j, by rw [(o2 j).2.2.1]; exact h1⟩, fun k hk => ⟨(h2 k hk).1, fun j => ?_⟩, h3⟩
      rw [(o2 j).2.2.2]; exact (h2 k hk).2 j
  have hs' : SysCore g w (fun i => { s i with
      req := ⟨refs i, un i, (r i).notRefine, []⟩ } : Sys n D W) :=
    ⟨hs.owner, ht, hb, hs.placed, hs.pins, hs.pinsAgree, hs.hoods⟩
  obtain ⟨res, x1, x2⟩ := executeRefines_spec hw dflt hs' hp i2 hU hm hm'
  refine ⟨fun i => ((res i).1, if sorted then isort (res i).2 else (res i).2), ?_, ⟨hp, ?_, ?_, ?_, ?_, ?_⟩, ?_⟩
  · unfold stopRefining
    have e1 : (fun i => exist (s i).owner) = fun _ => exist w := funext fun i => by rw [hs.owner i]
    have e2 : (fun i => (s i).owner) = fun _ => w := funext hs.owner
    rw [e1, o1, e2]
    simp only
    rw [i1, Out.bind_ok, u1, Out.bind_ok, x1, Out.bind_ok]
  · intro i
    refine (x2 i).1.congr (fun _ => rfl) (fun _ => rfl) (fun _ => rfl) (fun _ => rfl) (fun _ => rfl) ?_
    show (if sorted then isort (res i).2 else (res i).2).Perm _
    split
    · exact isort_perm _
    · exact List.Perm.refl _
  · intro i; show (res i).1.req.toRefine = _; rw [(x2 i).2]
  · intro i; show (res i).1.req.toUnrefine = _; rw [(x2 i).2]
  · intro i c; show c ∈ (res i).1.req.notRefine ↔ _; rw [(x2 i).2]; exact (o2 i).1 c
  · intro i; show (res i).1.req.notUnrefine = _; rw [(x2 i).2]
  · intro hso i
    show (if sorted then isort (res i).2 else (res i).2).Pairwise _
    rw [if_pos hso]; exact isort_sorted _

/-! ## Any number of tags -/

theorem Out.eq_get {α : Type} (o : Out α) (h : o.isOk = true) : o = .ok (o.get h) := by
  cases o with
  | ok a => rfl
  | throws => cases h
  | hangs => cases h
  | undef => cases h

theorem Out.collect_inv {α : Type} {f : Fin n → Out α} {x : Fin n → α} (h : Out.collect f = .ok x) (i : Fin n) :
    f i = .ok (x i) := by
  unfold Out.collect at h
  by_cases h' : ∀ i, (f i).isOk = true
  · rw [dif_pos h'] at h
    injection h with h
    subst h
    exact Out.eq_get (f i) (h' i)
  · rw [dif_neg h'] at h
    split at h
    · cases h
    · split at h <;> cases h

theorem Out.bind_inv {α β : Type} {o : Out α} {f : α → Out β} {b : β} (h : o.bind f = .ok b) :
    ∃ a, o = .ok a ∧ f a = .ok b := by
  cases o with
  | ok a => exact ⟨a, rfl, h⟩
  | throws => cases h
  | hangs => cases h
  | undef => cases h

theorem transfer_mono {maxTag M : Nat} (hM : maxTag ≤ M) {snd rcv : Fin n → Fin n → List Nat}
    {data dest res : Fin n → Nat → Option D} (h : transfer maxTag snd rcv data dest = .ok res) :
    transfer M snd rcv data dest = .ok res := by
  unfold transfer at h ⊢
  split at h
  · cases h
  · rename_i h1
    rw [if_neg]
    · exact h
    · rintro ⟨p, q, h2⟩
      exact h1 ⟨p, q, by rcases h2 with h2 | h2 <;> omega⟩

theorem rebuild_mono {maxTag M : Nat} (hM : maxTag ≤ M) {dflt : D} {i : Fin n} {p p' : Proc n D W}
    (h : rebuild g dflt maxTag i p = .ok p') : rebuild g dflt M i p = .ok p' := by
  unfold rebuild at h ⊢
  split at h
  · cases h
  · rename_i h1
    rw [if_neg h1]
    split at h
    · cases h
    · rename_i h2
      rw [if_neg]
      · exact h
      · have h3 : tagsFit g maxTag i p = true := by simpa using h2
        have : tagsFit g M i p = true := by
          unfold tagsFit at h3 ⊢
          simp only [List.all_eq_true, Bool.and_eq_true, decide_eq_true_eq] at h3 ⊢
          intro H hH q hq
          obtain ⟨e1, e2⟩ := h3 H hH q hq
          exact ⟨by omega, by omega⟩
        rw [this]; simp

theorem executeRefines_mono {maxTag M : Nat} (hM : maxTag ≤ M) {dflt : D} {s : Sys n D W}
    {res : Fin n → Proc n D W × List Nat} (h : executeRefines g dflt maxTag s = .ok res) :
    executeRefines g dflt M s = .ok res := by
  unfold executeRefines at h ⊢
  obtain ⟨m, h1, h⟩ := Out.bind_inv h
  obtain ⟨un, h2, h⟩ := Out.bind_inv h
  rw [h1, Out.bind_ok, transfer_mono hM h2, Out.bind_ok]
  apply Out.collect_ok
  intro i
  obtain ⟨p, h3, h4⟩ := Out.bind_inv (Out.collect_inv h i)
  obtain ⟨p', h5, h6⟩ := Out.bind_inv h4
  rw [h3, Out.bind_ok, rebuild_mono hM h5, Out.bind_ok, h6]

theorem stopRefining_mono {maxTag M : Nat} (hM : maxTag ≤ M) {dflt : D} {sorted : Bool} {s : Sys n D W}
    {res : Fin n → Proc n D W × List Nat} (h : stopRefining g dflt maxTag sorted s = .ok res) :
    stopRefining g dflt M sorted s = .ok res := by
  unfold stopRefining at h ⊢
  split at h
  · cases h
  · rename_i r hr
    obtain ⟨a, h1, h⟩ := Out.bind_inv h
    obtain ⟨b, h2, h⟩ := Out.bind_inv h
    obtain ⟨c, h3, h⟩ := Out.bind_inv h
    rw [h1, Out.bind_ok, h2, Out.bind_ok, executeRefines_mono hM h3, Out.bind_ok, h]

/-- There are not more cells than the last id. -/
theorem fitsTags_last (hv : ∀ c, exist w c = true → g.Valid c) : FitsTags g.last w := by
  intro i l hn hl
  have : l ⊆ List.range' 1 g.last := by
    intro c hc
    have := hv c (exist_of (hl c hc))
    rw [List.mem_range'_1]
    unfold Valid at this
    omega
  have := List.Nodup.length_le_of_subset hn this
  simpa using this

theorem fitsTags_mono {maxTag M : Nat} (hM : maxTag ≤ M) (h : FitsTags maxTag w) : FitsTags M w :=
  fun i l hn hl => Nat.le_trans (h i l hn hl) hM

/-- Whenever `stop_refining` returns. -/
theorem stopRefining_sound (hw : g.WF) {dflt : D} {maxTag : Nat} {sorted : Bool} {s : Sys n D W}
    (hs : SysCore g w s) (hr : ∀ i, ReqOk g w (s i).req) {res : Fin n → Proc n D W × List Nat}
    (h : stopRefining g dflt maxTag sorted s = .ok res) :
    Stopped g w dflt s res ∧ (sorted = true → ∀ i, (res i).2.Pairwise (· ≤ ·)) := by
  have hM : maxTag ≤ max maxTag g.last := Nat.le_max_left _ _
  have hM' : g.last ≤ max maxTag g.last := Nat.le_max_right _ _
  have ht' := (plan_of_requests hr).tiled hw hs.tiled
    (newOwner_exist hw hs.tiled (plan_of_requests hr))
  obtain ⟨res', h1, h2, h3⟩ := stopRefining_spec hw dflt sorted hs hr
    (fitsTags_mono hM' (fitsTags_last hs.tiled.valid)) (fitsTags_mono hM' (fitsTags_last ht'.valid))
  rw [stopRefining_mono hM h] at h1
  injection h1 with h1
  subst h1
  exact ⟨h2, h3⟩

/-- Consistency of the state after `stop_refining`. -/
theorem Stopped.sysOk (hw : g.WF) {dflt : D} {s : Sys n D W} (hs : SysOk g w s)
    {res : Fin n → Proc n D W × List Nat} (h : Stopped g w dflt s res) :
    SysOk g (newOwner g w (Refines g w s) (Unrefines g w s)) (fun i => (res i).1) :=
  Executed.sysOk hw hs h.plan h.exec

theorem Stopped.reqOk {dflt : D} {s : Sys n D W} {res : Fin n → Proc n D W × List Nat}
    (h : Stopped g w dflt s res) (w' : Owner n) (i : Fin n) : ReqOk g w' (res i).1.req := by
  constructor
  · intro c hc; rw [h.toRefine] at hc; cases hc
  · intro c hc; rw [h.toUnrefine] at hc; cases hc

end Dccrg
