import Verif.Rounds
/-!
# Requests accepted so far

Calls that returned true since the last `stop_refining` or load balancing, independently of how they are
stored.
-/
namespace Dccrg
open Cfg
variable {n : Nat} {D W : Type} {g : Cfg} {w : Owner n} {s s' : Sys n D W} {dflt : D} {maxTag : Nat}

/-- Cells for which calls returned true. -/
structure Calls where
  refine : Nat → Prop
  unrefine : Nat → Prop
  dontRefine : Nat → Prop
  dontUnrefine : Nat → Prop

def Calls.none : Calls := ⟨fun _ => False, fun _ => False, fun _ => False, fun _ => False⟩

/-- `refine_completely(c)` in state `s` of a process returns true. -/
def SaysRefine (g : Cfg) (p : Proc n D W) (c : Nat) : Prop :=
  ∃ r, refineCompletely g (exist p.owner) (fun c => (p.data c).isSome) p.req c = .ok (true, r)

/-- `unrefine_completely(c)` returns true. -/
def SaysUnrefine (g : Cfg) (p : Proc n D W) (c : Nat) : Prop :=
  ∃ r, unrefineCompletely g (exist p.owner) (fun c => (p.data c).isSome) p.req c = .ok (true, r)

/-- `dont_refine(c)` returns true. -/
def SaysDontRefine (g : Cfg) (p : Proc n D W) (c : Nat) : Prop :=
  ∃ r, dontRefine g (exist p.owner) p.req c = .ok (true, r)

/-- `dont_unrefine(c)` returns true. -/
def SaysDontUnrefine (g : Cfg) (p : Proc n D W) (c : Nat) : Prop :=
  ∃ r, dontUnrefine g (exist p.owner) p.req c = .ok (true, r)

/-- Add a call if it returns true. -/
def Calls.add (k : Calls) (g : Cfg) (s : Sys n D W) (op : Op n D W) : Calls where
  refine c := k.refine c ∨ ∃ i, op = .refine i c ∧ SaysRefine g (s i) c
  unrefine c := k.unrefine c ∨ ∃ i, op = .unrefine i c ∧ SaysUnrefine g (s i) c
  dontRefine c := k.dontRefine c ∨ ∃ i, op = .dontRefine i c ∧ SaysDontRefine g (s i) c
  dontUnrefine c := k.dontUnrefine c ∨ ∃ i, op = .dontUnrefine i c ∧ SaysDontUnrefine g (s i) c

/-- Cells that must not be refined because of cells `N`: those and, repeatedly, smaller cells in the
neighborhood of such a cell. -/
inductive Veto (g : Cfg) (E : Nat → Bool) (N : Nat → Prop) : Nat → Prop
  | base {c : Nat} : N c → Veto g E N c
  | step {b c : Nat} {o : V3 Int} : Veto g E N b → E b = true → E c = true → o ∈ hoodOf g → Meets g b o c →
      g.lvl b < g.lvl c → Veto g E N c

/-- Cells that must be refined because of calls `k`: cells for which `refine_completely` returned true
that are neither smallest possible nor vetoed and, repeatedly, larger cells that have such a cell in
their neighborhood. -/
inductive Forced (g : Cfg) (E : Nat → Bool) (k : Calls) : Nat → Prop
  | base {c : Nat} : k.refine c → g.lvl c < g.maxLvl → ¬ Veto g E k.dontRefine c → Forced g E k c
  | step {b c : Nat} {o : V3 Int} : Forced g E k c → E b = true → o ∈ hoodOf g → Meets g b o c →
      g.lvl b < g.lvl c → Forced g E k b

/-- State `s` is reachable and calls `k` returned true since the last `stop_refining` or load balancing.
After `stop_refining` vetoed cells remain as if `dont_refine` had been called for them, see C20. -/
inductive History (g : Cfg) (dflt : D) (maxTag : Nat) : Calls → Sys n D W → Prop
  | init {s : Sys n D W} : createGrid g n dflt maxTag = .ok s → History g dflt maxTag Calls.none s
  | call {k : Calls} {s s' : Sys n D W} (op : Op n D W) : History g dflt maxTag k s → op.Quiet →
      step g dflt maxTag s op = .ok s' → History g dflt maxTag (k.add g s op) s'
  | stop {k : Calls} {s s' : Sys n D W} (sorted : Bool) : History g dflt maxTag k s →
      step g dflt maxTag s (.stop sorted) = .ok s' →
      History g dflt maxTag { Calls.none with
        dontRefine := fun c => ∃ i, Veto g (exist (s i).owner) k.dontRefine c } s'
  | balance {k : Calls} {s s' : Sys n D W} (z : Fin n → Moves n) : History g dflt maxTag k s →
      (Op.balance z : Op n D W).Ok s → step g dflt maxTag s (.balance z) = .ok s' →
      History g dflt maxTag Calls.none s'
  | copy {D0 : Type} {dflt0 : D0} {s : Sys n D0 W} : Reachable g dflt0 maxTag s →
      History g dflt maxTag Calls.none (copyGrid g dflt s)

theorem Op.Quiet.ok {op : Op n D W} (h : op.Quiet) (s : Sys n D W) : op.Ok s := by
  cases op <;> first | trivial | cases h

theorem History.reachable {k : Calls} (h : History g dflt maxTag k s) : Reachable g dflt maxTag s := by
  induction h with
  | init h => exact .init h
  | call op _ hq h ih => exact .step op ih (hq.ok _) h
  | stop sorted _ h ih => exact .step (.stop sorted) ih trivial h
  | balance z _ ho h ih => exact .step _ ih ho h
  | copy h => exact .copy h

/-- Every reachable state has a history. -/
theorem Reachable.history (h : Reachable g dflt maxTag s) : ∃ k, History g dflt maxTag k s := by
  induction h with
  | init h => exact ⟨_, .init h⟩
  | copy h => exact ⟨_, .copy h⟩
  | step op _ ho h ih =>
    obtain ⟨k, hk⟩ := ih
    by_cases hq : op.Quiet
    · exact ⟨_, .call op hk hq h⟩
    · cases op with
      | stop sorted => exact ⟨_, .stop sorted hk h⟩
      | balance z => exact ⟨_, .balance z hk ho h⟩
      | _ => exact absurd trivial hq

/-! ## Stored requests -/

/-- How calls are stored. -/
structure Stored (g : Cfg) (w : Owner n) (k : Calls) (s : Sys n D W) : Prop where
  refine : ∀ c, k.refine c → g.lvl c < g.maxLvl →
    (∃ j, c ∈ (s j).req.toRefine) ∨ ∃ j, c ∈ (s j).req.notRefine
  refine' : ∀ j c, c ∈ (s j).req.toRefine → k.refine c
  dontRefine : ∀ c, k.dontRefine c → g.lvl c < g.maxLvl → ∃ j, c ∈ (s j).req.notRefine
  dontRefine' : ∀ j c, c ∈ (s j).req.notRefine → k.dontRefine c
  unrefine' : ∀ j c, c ∈ (s j).req.toUnrefine → k.unrefine c
  dontUnrefine : ∀ c, k.dontUnrefine c → 0 < g.lvl c →
    ∃ j, ∃ x ∈ g.children (g.parent c), x ∈ (s j).req.notUnrefine
  dontUnrefine' : ∀ j c, c ∈ (s j).req.notUnrefine → k.dontUnrefine c ∨ k.refine c
  unrefine : ∀ c, k.unrefine c → 0 < g.lvl c →
    (∃ j, ∃ x ∈ g.children (g.parent c), x ∈ (s j).req.toUnrefine) ∨
    (∃ x ∈ g.children (g.parent c), k.refine x ∨ k.dontUnrefine x) ∨
    ∃ b, Near g (g.parent c) b ∧ g.lvl c ≤ g.lvl b ∧ g.lvl c < g.maxLvl ∧ k.refine b
  unrefineOwn : ∀ c, k.unrefine c → 0 < g.lvl c → exist w c = true
  refineOwn : ∀ c, k.refine c → exist w c = true
  dontUnrefineOwn : ∀ c, k.dontUnrefine c → exist w c = true
  refineTop : ∀ c, k.refine c → g.lvl c = g.maxLvl → 0 < g.lvl c →
    ∃ j, ∃ x ∈ g.children (g.parent c), x ∈ (s j).req.notUnrefine

theorem Veto.none {E : Nat → Bool} {N : Nat → Prop} (h : ∀ x, ¬ N x) {c : Nat} : ¬ Veto g E N c := by
  intro hv
  induction hv with
  | base h' => exact h _ h'
  | step _ _ _ _ _ _ ih => exact ih

theorem Veto.iff_kept (hw : g.WF) (ht : Tiled g (exist w)) {N : Nat → Prop} {c : Nat} :
    Veto g (exist w) N c ↔ Kept g (exist w) N c := by
  constructor
  · intro h
    induction h with
    | base h => exact .base h
    | step _ h1 h2 h3 h4 h5 ih =>
      exact .step ih h1 h2 ((near_iff_meets hw ht h1 h2 (by rintro rfl; omega)).2 ⟨_, h3, h4⟩) h5
  · intro h
    induction h with
    | base h => exact .base h
    | step _ h1 h2 h3 h4 ih =>
      obtain ⟨o, h5, h6⟩ := (near_iff_meets hw ht h1 h2 (by rintro rfl; omega)).1 h3
      exact .step ih h1 h2 h5 h6 h4

theorem Stored.vetoed (hw : g.WF) (ht : Tiled g (exist w)) {k : Calls} (h : Stored g w k s) {c : Nat} :
    (Vetoed g w s c → Veto g (exist w) k.dontRefine c) ∧
    (Veto g (exist w) k.dontRefine c → g.lvl c < g.maxLvl → Vetoed g w s c) := by
  rw [Veto.iff_kept hw ht]
  constructor
  · intro hv
    induction hv with
    | base hc => obtain ⟨j, hj⟩ := hc; exact .base (h.dontRefine' j _ hj)
    | step _ h1 h2 h3 h4 ih => exact .step ih h1 h2 h3 h4
  · intro hv hl
    induction hv with
    | base hc => exact .base (h.dontRefine _ hc hl)
    | step _ h1 h2 h3 h4 ih => exact .step (ih (by omega)) h1 h2 h3 h4

/-- Cells refined by `stop_refining`, in terms of calls. -/
theorem Stored.refines_iff (hw : g.WF) (ht : Tiled g (exist w)) (hr : ∀ i, ReqOk g w (s i).req) {k : Calls}
    (h : Stored g w k s) {c : Nat} : Refines g w s c ↔ Forced g (exist w) k c := by
  have hF : ∀ c, Forced g (exist w) k c → exist w c = true := by
    intro c hc
    cases hc with
    | base h1 => exact h.refineOwn _ h1
    | step _ h1 => exact h1
  constructor
  · intro hc
    unfold Refines at hc
    induction hc with
    | base hc =>
      obtain ⟨⟨j, hj⟩, hv⟩ := hc
      have hl := ((hr j).refine _ hj).2
      exact .base (h.refine' j _ hj) hl fun hx => hv ((h.vetoed hw ht).2 hx hl)
    | step hc h1 h2 h3 ih =>
      obtain ⟨o, h5, h6⟩ := (near_iff_meets hw ht h1 (hF _ ih) (by rintro rfl; omega)).1 h2
      exact .step ih h1 h5 h6 h3
  · intro hc
    induction hc with
    | base h1 h2 h3 =>
      have hv : ¬ Vetoed g w s _ := fun hx => h3 ((h.vetoed hw ht).1 hx)
      refine Refd.base ⟨?_, hv⟩
      rcases h.refine _ h1 h2 with h4 | h4
      · exact h4
      · exact absurd (Kept.base h4) hv
    | step hc h1 h2 h3 h4 ih =>
      exact Refd.step ih h1 ((near_iff_meets hw ht h1 (hF _ hc) (by rintro rfl; omega)).2 ⟨_, h2, h3⟩) h4

/-! ## Changes of stored requests -/

theorem refine_change (hw : g.WF) (ht : Tiled g (exist w)) (hb : Balanced g (exist w)) {i : Fin n}
    {has : Nat → Bool} (hh : ∀ c, has c = true ↔ w c = some i) {r r' : Req} {c : Nat} {b : Bool}
    (h : refineCompletely g (exist w) has r c = .ok (b, r')) :
    (b = false → r' = r) ∧ (b = true → exist w c = true ∧ (g.lvl c < g.maxLvl → c ∈ r'.toRefine) ∧
      (∀ x ∈ r.toRefine, x ∈ r'.toRefine) ∧ (∀ x ∈ r'.toRefine, x ∈ r.toRefine ∨ x = c) ∧
      r'.notRefine = r.notRefine ∧ (∀ x ∈ r'.toUnrefine, x ∈ r.toUnrefine) ∧
      (∀ x ∈ r.notUnrefine, x ∈ r'.notUnrefine) ∧ ∀ x ∈ r'.notUnrefine, x ∈ r.notUnrefine ∨ x = c) := by
  by_cases hi : w c = some i
  · have hle := lvl_le (ht.valid c (exist_of hi))
    by_cases hl : g.lvl c = g.maxLvl
    · obtain ⟨r'', h1, h2⟩ := refineCompletely_max (r := r) hw ht hh hi hl
      rw [h] at h1
      injection h1 with h1
      injection h1 with hb h1
      subst h1
      obtain ⟨b', r2, h3, -, -, h4, h5, h6, h7, h8, -⟩ := dontUnrefine_spec (r := r) (c := c) hw ht
      rw [h2] at h3
      injection h3 with h3
      injection h3 with _ h3
      subst h3
      refine ⟨fun h => (by rw [hb] at h; cases h), fun _ => ⟨exist_of hi, by omega, ?_, ?_, h5, h6, h7, h8⟩⟩
      · rw [h4]; exact fun _ h => h
      · rw [h4]; exact fun _ h => Or.inl h
    · by_cases hr : Refused g w r c
      · rw [refineCompletely_refused hw ht hb hh hi (by omega) hr] at h
        injection h with h
        injection h with hb h
        subst h
        exact ⟨fun _ => rfl, fun h => (by rw [← hb] at h; cases h)⟩
      · rw [refineCompletely_ok hw ht hb hh hi (by omega) hr] at h
        injection h with h
        injection h with hb h
        subst h
        refine ⟨fun h => (by rw [← hb] at h; cases h), fun _ => ⟨exist_of hi, fun _ => List.mem_cons_self,
          fun _ h => List.mem_cons_of_mem _ h, ?_, rfl, fun x h => (mem_without.1 h).1, fun _ h => h,
          fun _ h => Or.inl h⟩⟩
        intro x hx
        rcases List.mem_cons.1 hx with h | h
        · exact Or.inr h
        · exact Or.inl h
  · rw [refineCompletely_false hh hi] at h
    injection h with h
    injection h with hb h
    subst h
    exact ⟨fun _ => rfl, fun h => (by rw [← hb] at h; cases h)⟩

/-- Requests to unrefine that are withdrawn by a request to refine a cell. -/
theorem cancelled_near (hw : g.WF) (ht : Tiled g (exist w)) (hb : Balanced g (exist w)) {c x : Nat}
    (hc : exist w c = true) (hx : x ∈ cancelled g (exist w) c) (hv : g.Valid x) (hl : 0 < g.lvl x) :
    c ∈ g.children (g.parent x) ∨ Near g (g.parent x) c ∧ g.lvl x ≤ g.lvl c := by
  have key : ∀ b, exist w b = true → x ∈ g.siblings b →
      0 < g.lvl b ∧ g.parent x = g.parent b ∧ g.lvl x = g.lvl b := by
    intro b hbe hxb
    have hbv := ht.valid b hbe
    by_cases h0 : g.lvl b = 0
    · unfold siblings at hxb
      rw [if_pos h0] at hxb
      simp only [List.mem_cons, List.mem_replicate] at hxb
      rcases hxb with rfl | h
      · omega
      · exact absurd h.2 (valid_pos hv)
    · rw [siblings_eq h0] at hxb
      obtain ⟨-, h1, h2⟩ := (children_spec hw (parent_valid hw hbv) (lvl_parent_lt hw hbv (by omega))).1 hxb
      exact ⟨by omega, h2, by rw [h1, lvl_parent hw hbv]; omega⟩
  unfold cancelled at hx
  rcases List.mem_append.1 (List.mem_filter.1 hx).1 with hx | hx
  · obtain ⟨h1, h2, -⟩ := key c hc hx
    left
    rw [h2]
    exact mem_children_parent hw (ht.valid c hc) h1
  · right
    obtain ⟨b, hbm, hx⟩ := List.mem_flatMap.1 hx
    by_cases hbl : g.lvl b ≤ g.lvl c
    case neg => rw [if_neg hbl] at hx; cases hx
    rw [if_pos hbl] at hx
    have hm := List.mem_append.1 hbm
    rw [mem_nbrsOf hw ht hb hc, mem_nbrsTo hw ht hb hc] at hm
    have hbe : exist w b = true := by rcases hm with h | h <;> exact h.1
    obtain ⟨h1, h2, h3⟩ := key b hbe hx
    have hbv := ht.valid b hbe
    have hn : Near g b c := by
      rcases hm with ⟨-, h⟩ | ⟨-, h⟩
      · exact Near.symm hw (ht.valid c hc) (side_mono hbl) ((near_iff hw).2 (Or.inr h))
      · exact (near_iff hw).2 (Or.inr h)
    rw [h2]
    exact ⟨hn.mono (sub_of_mem_children hw (parent_valid hw hbv) (lvl_parent_lt hw hbv h1)
      (mem_children_parent hw hbv h1)) (Sub.refl c), by omega⟩

/-- Requests to unrefine after a request not to unrefine. -/
theorem dontUnrefine_keeps (hw : g.WF) (ht : Tiled g (exist w)) {r r' : Req} {b : Bool} {c x : Nat}
    (h : dontUnrefine g (exist w) r c = .ok (b, r')) (hx : x ∈ r.toUnrefine) :
    x ∈ r'.toUnrefine ∨ c ∈ g.children (g.parent x) := by
  unfold dontUnrefine at h
  split at h
  · injection h with h; injection h with _ h; subst h
    exact Or.inl hx
  next hce =>
    split at h
    · cases h
    next hv =>
      have hv := Classical.not_not.1 hv
      split at h
      · injection h with h; injection h with _ h; subst h
        exact Or.inl hx
      next h0 =>
        split at h
        · injection h with h; injection h with _ h; subst h
          exact Or.inl hx
        · injection h with h; injection h with _ h; subst h
          by_cases hs : x ∈ g.siblings c
          · rw [siblings_eq h0] at hs
            obtain ⟨-, -, h3⟩ := (children_spec hw (parent_valid hw hv) (lvl_parent_lt hw hv (by omega))).1 hs
            exact Or.inr (by rw [h3]; exact mem_children_parent hw hv (by omega))
          · exact Or.inl (mem_without.2 ⟨hx, hs⟩)

/-- Requests to unrefine and not to unrefine after a request to refine. -/
theorem refine_withdraws (hw : g.WF) (ht : Tiled g (exist w)) (hb : Balanced g (exist w)) {i : Fin n}
    {has : Nat → Bool} (hh : ∀ c, has c = true ↔ w c = some i) {r r' : Req} {c : Nat}
    (h : refineCompletely g (exist w) has r c = .ok (true, r')) :
    (∀ x ∈ r.toUnrefine, g.Valid x → 0 < g.lvl x → x ∈ r'.toUnrefine ∨ c ∈ g.children (g.parent x) ∨
      Near g (g.parent x) c ∧ g.lvl x ≤ g.lvl c ∧ g.lvl c < g.maxLvl) ∧
    (g.lvl c = g.maxLvl → 0 < g.lvl c → ∃ x ∈ g.children (g.parent c), x ∈ r'.notUnrefine) := by
  by_cases hi : w c = some i
  case neg => rw [refineCompletely_false hh hi] at h; cases h
  have hce := exist_of hi
  have hv := ht.valid c hce
  have hle := lvl_le hv
  by_cases hl : g.lvl c = g.maxLvl
  · obtain ⟨r'', h1, h2⟩ := refineCompletely_max (r := r) hw ht hh hi hl
    rw [h] at h1
    injection h1 with h1
    injection h1 with _ h1
    subst h1
    refine ⟨fun x hx hxv hxl => ?_, fun _ h0 => ?_⟩
    · rcases dontUnrefine_keeps hw ht h2 hx with h | h
      · exact Or.inl h
      · exact Or.inr (Or.inl h)
    · obtain ⟨b', r2, h3, -, -, -, -, -, -, -, h4⟩ := dontUnrefine_spec (r := r) (c := c) hw ht
      rw [h2] at h3
      injection h3 with h3
      injection h3 with _ h3
      subst h3
      exact h4 hce h0
  · by_cases hr : Refused g w r c
    · rw [refineCompletely_refused hw ht hb hh hi (by omega) hr] at h
      cases h
    · rw [refineCompletely_ok hw ht hb hh hi (by omega) hr] at h
      injection h with h
      injection h with _ h
      subst h
      refine ⟨fun x hx hxv hxl => ?_, fun h0 => absurd h0 hl⟩
      by_cases hs : x ∈ cancelled g (exist w) c
      · rcases cancelled_near hw ht hb hce hs hxv hxl with h | h
        · exact Or.inr (Or.inl h)
        · exact Or.inr (Or.inr ⟨h.1, h.2, by omega⟩)
      · exact Or.inl (mem_without.2 ⟨hx, hs⟩)

/-- Operations that do not request anything keep requests. -/
theorem step_req (op : Op n D W) (hq : op.Quiet) (h : step g dflt maxTag s op = .ok s')
    (h1 : ∀ i c, op ≠ .refine i c) (h2 : ∀ i c, op ≠ .unrefine i c) (h3 : ∀ i c, op ≠ .dontRefine i c)
    (h4 : ∀ i c, op ≠ .dontUnrefine i c) (j : Fin n) : (s' j).req = (s j).req := by
  have hset : ∀ i (p : Proc n D W), p.req = (s i).req → (s.set i p j).req = (s j).req := by
    intro i p hp
    unfold Sys.set
    split
    · rename_i e; subst e; exact hp
    · rfl
  cases op with
  | refine i c => exact absurd rfl (h1 i c)
  | unrefine i c => exact absurd rfl (h2 i c)
  | dontRefine i c => exact absurd rfl (h3 i c)
  | dontUnrefine i c => exact absurd rfl (h4 i c)
  | pin i c q => injection h with h; subst h; exact hset i _ (pin_same i _ c q).2
  | unpin i c => injection h with h; subst h; exact hset i _ (unpin_same i _ c).2
  | unpinLocal i => injection h with h; subst h; exact hset i _ (unpinLocal_same i _).2
  | setWeight i c x => injection h with h; subst h; exact hset i _ (setWeight_same i _ c x).2
  | write i c v => injection h with h; subst h; exact hset i _ (write_same _ c v).2
  | clearRefined i => injection h with h; subst h; exact hset i (clearRefined (s i)) rfl
  | unpinAll => injection h with h; subst h; rfl
  | update id =>
    obtain ⟨r, h1, h2⟩ := Out.bind_inv h
    injection h2 with h2; subst h2
    unfold updateRemote at h1
    split at h1
    · cases h1
    · obtain ⟨x, -, h4⟩ := Out.bind_inv h1
      injection h4 with h4; subst h4
      rfl
  | addHood id items =>
    obtain ⟨r, h1, h2⟩ := Out.bind_inv h
    injection h2 with h2; subst h2
    have h3 := addHood_inv (b := (r j).1) (p' := (r j).2) (Out.collect_inv h1 j)
    show (r j).2.req = _
    cases hb : (r j).1 with
    | false => rw [h3.2.1 hb]
    | true => rw [h3.2.2 hb]
  | removeHood id =>
    injection h with h; subst h
    show (removeHood (s j) id).req = _
    unfold removeHood
    split <;> rfl
  | stop => cases hq
  | balance => cases hq

theorem Stored.congr {k k' : Calls} (h : Stored g w k s) (hs : ∀ j, (s' j).req = (s j).req)
    (h1 : ∀ c, k'.refine c ↔ k.refine c) (h2 : ∀ c, k'.unrefine c ↔ k.unrefine c)
    (h3 : ∀ c, k'.dontRefine c ↔ k.dontRefine c) (h4 : ∀ c, k'.dontUnrefine c ↔ k.dontUnrefine c) :
    Stored g w k' s' := by
  have e1 : k'.refine = k.refine := funext fun c => propext (h1 c)
  have e2 : k'.unrefine = k.unrefine := funext fun c => propext (h2 c)
  have e3 : k'.dontRefine = k.dontRefine := funext fun c => propext (h3 c)
  have e4 : k'.dontUnrefine = k.dontUnrefine := funext fun c => propext (h4 c)
  have e : k' = k := by cases k; cases k'; simp only at e1 e2 e3 e4; subst e1 e2 e3 e4; rfl
  subst e
  constructor <;> (try simp only [hs])
  · exact h.refine
  · exact h.refine'
  · exact h.dontRefine
  · exact h.dontRefine'
  · exact h.unrefine'
  · exact h.dontUnrefine
  · exact h.dontUnrefine'
  · exact h.unrefine
  · exact h.unrefineOwn
  · exact h.refineOwn
  · exact h.dontUnrefineOwn
  · exact h.refineTop

section
variable {i : Fin n} {p : Proc n D W}

theorem mem_set (X : Req → List Nat) {j : Fin n} {x : Nat} (h : x ∈ X (s.set i p j).req) :
    x ∈ X p.req ∨ x ∈ X (s j).req := by
  unfold Sys.set at h
  split at h
  · exact Or.inl h
  · exact Or.inr h

theorem mem_set_or (X : Req → List Nat) {x : Nat} (h : ∃ j, x ∈ X (s j).req) :
    (∃ j, x ∈ X (s.set i p j).req) ∨ x ∈ X (s i).req := by
  obtain ⟨j, hj⟩ := h
  by_cases e : j = i
  · subst e; exact Or.inr hj
  · left; exact ⟨j, by rw [Sys.set_other _ e]; exact hj⟩

theorem mem_set_mono (X : Req → List Nat) {x : Nat} (hX : x ∈ X (s i).req → x ∈ X p.req)
    (h : ∃ j, x ∈ X (s j).req) : ∃ j, x ∈ X (s.set i p j).req := by
  rcases mem_set_or (i := i) (p := p) X h with h | h
  · exact h
  · exact ⟨i, by rw [Sys.set_same]; exact hX h⟩

end

theorem ask_inv {i : Fin n} {o : Out (Bool × Req)} (h : s.ask i o = .ok s') :
    ∃ b r, o = .ok (b, r) ∧ s' = s.set i { s i with req := r } := by
  unfold Sys.ask at h
  obtain ⟨⟨b, r⟩, h1, h2⟩ := Out.bind_inv h
  injection h2 with h2
  exact ⟨b, r, h1, h2.symm⟩

theorem set_req_same {i : Fin n} {r : Req} (h : r = (s i).req) (j : Fin n) :
    (s.set i { s i with req := r } j).req = (s j).req := by
  unfold Sys.set
  split
  · rename_i e; subst e; exact h
  · rfl

/-- What must hold when requests are made. A process that owns a cell has its data, others might have them too while load
is being balanced. -/
structure Asks (g : Cfg) (w : Owner n) (s : Sys n D W) : Prop where
  owner : ∀ i, (s i).owner = w
  tiled : Tiled g (exist w)
  balanced : Balanced g (exist w)
  own : ∀ i c, w c = some i → ((s i).data c).isSome = true
  held : ∀ i c, ((s i).data c).isSome = true → exist w c = true

theorem Inv.asks (h : Inv g w s) : Asks g w s :=
  ⟨h.sys.owner, h.sys.tiled, h.sys.balanced, fun i c => (h.sys.placed i c).2,
    fun i c hc => exist_of ((h.sys.placed i c).1 hc)⟩

/-- To one process the grid looks as if it owned all cells whose data it has. -/
theorem Asks.view (h : Asks g w s) (i : Fin n) : ∃ w' : Owner n, exist w' = exist w ∧
    ∀ c, ((s i).data c).isSome = true ↔ w' c = some i := by
  refine ⟨fun c => if ((s i).data c).isSome then some i else w c, funext fun c => ?_, fun c => ?_⟩
  · show (if ((s i).data c).isSome then some i else w c : Option (Fin n)).isSome = (w c).isSome
    split
    · rename_i hc; exact (h.held i c hc).symm
    · rfl
  · show _ ↔ (if ((s i).data c).isSome then some i else w c : Option (Fin n)) = some i
    split
    · rename_i hc; exact ⟨fun _ => rfl, fun _ => hc⟩
    · rename_i hc; exact ⟨fun h => absurd h hc, fun hc' => h.own i c hc'⟩

theorem Stored.refine_call (hw : g.WF) (hi : Asks g w s) {k : Calls} (h : Stored g w k s) {i : Fin n} {c : Nat}
    (hs : step g dflt maxTag s (.refine i c) = .ok s') :
    Stored g w (k.add g s (.refine i c)) s' := by
  obtain ⟨b, r, h1, rfl⟩ := ask_inv hs
  have h1' := h1
  obtain ⟨w', ew, hp⟩ := hi.view i
  rw [hi.owner, ← ew] at h1'
  have hc := refine_change hw (by rw [ew]; exact hi.tiled) (by rw [ew]; exact hi.balanced) hp h1'
  rw [ew] at hc
  have hd : b = true → _ := fun e => refine_withdraws hw (by rw [ew]; exact hi.tiled) (by rw [ew]; exact hi.balanced) hp
    (h1'.trans (by rw [e]))
  have k2 : ∀ x, (k.add g s (.refine i c)).unrefine x ↔ k.unrefine x := by
    intro x; exact ⟨fun h => h.elim id (by rintro ⟨j, e, -⟩; cases e), Or.inl⟩
  have k3 : ∀ x, (k.add g s (.refine i c)).dontRefine x ↔ k.dontRefine x := by
    intro x; exact ⟨fun h => h.elim id (by rintro ⟨j, e, -⟩; cases e), Or.inl⟩
  have k4 : ∀ x, (k.add g s (.refine i c)).dontUnrefine x ↔ k.dontUnrefine x := by
    intro x; exact ⟨fun h => h.elim id (by rintro ⟨j, e, -⟩; cases e), Or.inl⟩
  cases b with
  | false =>
    refine h.congr (set_req_same (hc.1 rfl)) ?_ k2 k3 k4
    intro x
    refine ⟨fun h => h.elim id ?_, Or.inl⟩
    rintro ⟨j, e, r', h2⟩
    injection e with e1 e2
    subst e1; subst e2
    rw [h1] at h2
    cases h2
  | true =>
    obtain ⟨c1, c2, c3, c4, c5, c6, c7, c8⟩ := hc.2 rfl
    obtain ⟨d1, d2⟩ := hd rfl
    have k1 : ∀ x, (k.add g s (.refine i c)).refine x ↔ k.refine x ∨ x = c := by
      intro x
      constructor
      · rintro (h | ⟨j, e, -⟩)
        · exact Or.inl h
        · injection e with _ e; exact Or.inr e.symm
      · rintro (h | rfl)
        · exact Or.inl h
        · exact Or.inr ⟨i, rfl, r, h1⟩
    constructor
    · intro x hx hl
      rcases (k1 x).1 hx with hx | rfl
      · rcases h.refine x hx hl with h | h
        · exact Or.inl (mem_set_mono Req.toRefine (c3 x) h)
        · exact Or.inr (mem_set_mono Req.notRefine (by show _ → x ∈ r.notRefine; rw [c5]; exact id) h)
      · exact Or.inl ⟨i, by rw [Sys.set_same]; exact c2 hl⟩
    · intro j x hx
      rw [k1]
      rcases mem_set Req.toRefine hx with hx | hx
      · rcases c4 x hx with hx | hx
        · exact Or.inl (h.refine' i x hx)
        · exact Or.inr hx
      · exact Or.inl (h.refine' j x hx)
    · intro x hx hl
      exact mem_set_mono Req.notRefine (by show _ → x ∈ r.notRefine; rw [c5]; exact id)
        (h.dontRefine x ((k3 x).1 hx) hl)
    · intro j x hx
      rw [k3]
      rcases mem_set Req.notRefine hx with hx | hx
      · exact h.dontRefine' i x (by rw [← c5]; exact hx)
      · exact h.dontRefine' j x hx
    · intro j x hx
      rw [k2]
      rcases mem_set Req.toUnrefine hx with hx | hx
      · exact h.unrefine' i x (c6 x hx)
      · exact h.unrefine' j x hx
    · intro x hx hl
      obtain ⟨j, y, hy, hj⟩ := h.dontUnrefine x ((k4 x).1 hx) hl
      obtain ⟨j', hj'⟩ := mem_set_mono (i := i) (p := { s i with req := r }) Req.notUnrefine (c7 y) ⟨j, hj⟩
      exact ⟨j', y, hy, hj'⟩
    · intro j x hx
      rw [k4, k1]
      rcases mem_set Req.notUnrefine hx with hx | hx
      · rcases c8 x hx with hx | hx
        · rcases h.dontUnrefine' i x hx with h | h
          · exact Or.inl h
          · exact Or.inr (Or.inl h)
        · exact Or.inr (Or.inr hx)
      · rcases h.dontUnrefine' j x hx with h | h
        · exact Or.inl h
        · exact Or.inr (Or.inl h)
    · intro x hx hl
      have hxv := hi.tiled.valid x (h.unrefineOwn x ((k2 x).1 hx) hl)
      rcases h.unrefine x ((k2 x).1 hx) hl with ⟨j, y, hy, hj⟩ | ⟨y, hy, hj⟩ | ⟨y, e1, e2, e3, e4⟩
      · rcases mem_set_or (i := i) (p := { s i with req := r }) Req.toUnrefine ⟨j, hj⟩ with ⟨j', hj'⟩ | hj'
        · exact Or.inl ⟨j', y, hy, hj'⟩
        · obtain ⟨y1, y2, y3⟩ := (children_spec hw (parent_valid hw hxv) (lvl_parent_lt hw hxv hl)).1 hy
          have y4 : g.lvl y = g.lvl x := by rw [y2, lvl_parent hw hxv]; omega
          rcases d1 y hj' y1 (by omega) with e | e | e
          · exact Or.inl ⟨i, y, hy, by rw [Sys.set_same]; exact e⟩
          · rw [y3] at e
            exact Or.inr (Or.inl ⟨c, e, Or.inl ((k1 c).2 (Or.inr rfl))⟩)
          · rw [y3, y4] at e
            exact Or.inr (Or.inr ⟨c, e.1, e.2.1, by have := e.2.2; omega, (k1 c).2 (Or.inr rfl)⟩)
      · exact Or.inr (Or.inl ⟨y, hy, hj.imp (fun h => (k1 y).2 (Or.inl h)) (fun h => (k4 y).2 h)⟩)
      · exact Or.inr (Or.inr ⟨y, e1, e2, e3, (k1 y).2 (Or.inl e4)⟩)
    · intro x hx; exact h.unrefineOwn x ((k2 x).1 hx)
    · intro x hx
      rcases (k1 x).1 hx with hx | rfl
      · exact h.refineOwn x hx
      · exact c1
    · intro x hx; exact h.dontUnrefineOwn x ((k4 x).1 hx)
    · intro x hx e1 e2
      rcases (k1 x).1 hx with hx | rfl
      · obtain ⟨j, y, hy, hj⟩ := h.refineTop x hx e1 e2
        obtain ⟨j', hj'⟩ := mem_set_mono (i := i) (p := { s i with req := r }) Req.notUnrefine (c7 y) ⟨j, hj⟩
        exact ⟨j', y, hy, hj'⟩
      · obtain ⟨y, hy, hj⟩ := d2 e1 e2
        exact ⟨i, y, hy, by rw [Sys.set_same]; exact hj⟩

theorem Stored.dontRefine_call (hi : Asks g w s) {k : Calls} (h : Stored g w k s) {i : Fin n} {c : Nat}
    (hs : step g dflt maxTag s (.dontRefine i c) = .ok s') :
    Stored g w (k.add g s (.dontRefine i c)) s' := by
  obtain ⟨b, r, h1, rfl⟩ := ask_inv hs
  have h1' := h1
  rw [hi.owner] at h1'
  obtain ⟨b', r', e, d1, d2, d3, d4, d5, d6, d7, d8⟩ := dontRefine_spec (r := (s i).req) (c := c) hi.tiled
  rw [h1'] at e
  injection e with e
  injection e with e1 e2
  subst e1; subst e2
  have ha : ∀ x ∈ (s i).req.toRefine, x ∈ r.toRefine ∨ x ∈ r.notRefine :=
    (asked_dontRefine h1').toRefine
  have k1 : ∀ x, (k.add g s (.dontRefine i c)).refine x ↔ k.refine x := by
    intro x; exact ⟨fun h => h.elim id (by rintro ⟨j, e, -⟩; cases e), Or.inl⟩
  have k2 : ∀ x, (k.add g s (.dontRefine i c)).unrefine x ↔ k.unrefine x := by
    intro x; exact ⟨fun h => h.elim id (by rintro ⟨j, e, -⟩; cases e), Or.inl⟩
  have k4 : ∀ x, (k.add g s (.dontRefine i c)).dontUnrefine x ↔ k.dontUnrefine x := by
    intro x; exact ⟨fun h => h.elim id (by rintro ⟨j, e, -⟩; cases e), Or.inl⟩
  cases b with
  | false =>
    refine h.congr (set_req_same (d2 rfl)) k1 k2 ?_ k4
    intro x
    refine ⟨fun h => h.elim id ?_, Or.inl⟩
    rintro ⟨j, e, r', h2⟩
    injection e with e1 e2
    subst e1; subst e2
    rw [h1] at h2
    cases h2
  | true =>
    have hce := d1.1 rfl
    have k3 : ∀ x, (k.add g s (.dontRefine i c)).dontRefine x ↔ k.dontRefine x ∨ x = c := by
      intro x
      constructor
      · rintro (h | ⟨j, e, -⟩)
        · exact Or.inl h
        · injection e with _ e; exact Or.inr e.symm
      · rintro (h | rfl)
        · exact Or.inl h
        · exact Or.inr ⟨i, rfl, r, h1⟩
    constructor
    · intro x hx hl
      rcases h.refine x ((k1 x).1 hx) hl with h | h
      · rcases mem_set_or (i := i) (p := { s i with req := r }) Req.toRefine h with h | h
        · exact Or.inl h
        · rcases ha x h with h | h
          · exact Or.inl ⟨i, by rw [Sys.set_same]; exact h⟩
          · exact Or.inr ⟨i, by rw [Sys.set_same]; exact h⟩
      · exact Or.inr (mem_set_mono Req.notRefine (d6 x) h)
    · intro j x hx
      rw [k1]
      rcases mem_set Req.toRefine hx with hx | hx
      · exact h.refine' i x (d5 x hx)
      · exact h.refine' j x hx
    · intro x hx hl
      rcases (k3 x).1 hx with hx | rfl
      · exact mem_set_mono Req.notRefine (d6 x) (h.dontRefine x hx hl)
      · exact ⟨i, by rw [Sys.set_same]; exact (d8 hce hl).1⟩
    · intro j x hx
      rw [k3]
      rcases mem_set Req.notRefine hx with hx | hx
      · rcases d7 x hx with hx | hx
        · exact Or.inl (h.dontRefine' i x hx)
        · exact Or.inr hx
      · exact Or.inl (h.dontRefine' j x hx)
    · intro j x hx
      rw [k2]
      rcases mem_set Req.toUnrefine hx with hx | hx
      · exact h.unrefine' i x (by rw [← d3]; exact hx)
      · exact h.unrefine' j x hx
    · intro x hx hl
      obtain ⟨j, y, hy, hj⟩ := h.dontUnrefine x ((k4 x).1 hx) hl
      obtain ⟨j', hj'⟩ := mem_set_mono (i := i) (p := { s i with req := r }) Req.notUnrefine
        (by show _ → y ∈ r.notUnrefine; rw [d4]; exact id) ⟨j, hj⟩
      exact ⟨j', y, hy, hj'⟩
    · intro j x hx
      rw [k4, k1]
      rcases mem_set Req.notUnrefine hx with hx | hx
      · exact h.dontUnrefine' i x (by rw [← d4]; exact hx)
      · exact h.dontUnrefine' j x hx
    · intro x hx hl
      rcases h.unrefine x ((k2 x).1 hx) hl with ⟨j, y, hy, hj⟩ | ⟨y, hy, hj⟩ | ⟨y, e1, e2, e3, e4⟩
      · obtain ⟨j', hj'⟩ := mem_set_mono (i := i) (p := { s i with req := r }) Req.toUnrefine
          (by show _ → y ∈ r.toUnrefine; rw [d3]; exact id) ⟨j, hj⟩
        exact Or.inl ⟨j', y, hy, hj'⟩
      · exact Or.inr (Or.inl ⟨y, hy, hj.imp (fun h => (k1 y).2 h) (fun h => (k4 y).2 h)⟩)
      · exact Or.inr (Or.inr ⟨y, e1, e2, e3, (k1 y).2 e4⟩)
    · intro x hx; exact h.unrefineOwn x ((k2 x).1 hx)
    · intro x hx; exact h.refineOwn x ((k1 x).1 hx)
    · intro x hx; exact h.dontUnrefineOwn x ((k4 x).1 hx)
    · intro x hx e1 e2
      obtain ⟨j, y, hy, hj⟩ := h.refineTop x ((k1 x).1 hx) e1 e2
      obtain ⟨j', hj'⟩ := mem_set_mono (i := i) (p := { s i with req := r }) Req.notUnrefine
        (by show _ → y ∈ r.notUnrefine; rw [d4]; exact id) ⟨j, hj⟩
      exact ⟨j', y, hy, hj'⟩

theorem Stored.dontUnrefine_call (hw : g.WF) (hi : Asks g w s) {k : Calls} (h : Stored g w k s) {i : Fin n} {c : Nat}
    (hs : step g dflt maxTag s (.dontUnrefine i c) = .ok s') :
    Stored g w (k.add g s (.dontUnrefine i c)) s' := by
  obtain ⟨b, r, h1, rfl⟩ := ask_inv hs
  have h1' := h1
  rw [hi.owner] at h1'
  obtain ⟨b', r', e, d1, d2, d3, d4, d5, d6, d7, d8⟩ :=
    dontUnrefine_spec (r := (s i).req) (c := c) hw hi.tiled
  rw [h1'] at e
  injection e with e
  injection e with e1 e2
  subst e1; subst e2
  have k1 : ∀ x, (k.add g s (.dontUnrefine i c)).refine x ↔ k.refine x := by
    intro x; exact ⟨fun h => h.elim id (by rintro ⟨j, e, -⟩; cases e), Or.inl⟩
  have k2 : ∀ x, (k.add g s (.dontUnrefine i c)).unrefine x ↔ k.unrefine x := by
    intro x; exact ⟨fun h => h.elim id (by rintro ⟨j, e, -⟩; cases e), Or.inl⟩
  have k3 : ∀ x, (k.add g s (.dontUnrefine i c)).dontRefine x ↔ k.dontRefine x := by
    intro x; exact ⟨fun h => h.elim id (by rintro ⟨j, e, -⟩; cases e), Or.inl⟩
  cases b with
  | false =>
    refine h.congr (set_req_same (d2 rfl)) k1 k2 k3 ?_
    intro x
    refine ⟨fun h => h.elim id ?_, Or.inl⟩
    rintro ⟨j, e, r', h2⟩
    injection e with e1 e2
    subst e1; subst e2
    rw [h1] at h2
    cases h2
  | true =>
    have hce := d1.1 rfl
    have k4 : ∀ x, (k.add g s (.dontUnrefine i c)).dontUnrefine x ↔ k.dontUnrefine x ∨ x = c := by
      intro x
      constructor
      · rintro (h | ⟨j, e, -⟩)
        · exact Or.inl h
        · injection e with _ e; exact Or.inr e.symm
      · rintro (h | rfl)
        · exact Or.inl h
        · exact Or.inr ⟨i, rfl, r, h1⟩
    constructor
    · intro x hx hl
      rcases h.refine x ((k1 x).1 hx) hl with h | h
      · exact Or.inl (mem_set_mono Req.toRefine (by show _ → x ∈ r.toRefine; rw [d3]; exact id) h)
      · exact Or.inr (mem_set_mono Req.notRefine (by show _ → x ∈ r.notRefine; rw [d4]; exact id) h)
    · intro j x hx
      rw [k1]
      rcases mem_set Req.toRefine hx with hx | hx
      · exact h.refine' i x (by rw [← d3]; exact hx)
      · exact h.refine' j x hx
    · intro x hx hl
      exact mem_set_mono Req.notRefine (by show _ → x ∈ r.notRefine; rw [d4]; exact id)
        (h.dontRefine x ((k3 x).1 hx) hl)
    · intro j x hx
      rw [k3]
      rcases mem_set Req.notRefine hx with hx | hx
      · exact h.dontRefine' i x (by rw [← d4]; exact hx)
      · exact h.dontRefine' j x hx
    · intro j x hx
      rw [k2]
      rcases mem_set Req.toUnrefine hx with hx | hx
      · exact h.unrefine' i x (d5 x hx)
      · exact h.unrefine' j x hx
    · intro x hx hl
      rcases (k4 x).1 hx with hx | rfl
      · obtain ⟨j, y, hy, hj⟩ := h.dontUnrefine x hx hl
        obtain ⟨j', hj'⟩ := mem_set_mono (i := i) (p := { s i with req := r }) Req.notUnrefine (d6 y) ⟨j, hj⟩
        exact ⟨j', y, hy, hj'⟩
      · obtain ⟨y, hy, hj⟩ := d8 hce hl
        exact ⟨i, y, hy, by rw [Sys.set_same]; exact hj⟩
    · intro j x hx
      rw [k4, k1]
      rcases mem_set Req.notUnrefine hx with hx | hx
      · rcases d7 x hx with hx | hx
        · rcases h.dontUnrefine' i x hx with h | h
          · exact Or.inl (Or.inl h)
          · exact Or.inr h
        · exact Or.inl (Or.inr hx)
      · rcases h.dontUnrefine' j x hx with h | h
        · exact Or.inl (Or.inl h)
        · exact Or.inr h
    · intro x hx hl
      have hxv := hi.tiled.valid x (h.unrefineOwn x ((k2 x).1 hx) hl)
      rcases h.unrefine x ((k2 x).1 hx) hl with ⟨j, y, hy, hj⟩ | ⟨y, hy, hj⟩ | ⟨y, e1, e2, e3, e4⟩
      · rcases mem_set_or (i := i) (p := { s i with req := r }) Req.toUnrefine ⟨j, hj⟩ with ⟨j', hj'⟩ | hj'
        · exact Or.inl ⟨j', y, hy, hj'⟩
        · obtain ⟨y1, y2, y3⟩ := (children_spec hw (parent_valid hw hxv) (lvl_parent_lt hw hxv hl)).1 hy
          rcases dontUnrefine_keeps hw hi.tiled h1' hj' with e | e
          · exact Or.inl ⟨i, y, hy, by rw [Sys.set_same]; exact e⟩
          · rw [y3] at e
            exact Or.inr (Or.inl ⟨c, e, Or.inr ((k4 c).2 (Or.inr rfl))⟩)
      · exact Or.inr (Or.inl ⟨y, hy, hj.imp (fun h => (k1 y).2 h) (fun h => (k4 y).2 (Or.inl h))⟩)
      · exact Or.inr (Or.inr ⟨y, e1, e2, e3, (k1 y).2 e4⟩)
    · intro x hx; exact h.unrefineOwn x ((k2 x).1 hx)
    · intro x hx; exact h.refineOwn x ((k1 x).1 hx)
    · intro x hx
      rcases (k4 x).1 hx with hx | rfl
      · exact h.dontUnrefineOwn x hx
      · exact hce
    · intro x hx e1 e2
      obtain ⟨j, y, hy, hj⟩ := h.refineTop x ((k1 x).1 hx) e1 e2
      obtain ⟨j', hj'⟩ := mem_set_mono (i := i) (p := { s i with req := r }) Req.notUnrefine (d6 y) ⟨j, hj⟩
      exact ⟨j', y, hy, hj'⟩

theorem Stored.unrefine_call (hw : g.WF) (hi : Asks g w s) {k : Calls} (h : Stored g w k s) {i : Fin n} {c : Nat}
    (hs : step g dflt maxTag s (.unrefine i c) = .ok s') :
    Stored g w (k.add g s (.unrefine i c)) s' := by
  obtain ⟨b, r, h1, rfl⟩ := ask_inv hs
  have h1' := h1
  obtain ⟨w', ew, hp⟩ := hi.view i
  rw [hi.owner, ← ew] at h1'
  have k1 : ∀ x, (k.add g s (.unrefine i c)).refine x ↔ k.refine x := by
    intro x; exact ⟨fun h => h.elim id (by rintro ⟨j, e, -⟩; cases e), Or.inl⟩
  have k3 : ∀ x, (k.add g s (.unrefine i c)).dontRefine x ↔ k.dontRefine x := by
    intro x; exact ⟨fun h => h.elim id (by rintro ⟨j, e, -⟩; cases e), Or.inl⟩
  have k4 : ∀ x, (k.add g s (.unrefine i c)).dontUnrefine x ↔ k.dontUnrefine x := by
    intro x; exact ⟨fun h => h.elim id (by rintro ⟨j, e, -⟩; cases e), Or.inl⟩
  have hfalse : b = false → r = (s i).req → Stored g w (k.add g s (.unrefine i c))
      (s.set i { s i with req := r }) := by
    intro hb hr
    subst hb
    refine h.congr (set_req_same hr) k1 ?_ k3 k4
    intro x
    refine ⟨fun h => h.elim id ?_, Or.inl⟩
    rintro ⟨j, e, r', h2⟩
    injection e with e1 e2
    subst e1; subst e2
    rw [h1] at h2
    cases h2
  by_cases hwi : w' c = some i
  case neg =>
    rw [unrefineCompletely_false hp hwi] at h1'
    injection h1' with h1'
    injection h1' with e1 e2
    exact hfalse e1.symm e2.symm
  obtain ⟨b', r', e, d1, d2, d3, d4⟩ :=
    unrefineCompletely_spec (r := (s i).req) hw (by rw [ew]; exact hi.tiled) (by rw [ew]; exact hi.balanced) hp hwi
  rw [h1'] at e
  injection e with e
  injection e with e1 e2
  subst e1; subst e2
  cases b with
  | false => exact hfalse rfl (d1 rfl).1
  | true =>
    rw [ew] at d2 d4
    have hce : exist w c = true := by rw [← ew]; exact exist_of hwi
    have k2 : ∀ x, (k.add g s (.unrefine i c)).unrefine x ↔ k.unrefine x ∨ x = c := by
      intro x
      constructor
      · rintro (h | ⟨j, e, -⟩)
        · exact Or.inl h
        · injection e with _ e; exact Or.inr e.symm
      · rintro (h | rfl)
        · exact Or.inl h
        · exact Or.inr ⟨i, rfl, r, h1⟩
    have e1 : r.toRefine = (s i).req.toRefine := by rcases d3 with rfl | ⟨rfl, -⟩ <;> rfl
    have e2 : r.notRefine = (s i).req.notRefine := by rcases d3 with rfl | ⟨rfl, -⟩ <;> rfl
    have e3 : r.notUnrefine = (s i).req.notUnrefine := by rcases d3 with rfl | ⟨rfl, -⟩ <;> rfl
    have e4 : ∀ x ∈ r.toUnrefine, x ∈ (s i).req.toUnrefine ∨ x = c := by
      rcases d3 with rfl | ⟨rfl, -⟩
      · exact fun _ h => Or.inl h
      · intro x hx
        rcases List.mem_cons.1 hx with h | h
        · exact Or.inr h
        · exact Or.inl h
    have e5 : ∀ x ∈ (s i).req.toUnrefine, x ∈ r.toUnrefine := by
      rcases d3 with rfl | ⟨rfl, -⟩
      · exact fun _ h => h
      · exact fun _ h => List.mem_cons_of_mem _ h
    constructor
    · intro x hx hl
      rcases h.refine x ((k1 x).1 hx) hl with h | h
      · exact Or.inl (mem_set_mono Req.toRefine (by show _ → x ∈ r.toRefine; rw [e1]; exact id) h)
      · exact Or.inr (mem_set_mono Req.notRefine (by show _ → x ∈ r.notRefine; rw [e2]; exact id) h)
    · intro j x hx
      rw [k1]
      rcases mem_set Req.toRefine hx with hx | hx
      · exact h.refine' i x (by rw [← e1]; exact hx)
      · exact h.refine' j x hx
    · intro x hx hl
      exact mem_set_mono Req.notRefine (by show _ → x ∈ r.notRefine; rw [e2]; exact id)
        (h.dontRefine x ((k3 x).1 hx) hl)
    · intro j x hx
      rw [k3]
      rcases mem_set Req.notRefine hx with hx | hx
      · exact h.dontRefine' i x (by rw [← e2]; exact hx)
      · exact h.dontRefine' j x hx
    · intro j x hx
      rw [k2]
      rcases mem_set Req.toUnrefine hx with hx | hx
      · rcases e4 x hx with hx | hx
        · exact Or.inl (h.unrefine' i x hx)
        · exact Or.inr hx
      · exact Or.inl (h.unrefine' j x hx)
    · intro x hx hl
      obtain ⟨j, y, hy, hj⟩ := h.dontUnrefine x ((k4 x).1 hx) hl
      obtain ⟨j', hj'⟩ := mem_set_mono (i := i) (p := { s i with req := r }) Req.notUnrefine
        (by show _ → y ∈ r.notUnrefine; rw [e3]; exact id) ⟨j, hj⟩
      exact ⟨j', y, hy, hj'⟩
    · intro j x hx
      rw [k4, k1]
      rcases mem_set Req.notUnrefine hx with hx | hx
      · exact h.dontUnrefine' i x (by rw [← e3]; exact hx)
      · exact h.dontUnrefine' j x hx
    · intro x hx hl
      rcases (k2 x).1 hx with hx | rfl
      · rcases h.unrefine x hx hl with ⟨j, y, hy, hj⟩ | ⟨y, hy, hj⟩ | ⟨y, f1, f2, f3, f4⟩
        · obtain ⟨j', hj'⟩ := mem_set_mono (i := i) (p := { s i with req := r }) Req.toUnrefine (e5 y) ⟨j, hj⟩
          exact Or.inl ⟨j', y, hy, hj'⟩
        · exact Or.inr (Or.inl ⟨y, hy, hj.imp (fun h => (k1 y).2 h) (fun h => (k4 y).2 h)⟩)
        · exact Or.inr (Or.inr ⟨y, f1, f2, f3, (k1 y).2 f4⟩)
      · by_cases hf : ∀ y ∈ g.children (g.parent x), y ∉ (s i).req.toRefine ∧ y ∉ (s i).req.notUnrefine
        · have hex : ∀ y ∈ g.children (g.parent x), exist w y = true := by
            intro y hy
            cases hye : exist w y with
            | true => rfl
            | false => exact absurd (d2 hl ⟨y, hy, hye⟩ hf) (by decide)
          by_cases hb : ∀ b, exist w b = true → Near g x b → g.lvl b = g.lvl x + 1 → b ∉ (s i).req.toRefine
          · obtain ⟨y, hy, hj⟩ := d4 hl (fun y hy => ⟨hex y hy, (hf y hy).1, (hf y hy).2⟩) hb
            exact Or.inl ⟨i, y, hy, by rw [Sys.set_same]; exact hj⟩
          · obtain ⟨b, hb⟩ := Classical.not_forall.1 hb
            obtain ⟨b1, hb⟩ := Classical.not_imp.1 hb
            obtain ⟨b2, hb⟩ := Classical.not_imp.1 hb
            obtain ⟨b3, hb⟩ := Classical.not_imp.1 hb
            have hxv := hi.tiled.valid x hce
            have hbl := lvl_le (hi.tiled.valid b b1)
            refine Or.inr (Or.inr ⟨b, b2.mono (sub_of_mem_children hw (parent_valid hw hxv) (lvl_parent_lt hw hxv hl)
              (mem_children_parent hw hxv hl)) (Sub.refl b), by omega, by omega,
              (k1 b).2 (h.refine' i b (Classical.not_not.1 hb))⟩)
        · obtain ⟨y, hy⟩ := Classical.not_forall.1 hf
          obtain ⟨y1, y2⟩ := Classical.not_imp.1 hy
          refine Or.inr (Or.inl ⟨y, y1, ?_⟩)
          rw [k1, k4]
          by_cases e : y ∈ (s i).req.toRefine
          · exact Or.inl (h.refine' i y e)
          · have e' : y ∈ (s i).req.notUnrefine := Classical.byContradiction fun h => y2 ⟨e, h⟩
            exact (h.dontUnrefine' i y e').symm
    · intro x hx hl
      rcases (k2 x).1 hx with hx | rfl
      · exact h.unrefineOwn x hx hl
      · exact hce
    · intro x hx; exact h.refineOwn x ((k1 x).1 hx)
    · intro x hx; exact h.dontUnrefineOwn x ((k4 x).1 hx)
    · intro x hx f1 f2
      obtain ⟨j, y, hy, hj⟩ := h.refineTop x ((k1 x).1 hx) f1 f2
      obtain ⟨j', hj'⟩ := mem_set_mono (i := i) (p := { s i with req := r }) Req.notUnrefine
        (by show _ → y ∈ r.notUnrefine; rw [e3]; exact id) ⟨j, hj⟩
      exact ⟨j', y, hy, hj'⟩

theorem Stored.other_call {k : Calls} (h : Stored g w k s) (op : Op n D W) (hq : op.Quiet)
    (hs : step g dflt maxTag s op = .ok s') (h1 : ∀ i c, op ≠ .refine i c) (h2 : ∀ i c, op ≠ .unrefine i c)
    (h3 : ∀ i c, op ≠ .dontRefine i c) (h4 : ∀ i c, op ≠ .dontUnrefine i c) :
    Stored g w (k.add g s op) s' :=
  h.congr (step_req op hq hs h1 h2 h3 h4)
    (fun c => ⟨fun h => h.elim id (by rintro ⟨j, e, -⟩; exact absurd e (h1 j c)), Or.inl⟩)
    (fun c => ⟨fun h => h.elim id (by rintro ⟨j, e, -⟩; exact absurd e (h2 j c)), Or.inl⟩)
    (fun c => ⟨fun h => h.elim id (by rintro ⟨j, e, -⟩; exact absurd e (h3 j c)), Or.inl⟩)
    (fun c => ⟨fun h => h.elim id (by rintro ⟨j, e, -⟩; exact absurd e (h4 j c)), Or.inl⟩)

/-- Nothing is stored if there are no requests. -/
theorem Stored.empty {w : Owner n} {s : Sys n D W} (hs : ∀ i, (s i).req = ⟨[], [], [], []⟩) : Stored g w Calls.none s := by
  constructor
  · intro c hc; cases hc
  · intro j c hc; rw [hs] at hc; cases hc
  · intro c hc; cases hc
  · intro j c hc; rw [hs] at hc; cases hc
  · intro j c hc; rw [hs] at hc; cases hc
  · intro c hc; cases hc
  · intro j c hc; rw [hs] at hc; cases hc
  · intro c hc; cases hc
  · intro c hc; cases hc
  · intro c hc; cases hc
  · intro c hc; cases hc
  · intro c hc; cases hc

/-- Requests after `stop_refining`. -/
theorem Stored.stop (hw : g.WF) (hn : 0 < n) {k : Calls} (hs : SysCore g w s) (hr : ∀ i, ReqOk g w (s i).req)
    (hst : Stored g w k s) {sorted : Bool} {w' : Owner n} (h : step g dflt maxTag s (.stop sorted) = .ok s') :
    Stored g w' { Calls.none with dontRefine := fun c => ∃ i, Veto g (exist (s i).owner) k.dontRefine c } s' := by
  obtain ⟨res, h1, h2⟩ := Out.bind_inv h
  injection h2 with h2
  subst h2
  have h3 := (stopRefining_sound hw hs hr h1).1
  have hv : ∀ c, (∃ i, Veto g (exist (s i).owner) k.dontRefine c) → Veto g (exist w) k.dontRefine c := by
    rintro c ⟨i, hc⟩
    rw [hs.owner] at hc; exact hc
  constructor
  · intro c hc; cases hc
  · intro j c hc; rw [h3.toRefine] at hc; cases hc
  · intro c hc hl
    exact ⟨⟨0, hn⟩, (h3.notRefine _ c).2 ((hst.vetoed hw hs.tiled).2 (hv c hc) hl)⟩
  · intro j c hc
    exact ⟨j, by rw [hs.owner]; exact (hst.vetoed hw hs.tiled).1 ((h3.notRefine j c).1 hc)⟩
  · intro j c hc; rw [h3.toUnrefine] at hc; cases hc
  · intro c hc; cases hc
  · intro j c hc; rw [h3.notUnrefine] at hc; cases hc
  · intro c hc; cases hc
  · intro c hc; cases hc
  · intro c hc; cases hc
  · intro c hc; cases hc
  · intro c hc; cases hc

/-- Accepted calls are stored. -/
theorem History.stored (hw : g.WF) (hn : 0 < n) {k : Calls} (h : History g dflt maxTag k s) :
    ∃ w, Inv g w s ∧ Stored g w k s := by
  induction h with
  | init h =>
    obtain ⟨w, hi⟩ := (Reachable.init h).inv hw hn
    refine ⟨w, hi, Stored.empty ?_⟩
    have hM := Nat.le_max_left maxTag g.last
    have hM' := Nat.le_max_right maxTag g.last
    obtain ⟨s', h1, h2, h3⟩ := createGrid_spec (W := W) hw hn dflt
      (fitsTags_mono hM' (fitsTags_last (createLevel0_tiled hw hn).valid))
    rw [createGrid_mono hM h] at h1
    injection h1 with h1
    subst h1
    exact fun i => (h3 i).1
  | copy h =>
    obtain ⟨w, hi⟩ := h.inv hw hn
    exact ⟨w, hi.copy _, Stored.empty fun i => rfl⟩
  | call op hs hq h ih =>
    obtain ⟨w, hi, hst⟩ := ih
    obtain ⟨w', hi'⟩ := hi.step hw (hq.ok _) h
    have : w' = w := by
      rw [← hi'.sys.owner ⟨0, hn⟩, (step_quiet op hq h _).1, hi.sys.owner]
    subst this
    refine ⟨w', hi', ?_⟩
    cases op with
    | refine i c => exact hst.refine_call hw hi.asks h
    | unrefine i c => exact hst.unrefine_call hw hi.asks h
    | dontRefine i c => exact hst.dontRefine_call hi.asks h
    | dontUnrefine i c => exact hst.dontUnrefine_call hw hi.asks h
    | _ => exact hst.other_call _ hq h (by intros; nofun) (by intros; nofun) (by intros; nofun) (by intros; nofun)
  | @stop k s s' sorted hs h ih =>
    obtain ⟨w, hi, hst⟩ := ih
    obtain ⟨w', hi'⟩ := hi.step hw (op := .stop sorted) trivial h
    exact ⟨w', hi', hst.stop hw hn hi.sys.core hi.req h⟩
  | balance z hs ho h ih =>
    obtain ⟨w, hi, hst⟩ := ih
    obtain ⟨w', hi'⟩ := hi.step hw ho h
    refine ⟨w', hi', Stored.empty ?_⟩
    have hz := ho ⟨0, hn⟩
    rw [hi.sys.owner] at hz
    exact fun i => (balanceLoad_sound hw hz hi.sys h i).req

end Dccrg
