import Verif.Progress
/-!
# Rounds of refinement

What happens between two calls of `stop_refining` or load balancing.
-/
namespace Dccrg
open Cfg
variable {n : Nat} {D W : Type} {g : Cfg} {w : Owner n} {s s' : Sys n D W} {dflt : D} {maxTag : Nat}

/-- Any number of operations for which `P` holds. -/
inductive Runs (g : Cfg) (dflt : D) (maxTag : Nat) (P : Op n D W → Prop) : Sys n D W → Sys n D W → Prop
  | refl (s : Sys n D W) : Runs g dflt maxTag P s s
  | step {s s' s'' : Sys n D W} (op : Op n D W) : Runs g dflt maxTag P s s' → P op → op.Ok s' →
      Dccrg.step g dflt maxTag s' op = .ok s'' → Runs g dflt maxTag P s s''

/-- Operations other than `stop_refining` and load balancing. -/
def Op.Quiet : Op n D W → Prop
  | .stop _ => False
  | .balance _ => False
  | _ => True

theorem Runs.reachable {P : Op n D W → Prop} (h : Runs g dflt maxTag P s s') (hs : Reachable g dflt maxTag s) :
    Reachable g dflt maxTag s' := by
  induction h with
  | refl => exact hs
  | step op _ _ ho h1 ih => exact .step op ih ho h1

/-- Change of requests in an operation other than `stop_refining` or load balancing. -/
structure Asked (r r' : Req) : Prop where
  notRefine : ∀ c, c ∈ r.notRefine → c ∈ r'.notRefine
  notUnrefine : ∀ c, c ∈ r.notUnrefine → c ∈ r'.notUnrefine
  toRefine : ∀ c, c ∈ r.toRefine → c ∈ r'.toRefine ∨ c ∈ r'.notRefine

theorem Asked.refl (r : Req) : Asked r r := ⟨fun _ h => h, fun _ h => h, fun _ h => Or.inl h⟩

theorem Asked.trans {r r' r'' : Req} (h : Asked r r') (h' : Asked r' r'') : Asked r r'' :=
  ⟨fun c hc => h'.1 c (h.1 c hc), fun c hc => h'.2 c (h.2 c hc), fun c hc => by
    rcases h.3 c hc with h | h
    · exact h'.3 c h
    · exact Or.inr (h'.1 c h)⟩

theorem asked_dontUnrefine {E : Nat → Bool} {r r' : Req} {c : Nat} {b : Bool}
    (h : dontUnrefine g E r c = .ok (b, r')) : Asked r r' := by
  unfold dontUnrefine at h
  split at h
  · injection h with h; injection h with _ h; subst h; exact .refl r
  · split at h
    · cases h
    · split at h
      · injection h with h; injection h with _ h; subst h; exact .refl r
      · split at h
        · injection h with h; injection h with _ h; subst h; exact .refl r
        · injection h with h; injection h with _ h; subst h
          exact ⟨fun _ h => h, fun _ h => List.mem_cons_of_mem _ h, fun _ h => Or.inl h⟩

theorem asked_dontRefine {E : Nat → Bool} {r r' : Req} {c : Nat} {b : Bool}
    (h : dontRefine g E r c = .ok (b, r')) : Asked r r' := by
  unfold dontRefine at h
  split at h
  · injection h with h; injection h with _ h; subst h; exact .refl r
  · split at h
    · injection h with h; injection h with _ h; subst h; exact .refl r
    · injection h with h; injection h with _ h; subst h
      refine ⟨fun _ h => List.mem_cons_of_mem _ h, fun _ h => h, fun x h => ?_⟩
      by_cases e : x = c
      · right; rw [e]; exact List.mem_cons_self
      · left; exact mem_without.2 ⟨h, by simpa using e⟩

theorem asked_refine {E has : Nat → Bool} {r r' : Req} {c : Nat} {b : Bool}
    (h : refineCompletely g E has r c = .ok (b, r')) : Asked r r' := by
  unfold refineCompletely at h
  split at h
  · injection h with h; injection h with _ h; subst h; exact .refl r
  · split at h
    · obtain ⟨⟨b', r''⟩, h1, h2⟩ := Out.bind_inv h
      injection h2 with h2; injection h2 with _ h2; subst h2
      exact asked_dontUnrefine h1
    · split at h
      · injection h with h; injection h with _ h; subst h; exact .refl r
      · split at h
        · cases h
        · split at h
          · injection h with h; injection h with _ h; subst h; exact .refl r
          · injection h with h; injection h with _ h; subst h
            exact ⟨fun _ h => h, fun _ h => h, fun _ h => Or.inl (List.mem_cons_of_mem _ h)⟩

theorem asked_unrefine {E has : Nat → Bool} {r r' : Req} {c : Nat} {b : Bool}
    (h : unrefineCompletely g E has r c = .ok (b, r')) : Asked r r' := by
  unfold unrefineCompletely at h
  split at h
  · injection h with h; injection h with _ h; subst h; exact .refl r
  · split at h
    · cases h
    · split at h
      · injection h with h; injection h with _ h; subst h; exact .refl r
      · split at h
        · injection h with h; injection h with _ h; subst h; exact .refl r
        · simp only at h
          split at h
          · cases h
          · cases h
          · cases h
          · split at h
            · injection h with h; injection h with _ h; subst h; exact .refl r
            · split at h
              · injection h with h; injection h with _ h; subst h; exact .refl r
              · injection h with h; injection h with _ h; subst h
                exact ⟨fun _ h => h, fun _ h => h, fun _ h => Or.inl h⟩

theorem asked_set (i : Fin n) {p : Proc n D W} (ho : p.owner = (s i).owner) (hr : Asked (s i).req p.req) (j : Fin n) :
    (s.set i p j).owner = (s j).owner ∧ Asked (s j).req (s.set i p j).req := by
  unfold Sys.set
  split
  · rename_i e; subst e; exact ⟨ho, hr⟩
  · exact ⟨rfl, .refl _⟩

theorem asked_ask {i : Fin n} {o : Out (Bool × Req)} (h : s.ask i o = .ok s')
    (ho : ∀ b r, o = .ok (b, r) → Asked (s i).req r) (j : Fin n) :
    (s' j).owner = (s j).owner ∧ Asked (s j).req (s' j).req := by
  unfold Sys.ask at h
  obtain ⟨⟨b, r⟩, h1, h2⟩ := Out.bind_inv h
  injection h2 with h2; subst h2
  exact asked_set (s := s) (p := { s i with req := r }) i rfl (ho b r h1) j

theorem unpin_same (i : Fin n) (p : Proc n D W) (c : Nat) :
    (unpin g i p c).2.owner = p.owner ∧ (unpin g i p c).2.req = p.req := by
  unfold unpin
  split
  · exact ⟨rfl, rfl⟩
  · split <;> exact ⟨rfl, rfl⟩

theorem unpinLocal_same (i : Fin n) (p : Proc n D W) :
    (unpinLocal g i p).2.owner = p.owner ∧ (unpinLocal g i p).2.req = p.req := by
  unfold unpinLocal
  generalize (ids g).filter _ = l
  suffices ∀ b (q : Proc n D W), q.owner = p.owner ∧ q.req = p.req →
      (l.foldl (fun s c => let r := Dccrg.unpin g i s.2 c; (s.1 && r.1, r.2)) (b, q)).2.owner = p.owner ∧
      (l.foldl (fun s c => let r := Dccrg.unpin g i s.2 c; (s.1 && r.1, r.2)) (b, q)).2.req = p.req from
    this true p ⟨rfl, rfl⟩
  induction l with
  | nil => exact fun _ _ h => h
  | cons a l ih =>
    intro b q h
    apply ih
    rw [(unpin_same i q a).1, (unpin_same i q a).2]; exact h

theorem pin_same (i : Fin n) (p : Proc n D W) (c : Nat) (q : Int) :
    (pin g i p c q).2.owner = p.owner ∧ (pin g i p c q).2.req = p.req := by
  unfold pin
  split
  · exact ⟨rfl, rfl⟩
  · split
    · split <;> exact ⟨rfl, rfl⟩
    · exact ⟨rfl, rfl⟩

theorem setWeight_same (i : Fin n) (p : Proc n D W) (c : Nat) (x : W) :
    (setWeight g i p c x).2.owner = p.owner ∧ (setWeight g i p c x).2.req = p.req := by
  unfold setWeight
  split <;> exact ⟨rfl, rfl⟩

theorem write_same (p : Proc n D W) (c : Nat) (v : D) :
    (write p c v).owner = p.owner ∧ (write p c v).req = p.req := by
  unfold write
  split
  · exact ⟨rfl, rfl⟩
  · split
    · exact ⟨rfl, rfl⟩
    · split
      · exact ⟨rfl, rfl⟩
      · split <;> exact ⟨rfl, rfl⟩

/-- Operations other than `stop_refining` and load balancing change neither the grid nor its partition
and keep earlier requests. -/
theorem step_quiet (op : Op n D W) (hq : op.Quiet) (h : step g dflt maxTag s op = .ok s') (j : Fin n) :
    (s' j).owner = (s j).owner ∧ Asked (s j).req (s' j).req := by
  cases op with
  | refine i c => exact asked_ask h (fun b r h => asked_refine h) j
  | unrefine i c => exact asked_ask h (fun b r h => asked_unrefine h) j
  | dontRefine i c => exact asked_ask h (fun b r h => asked_dontRefine h) j
  | dontUnrefine i c => exact asked_ask h (fun b r h => asked_dontUnrefine h) j
  | pin i c q =>
    injection h with h; subst h
    exact asked_set i (pin_same i _ c q).1 (by rw [(pin_same i _ c q).2]; exact .refl _) j
  | unpin i c =>
    injection h with h; subst h
    exact asked_set i (unpin_same i _ c).1 (by rw [(unpin_same i _ c).2]; exact .refl _) j
  | unpinLocal i =>
    injection h with h; subst h
    exact asked_set i (unpinLocal_same i _).1 (by rw [(unpinLocal_same i _).2]; exact .refl _) j
  | setWeight i c x =>
    injection h with h; subst h
    exact asked_set i (setWeight_same i _ c x).1 (by rw [(setWeight_same i _ c x).2]; exact .refl _) j
  | write i c v =>
    injection h with h; subst h
    exact asked_set i (write_same _ c v).1 (by rw [(write_same _ c v).2]; exact .refl _) j
  | clearRefined i =>
    injection h with h; subst h
    exact asked_set (s := s) (p := clearRefined (s i)) i rfl (.refl _) j
  | unpinAll => injection h with h; subst h; exact ⟨rfl, .refl _⟩
  | update id =>
    obtain ⟨r, h1, h2⟩ := Out.bind_inv h
    injection h2 with h2; subst h2
    unfold updateRemote at h1
    split at h1
    · cases h1
    · obtain ⟨x, -, h4⟩ := Out.bind_inv h1
      injection h4 with h4; subst h4
      exact ⟨rfl, .refl _⟩
  | addHood id items =>
    obtain ⟨r, h1, h2⟩ := Out.bind_inv h
    injection h2 with h2; subst h2
    have h3 := addHood_inv (b := (r j).1) (p' := (r j).2) (Out.collect_inv h1 j)
    cases hb : (r j).1 with
    | false =>
      have := h3.2.1 hb
      show (r j).2.owner = _ ∧ Asked _ (r j).2.req
      rw [this]; exact ⟨rfl, .refl _⟩
    | true =>
      have := h3.2.2 hb
      show (r j).2.owner = _ ∧ Asked _ (r j).2.req
      rw [this]; exact ⟨rfl, .refl _⟩
  | removeHood id =>
    injection h with h; subst h
    show (removeHood (s j) id).owner = _ ∧ Asked _ (removeHood (s j) id).req
    unfold removeHood
    split <;> exact ⟨rfl, .refl _⟩
  | stop => cases hq
  | balance => cases hq

theorem Runs.quiet (h : Runs g dflt maxTag Op.Quiet s s') (j : Fin n) :
    (s' j).owner = (s j).owner ∧ Asked (s j).req (s' j).req := by
  induction h with
  | refl => exact ⟨rfl, .refl _⟩
  | step op _ hq _ h1 ih =>
    have := step_quiet op hq h1 j
    exact ⟨this.1.trans ih.1, ih.2.trans this.2⟩

/-! ## Cells before and after -/

/-- A cell of `E'` that overlaps cell `c` is smaller. -/
def Finer (g : Cfg) (E' : Nat → Bool) (c : Nat) : Prop :=
  ∃ k p, E' k = true ∧ g.Mem p k ∧ g.Mem p c ∧ g.lvl c < g.lvl k

/-- A cell of `E'` that overlaps cell `c` is larger. -/
def Coarser (g : Cfg) (E' : Nat → Bool) (c : Nat) : Prop :=
  ∃ k p, E' k = true ∧ g.Mem p k ∧ g.Mem p c ∧ g.lvl k < g.lvl c

section
variable {R U : Nat → Prop} {E E' : Nat → Bool}

theorem mem_self (c : Nat) : g.Mem (g.idx c) c := fun d => ⟨Nat.le_refl _, by have := side_pos (g := g) c; omega⟩

theorem Plan.finer_iff (hw : g.WF) (ht : Tiled g E) (hp : Plan g E R U)
    (hE : ∀ c, E' c = true ↔ After g E R U c) {c : Nat} (hc : E c = true) : Finer g E' c ↔ R c := by
  constructor
  · rintro ⟨k, p, h1, h2, h3, h4⟩
    rcases hp.source hw ht ((hE k).1 h1) h2 hc h3 with ⟨e1, -⟩ | ⟨e1, -⟩ | ⟨u, e1, e2, e3⟩
    · subst e1; omega
    · exact e1
    · subst e2
      obtain ⟨f1, f2, f3⟩ := hp.parent hw ht e1
      have := ((children_spec hw f1 f2).1 e3).2.1
      omega
  · intro h
    obtain ⟨e1, e2⟩ := hp.refE c h
    have hv := ht.valid c hc
    obtain ⟨k, hk, hm⟩ := exists_child_mem hw hv e2 (mem_self c)
    exact ⟨k, g.idx c, (hE k).2 (Or.inr (Or.inl ⟨c, h, hk⟩)), hm, mem_self c, by
      have := ((children_spec hw hv e2).1 hk).2.1; omega⟩

theorem Plan.coarser_iff (hw : g.WF) (ht : Tiled g E) (hp : Plan g E R U)
    (hE : ∀ c, E' c = true ↔ After g E R U c) {c : Nat} (hc : E c = true) :
    Coarser g E' c ↔ Fam g U c := by
  constructor
  · rintro ⟨k, p, h1, h2, h3, h4⟩
    rcases hp.source hw ht ((hE k).1 h1) h2 hc h3 with ⟨e1, -⟩ | ⟨e1, e2⟩ | ⟨u, e1, e2, e3⟩
    · subst e1; omega
    · obtain ⟨f1, f2⟩ := hp.refE c e1
      have := ((children_spec hw (ht.valid c hc) f2).1 e2).2.1
      omega
    · subst e2; exact ⟨u, e1, e3⟩
  · rintro ⟨u, h1, h2⟩
    obtain ⟨f1, f2, f3⟩ := hp.parent hw ht h1
    refine ⟨g.parent u, g.idx c, (hE _).2 (Or.inr (Or.inr ⟨u, h1, rfl⟩)),
      mem_of_mem_children hw f1 f2 h2 (mem_self c), mem_self c, ?_⟩
    have := ((children_spec hw f1 f2).1 h2).2.1
    omega

end

end Dccrg
