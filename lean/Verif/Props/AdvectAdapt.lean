import Verif.AdvectAdapt
import Verif.Props.Advect
import Verif.Props.Geometry
import Verif.Props.Lists
import Verif.Nbr64Spec
/-!
# C121: adapting the grid in the advection test conserves what is advected
-/
namespace Dccrg
open Cfg
variable {n : Nat} {D W : Type} {g : Cfg}

/-! ## Loops over cells of a process -/

/-- A loop which assigns `V x` to every cell `x` of a list, provided that what each assignment needs is not changed by others. -/
theorem fold_writes {f : Nat → Proc n D W → Out (Proc n D W)} {V : Nat → D} {T : List Nat} {p : Proc n D W}
    (hp : ∀ x ∈ T, access p x ≠ none) (hT : T.Nodup)
    (hf : ∀ x ∈ T, ∀ q, (∀ y, y ∉ T ∨ y = x → access q y = access p y) → f x q = .ok (write q x (V x))) :
    ∃ q, Out.fold f T p = .ok q ∧ Wrote p q ∧ ∀ y, access q y = if y ∈ T then some (V y) else access p y := by
  have key : ∀ l : List Nat, (∀ x ∈ l, x ∈ T) → l.Nodup → ∀ q, Wrote p q →
      (∀ y, access q y = if y ∈ T ∧ y ∉ l then some (V y) else access p y) →
      ∃ r, Out.fold f l q = .ok r ∧ Wrote p r ∧ ∀ y, access r y = if y ∈ T then some (V y) else access p y := by
    intro l
    induction l with
    | nil =>
      intro _ _ q hq hy
      exact ⟨q, rfl, hq, fun y => by rw [hy]; simp⟩
    | cons x l ih =>
      intro hl hn q hq hy
      rw [List.nodup_cons] at hn
      have hx := hl x (List.mem_cons_self ..)
      have h1 := hf x hx q (by
        rintro y (h | h)
        · rw [hy, if_neg (fun e => h e.1)]
        · rw [hy, if_neg (fun e => e.2 (by rw [h]; exact List.mem_cons_self ..))])
      obtain ⟨d, hd⟩ := Option.ne_none_iff_exists'.1 (hp x hx)
      have hd' : access q x = some d := by rw [hy, if_neg (fun e => e.2 (List.mem_cons_self ..)), hd]
      obtain ⟨r, r1, r2, r3⟩ := ih (fun y h => hl y (List.mem_cons_of_mem _ h)) hn.2 (write q x (V x)) (.write _ _ hq) (by
        intro y
        rw [access_write hd']
        by_cases e : y = x
        · subst e; rw [if_pos rfl, if_pos ⟨hx, hn.1⟩]
        · rw [if_neg e, hy]
          simp [e])
      exact ⟨r, by unfold Out.fold; rw [h1]; exact r1, r2, r3⟩
  exact key T (fun _ h => h) hT p .refl (fun y => by rw [if_neg (fun e => e.2 e.1)])

/-- Density of a cell on a process. -/
def densityOn (p : Proc n AdvCell W) (c : Nat) : Rat :=
  match access p c with
  | some a => a.density
  | none => 0

/-- The loop over removed cells. -/
theorem fillParent_fold {l : List Nat} {p : Proc n AdvCell W}
    (h1 : ∀ c ∈ l, access p c ≠ none) (h2 : ∀ c ∈ l, access p (g.parent c) ≠ none)
    (h3 : ∀ c ∈ l, ∀ c' ∈ l, g.parent c' ≠ c) :
    ∃ q, Out.fold (fillParent g) l p = .ok q ∧ Wrote p q ∧ ∀ y, access q y = (access p y).map fun a =>
      { a with density := a.density + ((l.filter fun c => g.parent c = y).map fun c => densityOn p c / 8).sum } := by
  induction l generalizing p with
  | nil =>
    refine ⟨p, rfl, .refl, fun y => ?_⟩
    cases h : access p y with
    | none => rfl
    | some a => simp [Rat.add_zero]
  | cons c l ih =>
    obtain ⟨a, ha⟩ := Option.ne_none_iff_exists'.1 (h1 c (List.mem_cons_self ..))
    obtain ⟨b, hb⟩ := Option.ne_none_iff_exists'.1 (h2 c (List.mem_cons_self ..))
    have hs : fillParent g c p = .ok (write p (g.parent c) { b with density := b.density + a.density / 8 }) := by
      unfold fillParent; rw [ha]; simp only [hb]
    have hac := access_write (v := { b with density := b.density + a.density / 8 }) hb
    have keep : ∀ x ∈ l, access (write p (g.parent c) { b with density := b.density + a.density / 8 }) x = access p x := by
      intro x hx
      rw [hac, if_neg (fun e => h3 x (List.mem_cons_of_mem _ hx) c (List.mem_cons_self ..) e.symm)]
    obtain ⟨q, q1, q2, q3⟩ := ih (p := write p (g.parent c) { b with density := b.density + a.density / 8 })
      (fun x hx => by rw [keep x hx]; exact h1 x (List.mem_cons_of_mem _ hx))
      (fun x hx => by
        rw [hac]
        split
        · exact Option.some_ne_none _
        · exact h2 x (List.mem_cons_of_mem _ hx))
      (fun x hx y hy => h3 x (List.mem_cons_of_mem _ hx) y (List.mem_cons_of_mem _ hy))
    refine ⟨q, by unfold Out.fold; rw [hs]; exact q1, Wrote.trans (.write _ _ .refl) q2, fun y => ?_⟩
    have hsum : ((l.filter fun c => g.parent c = y).map fun x =>
        densityOn (write p (g.parent c) { b with density := b.density + a.density / 8 }) x / 8).sum =
        ((l.filter fun c => g.parent c = y).map fun x => densityOn p x / 8).sum := by
      congr 1
      refine List.map_congr_left fun x hx => ?_
      unfold densityOn
      rw [keep x (List.mem_filter.1 hx).1]
    rw [q3, hsum, hac]
    have hda : densityOn p c = a.density := by unfold densityOn; rw [ha]
    by_cases e : y = g.parent c
    · subst e
      rw [if_pos rfl, hb, List.filter_cons_of_pos (by simp), List.map_cons, List.sum_cons, hda]
      simp only [Option.map_some, Rat.add_assoc]
    · rw [if_neg e, List.filter_cons_of_neg (by simpa using fun h => e h.symm)]

theorem Wrote.removed {p q : Proc n D W} (h : Wrote p q) (b : Bool) : getRemovedCells g q b = getRemovedCells g p b := by
  have : ∀ x, (q.unrefinedData x).isSome = (p.unrefinedData x).isSome := by
    induction h with
    | refl => exact fun _ => rfl
    | @write q c v _ ih =>
      intro x
      rw [← ih x]
      unfold Dccrg.write
      split
      · rfl
      · split
        · rfl
        · split
          · rfl
          · split
            · rename_i h
              show (if x = c then some v else q.unrefinedData x).isSome = _
              split
              · rename_i e; subst e; rw [h]; rfl
              · rfl
            · rfl
  unfold getRemovedCells
  simp only [this]

/-- What a process does with densities after `stop_refining`. -/
theorem adaptProc_densities {p : Proc n AdvCell W} {new : List Nat} (hn : new.Nodup)
    (hn1 : ∀ x ∈ new, access p x ≠ none ∧ access p (g.parent x) ≠ none ∧ g.parent x ∉ new)
    (hr : ∀ c ∈ getRemovedCells g p false, access p c ≠ none ∧ access p (g.parent c) ≠ none ∧ c ∉ new ∧ g.parent c ∉ new ∧
      ∀ c' ∈ getRemovedCells g p false, g.parent c' ≠ c) :
    ∃ p1 p2 p3, Out.fold (fillNew g) new p = .ok p1 ∧
      Out.fold emptyParent (dedup ((getRemovedCells g p1 false).map g.parent)) p1 = .ok p2 ∧
      Out.fold (fillParent g) (getRemovedCells g p1 false) p2 = .ok p3 ∧ Wrote p p3 ∧
      ∀ y, access p3 y = (access p y).map fun a =>
        if y ∈ new then { a with density := densityOn p (g.parent y), flux := 0 }
        else if y ∈ (getRemovedCells g p false).map g.parent then
          { a with density := (((getRemovedCells g p false).filter fun c => g.parent c = y).map fun c => densityOn p c / 8).sum, flux := 0 }
        else a := by
  let A : Nat → AdvCell := fun x => (access p x).getD .none
  have hA : ∀ x, access p x ≠ none → access p x = some (A x) := by
    intro x hx
    obtain ⟨a, ha⟩ := Option.ne_none_iff_exists'.1 hx
    show _ = some ((access p x).getD _)
    rw [ha]; rfl
  obtain ⟨p1, a1, a2, a3⟩ := fold_writes (f := fillNew g) (V := fun x => { A x with density := densityOn p (g.parent x), flux := 0 })
    (fun x hx => (hn1 x hx).1) hn (by
      intro x hx q hq
      obtain ⟨h1, h2, h3⟩ := hn1 x hx
      unfold fillNew
      rw [hq x (Or.inr rfl), hA x h1]
      simp only [hq _ (Or.inl h3)]
      unfold densityOn
      rw [hA _ h2])
  have hrem := a2.removed (g := g) false
  have hk1 : ∀ c ∈ getRemovedCells g p false, access p1 c = access p c ∧ access p1 (g.parent c) = access p (g.parent c) := by
    intro c hc
    obtain ⟨-, -, h3, h4, -⟩ := hr c hc
    exact ⟨by rw [a3, if_neg h3], by rw [a3, if_neg h4]⟩
  have hpm : ∀ y, y ∈ dedup ((getRemovedCells g p false).map g.parent) ↔ y ∈ (getRemovedCells g p false).map g.parent :=
    fun y => mem_dedup
  obtain ⟨p2, b1, b2, b3⟩ := fold_writes (p := p1) (f := emptyParent) (T := dedup ((getRemovedCells g p false).map g.parent))
    (V := fun x => { A x with density := 0, flux := 0 }) (by
      intro x hx
      obtain ⟨c, hc, rfl⟩ := List.mem_map.1 ((hpm x).1 hx)
      rw [(hk1 c hc).2]
      exact (hr c hc).2.1) (nodup_dedup _) (by
      intro x hx q hq
      obtain ⟨c, hc, rfl⟩ := List.mem_map.1 ((hpm x).1 hx)
      unfold emptyParent
      rw [hq _ (Or.inr rfl), (hk1 c hc).2, hA _ (hr c hc).2.1])
  have hnp : ∀ c ∈ getRemovedCells g p false, c ∉ dedup ((getRemovedCells g p false).map g.parent) := by
    intro c hc hm
    obtain ⟨c', hc', e⟩ := List.mem_map.1 ((hpm c).1 hm)
    exact (hr c hc).2.2.2.2 c' hc' e
  have hk2 : ∀ c ∈ getRemovedCells g p false, access p2 c = access p c := by
    intro c hc
    rw [b3, if_neg (hnp c hc), (hk1 c hc).1]
  obtain ⟨p3, c1, c2, c3⟩ := fillParent_fold (g := g) (p := p2) (l := getRemovedCells g p false)
    (fun c hc => by rw [hk2 c hc]; exact (hr c hc).1)
    (fun c hc => by
      rw [b3, if_pos ((hpm _).2 (List.mem_map_of_mem hc))]
      exact Option.some_ne_none _)
    (fun c hc c' hc' => (hr c hc).2.2.2.2 c' hc')
  refine ⟨p1, p2, p3, a1, by rw [hrem]; exact b1, by rw [hrem]; exact c1, a2.trans (b2.trans c2), fun y => ?_⟩
  have hsum : ∀ y, (((getRemovedCells g p false).filter fun c => g.parent c = y).map fun c => densityOn p2 c / 8) =
      (((getRemovedCells g p false).filter fun c => g.parent c = y).map fun c => densityOn p c / 8) := by
    intro y
    refine List.map_congr_left fun c hc => ?_
    unfold densityOn
    rw [hk2 c (List.mem_filter.1 hc).1]
  rw [c3, hsum, b3]
  by_cases hy : y ∈ (getRemovedCells g p false).map g.parent
  · obtain ⟨c, hc, e⟩ := List.mem_map.1 hy
    have hyn : y ∉ new := by rw [← e]; exact (hr c hc).2.2.2.1
    have hya : access p y = some (A y) := hA y (by rw [← e]; exact (hr c hc).2.1)
    rw [if_pos ((hpm y).2 hy), hya]
    simp only [Option.map_some, if_neg hyn, if_pos hy, Rat.zero_add]
  · rw [if_neg (fun h => hy ((hpm y).1 h)), a3]
    have hempty : ((getRemovedCells g p false).filter fun c => g.parent c = y) = [] := by
      rw [List.filter_eq_nil_iff]
      intro c hc e
      exact hy (List.mem_map.2 ⟨c, hc, by simpa using e⟩)
    rw [hempty]
    by_cases hyn : y ∈ new
    · rw [if_pos hyn, hA y (hn1 y hyn).1]
      simp [hyn, Rat.add_zero]
    · rw [if_neg hyn]
      cases access p y with
      | none => rfl
      | some a => simp [hyn, hy, Rat.add_zero]

/-! ## States -/

section
variable {s t : Sys n D W} {dflt : D} {maxTag : Nat} {w : Owner n}

/-- Data saved when refining and unrefining can be cleared. -/
theorem Idle.cleared (h : Idle g dflt maxTag s) : Idle g dflt maxTag fun i => clearRefined (s i) := by
  have all : ∀ l : List (Fin n), Idle g dflt maxTag (fun j => if j ∈ l then clearRefined (s j) else s j) := by
    intro l
    induction l with
    | nil => simpa using h
    | cons i l ih =>
      refine ih.step (.clearRefined i) trivial trivial ?_
      show Out.ok (Sys.set _ i _) = _
      congr 1
      funext j
      unfold Sys.set
      by_cases e : j = i
      · subst e
        simp only [if_true, List.mem_cons_self]
        split <;> rfl
      · simp [e]
  have := all (List.finRange n)
  simpa [List.mem_finRange] using this

/-- Requests to refine and unrefine cells succeed, whatever the cells are, and do not change cells. -/
theorem fold_asks {k : Calls} (hw : g.WF) (hn : 0 < n) (hm : g.last ≤ maxTag) {ops : List (Op n D W)}
    (hc : ∀ op ∈ ops, ∃ i c, op = .refine i c ∨ op = .unrefine i c ∨ op = .dontUnrefine i c)
    (h : History g dflt maxTag k s) (hN : ∀ c, ¬ k.dontRefine c) :
    ∃ t k', Out.fold (fun op s => step g dflt maxTag s op) ops s = .ok t ∧ History g dflt maxTag k' t ∧
      (∀ c, ¬ k'.dontRefine c) ∧
      ∀ i, (t i).owner = (s i).owner ∧ (t i).data = (s i).data ∧ (t i).hoods = (s i).hoods := by
  induction ops generalizing s k with
  | nil => exact ⟨s, k, rfl, h, hN, fun i => ⟨rfl, rfl, rfl⟩⟩
  | cons op ops ih =>
    obtain ⟨i, c, hop⟩ := hc op (List.mem_cons_self ..)
    have hq : op.Quiet := by rcases hop with rfl | rfl | rfl <;> trivial
    obtain ⟨w, hi⟩ := h.reachable.inv hw hn
    obtain ⟨s1, h1⟩ := step_ok hw hn dflt hi hm op (by rcases hop with rfl | rfl | rfl <;> trivial)
      (by rcases hop with rfl | rfl | rfl <;> trivial)
    have hd : ∀ j, (s1 j).owner = (s j).owner ∧ (s1 j).data = (s j).data ∧ (s1 j).hoods = (s j).hoods := by
      intro j
      have : ∃ o, s.ask i o = .ok s1 := by rcases hop with rfl | rfl | rfl <;> exact ⟨_, h1⟩
      obtain ⟨o, ho⟩ := this
      obtain ⟨b, r, -, rfl⟩ := ask_inv ho
      unfold Sys.set
      split
      · rename_i e; subst e; exact ⟨rfl, rfl, rfl⟩
      · exact ⟨rfl, rfl, rfl⟩
    obtain ⟨t, k', e1, e2, e3, e4⟩ := ih (fun o ho => hc o (List.mem_cons_of_mem _ ho)) (History.call op h hq h1) (by
      rintro x (e | ⟨j, e, -⟩)
      · exact hN x e
      · rcases hop with rfl | rfl | rfl <;> cases e)
    refine ⟨t, k', by unfold Out.fold; rw [h1]; exact e1, e2, e3, fun j => ?_⟩
    obtain ⟨a, b, c⟩ := e4 j
    obtain ⟨a', b', c'⟩ := hd j
    exact ⟨a.trans a', b.trans b', c.trans c'⟩

/-- Siblings of an unrefined cell were also unrefined. -/
theorem Reachable.coarser_family {sorted : Bool} {res : Fin n → Proc n D W × List Nat} (hw : g.WF)
    (h : Reachable g dflt maxTag s) (hr : stopRefining g dflt maxTag sorted s = .ok res) (j : Fin n) {c : Nat}
    (hc : exist (s j).owner c = true) (hC : Coarser g (exist (res j).1.owner) c) :
    0 < g.lvl c ∧ ∀ x ∈ g.children (g.parent c), exist (s j).owner x = true := by
  obtain ⟨w, R, U, hi, hp, hx, h1, h2, -⟩ := h.stopped hw hr j
  rw [hi.sys.owner] at hc ⊢
  obtain ⟨v, hv, hcv⟩ := (h2 j c hc).1 hC
  obtain ⟨e1, e2, e3⟩ := hp.unE v hv
  obtain ⟨p1, p2, p3⟩ := hp.parent hw hi.sys.tiled hv
  obtain ⟨c1, c2, c3⟩ := (children_spec hw p1 p2).1 hcv
  refine ⟨by omega, fun x hx => ?_⟩
  rw [c3] at hx
  exact (e3 x hx).1
end

/-! ## The field -/

variable {s t : Sys n AdvCell W} {maxTag : Nat} {dflt : AdvCell} {w : Owner n}

/-- Data after the grid has been adapted so that cells `E` exist, with one process for everything: cells that existed keep
their density, new cells get the density of their parent or the average of their children. -/
def adaptedTo (g : Cfg) (len vel : Nat → V3 Rat) (E : Nat → Bool) (u : Nat → Option AdvCell) (c : Nat) : Option AdvCell :=
  if E c then
    match u c with
    | some a => some { a with len := len c, v := vel c }
    | none =>
      match u (g.parent c) with
      | some b => some ⟨b.density, 0, len c, vel c⟩
      | none => some ⟨((g.children c).map fun x => ((u x).getD .none).density / 8).sum, 0, len c, vel c⟩
  else none

theorem fold_map {α β γ : Type} (f : β → γ → Out γ) (h : α → β) (l : List α) (x : γ) :
    Out.fold (fun a => f (h a)) l x = Out.fold f (l.map h) x := by
  induction l generalizing x with
  | nil => rfl
  | cons a l ih =>
    rw [List.map_cons]
    unfold Out.fold
    cases f (h a) x <;> simp [ih]

/-- A loop over local cells. -/
theorem fold_local {s : Sys n D W} {dflt : D} (hw : g.WF) (h : Reachable g dflt maxTag s) (i : Fin n) {id : Int}
    {f : Nat → Proc n D W → Out (Proc n D W)} {V : Nat → D → D}
    (hf : ∀ c q a, access q c = some a → f c q = .ok (write q c (V c a))) (hH : (hoodFor g (s i) id).isSome = true) :
    ∃ k q, updatePointers g i (s i) id = .ok k ∧
      Out.fold (fun x => f x.id) (range k.cells k.loc) (s i) = .ok q ∧ Wrote (s i) q ∧
      ∀ x, (s i).owner x = some i → access q x = (access (s i) x).map (V x) := by
  obtain ⟨k, e1, -, -, e2, -, -, e7⟩ := C38_ranges (id := id) hw h i hH
  have hs : ∀ x ∈ (range k.cells k.loc).map (·.id), access (s i) x ≠ none := by
    intro x hx
    obtain ⟨y, hy, rfl⟩ := List.mem_map.1 hx
    have := (e7 y ((pointers_in_all e1 y).2.2 hy)).2.1
    intro e
    rw [e] at this
    cases this
  obtain ⟨q, a1, a2, a3⟩ := fold_writes (p := s i) (f := f) (T := (range k.cells k.loc).map (·.id))
    (V := fun x => V x ((access (s i) x).getD dflt)) hs e2.1 (by
      intro x hx q hq
      obtain ⟨a, ha⟩ := Option.ne_none_iff_exists'.1 (hs x hx)
      rw [hf x q a (by rw [hq x (Or.inr rfl), ha]), ha]
      rfl)
  refine ⟨k, q, e1, by rw [fold_map f (fun x : CellItem => x.id)]; exact a1, a2, fun x hx => ?_⟩
  have hm := (e2.2 x).2 hx
  obtain ⟨a, ha⟩ := Option.ne_none_iff_exists'.1 (hs x hm)
  rw [a3, if_pos hm, ha]
  rfl

/-- The last loop. -/
theorem setShape_all (hw : g.WF) (h : Reachable g dflt maxTag s) (i : Fin n) {id : Int} (len vel : Nat → V3 Rat)
    (hH : (hoodFor g (s i) id).isSome = true) :
    ∃ k q, updatePointers g i (s i) id = .ok k ∧
      Out.fold (fun x => setShape len vel x.id) (range k.cells k.loc) (s i) = .ok q ∧ Wrote (s i) q ∧
      ∀ x, (s i).owner x = some i → access q x = (access (s i) x).map fun a => { a with len := len x, v := vel x } :=
  fold_local hw h i (fun c q a ha => by unfold setShape; rw [ha]) hH

/-- Initial state of the simulation. -/
theorem startAdvection_holds (hw : g.WF) (hn : 0 < n) (hm : g.last ≤ maxTag) (h : Idle g dflt maxTag s) (density : Nat → Rat)
    (len vel : Nat → V3 Rat) :
    ∃ t, startAdvection g dflt maxTag density len vel s = .ok t ∧ Idle g dflt maxTag t ∧
      (∀ i, (t i).owner = (s i).owner ∧ (t i).hoods = (s i).hoods) ∧
      (∀ i, Holds t fun c => if exist (s i).owner c then some ⟨density c, 0, len c, vel c⟩ else none) ∧
      ∃ s2, Reachable g dflt maxTag s2 ∧ step g dflt maxTag s2 (.update defaultId) = .ok t := by
  have z : Fin n := ⟨0, hn⟩
  have hl := fun i => fold_local (f := startCell density len vel) (V := fun c _ => ⟨density c, 0, len c, vel c⟩) (id := defaultId)
    hw h.reachable i (fun c q a ha => by unfold startCell; rw [ha]) (by rw [hoodFor, if_pos rfl]; rfl)
  have hchoice : ∃ r : Sys n AdvCell W, ∀ i, ∃ k, updatePointers g i (s i) defaultId = .ok k ∧
      Out.fold (fun x => startCell density len vel x.id) (range k.cells k.loc) (s i) = .ok (r i) ∧ Wrote (s i) (r i) ∧
      ∀ x, (s i).owner x = some i → access (r i) x = (access (s i) x).map fun _ => ⟨density x, 0, len x, vel x⟩ :=
    ⟨fun i => (hl i).choose_spec.choose, fun i => ⟨_, (hl i).choose_spec.choose_spec⟩⟩
  obtain ⟨r, hr⟩ := hchoice
  have hW : ∀ i, Wrote (s i) (r i) := fun i => by
    obtain ⟨_, -, -, h, -⟩ := hr i
    exact h
  have hI := h.wrote hW
  obtain ⟨w, hi⟩ := h.reachable.inv hw hn
  obtain ⟨v, hv⟩ := hI.reachable.inv hw hn
  have : v = w := by rw [← hv.sys.owner z, (hW z).same.1, hi.sys.owner]
  subst this
  obtain ⟨t, ht⟩ := step_ok hw hn dflt hv hm (.update defaultId) trivial (fun i => by rw [hoodFor, if_pos rfl]; rfl)
  have hI2 := hI.step (.update defaultId) trivial trivial ht
  have hts : ∀ i, (t i).owner = (s i).owner ∧ (t i).data = (r i).data ∧ (t i).hoods = (s i).hoods := by
    intro i
    obtain ⟨x, hx, e⟩ := Out.bind_inv ht
    injection e with e
    subst e
    have := (C33_rest hw hI.reachable hx i).1
    show (x i).2.owner = _ ∧ (x i).2.data = _ ∧ (x i).2.hoods = _
    rw [this]
    exact ⟨(hW i).same.1, rfl, (hW i).same.2.1⟩
  obtain ⟨v2, hi2⟩ := hI2.reachable.inv hw hn
  have : v2 = v := by rw [← hi2.sys.owner z, (hts z).1, hi.sys.owner]
  subst this
  refine ⟨t, ?_, hI2, fun i => ⟨(hts i).1, (hts i).2.2⟩, fun j => hi2.holds_of (fun i x e => ?_) (fun x e => ?_),
    r, hI.reachable, ht⟩
  · unfold startAdvection
    have : (Out.collect fun i => (updatePointers g i (s i) defaultId).bind fun k =>
        Out.fold (fun x => startCell density len vel x.id) (range k.cells k.loc) (s i)) = .ok r := by
      refine Out.collect_ok fun i => ?_
      obtain ⟨k, e1, e2, -⟩ := hr i
      rw [e1, Out.bind_ok, e2]
    rw [this, Out.bind_ok, ht]
  · rw [(hts i).2.1, ← (hv.access_own e).1]
    obtain ⟨k, -, -, -, e4⟩ := hr i
    rw [e4 x (by rw [hi.sys.owner]; exact e), hi.sys.owner, if_pos (exist_of e), (hi.access_own e).1]
    obtain ⟨a, ha⟩ := Option.ne_none_iff_exists'.1 (hi.access_own e).2
    rw [ha]; rfl
  · rw [hi.sys.owner, if_neg (by unfold exist; rw [e]; simp)]

/-- How existing cells change from `E` to `E'` when the grid is adapted. -/
structure Adapted (g : Cfg) (E E' : Nat → Bool) : Prop where
  after : ∀ x, E' x = true ↔ (E x = true ∧ ¬ Finer g E' x ∧ ¬ Coarser g E' x) ∨
    (∃ c, E c = true ∧ Finer g E' c ∧ x ∈ g.children c) ∨ ∃ c, E c = true ∧ Coarser g E' c ∧ x = g.parent c
  family : ∀ c, E c = true → Coarser g E' c → 0 < g.lvl c ∧ ∀ x ∈ g.children (g.parent c), E x = true
  old : Tiled g E
  new : Tiled g E'

section
variable {E E' : Nat → Bool}

theorem Adapted.finer_lvl (h : Adapted g E E') {c : Nat} (hf : Finer g E' c) : g.lvl c < g.maxLvl := by
  obtain ⟨y, p, y1, -, -, y2⟩ := hf
  have := lvl_le (h.new.valid y y1)
  omega

/-- A kept cell. -/
theorem Adapted.same (h : Adapted g E E') {x : Nat} (h1 : E x = true) (h2 : E' x = true) : ¬ Finer g E' x ∧ ¬ Coarser g E' x := by
  constructor
  · rintro ⟨k, p, k1, k2, k3, k4⟩
    have := h.new.unique _ _ _ k1 h2 k2 k3
    subst this; omega
  · rintro ⟨k, p, k1, k2, k3, k4⟩
    have := h.new.unique _ _ _ k1 h2 k2 k3
    subst this; omega

/-- A new child. -/
theorem Adapted.child (hw : g.WF) (h : Adapted g E E') {c x : Nat} (hc : E c = true) (hf : Finer g E' c) (hx : x ∈ g.children c) :
    E x = false ∧ g.parent x = c ∧ g.Valid x ∧ g.lvl x = g.lvl c + 1 ∧ E' x = true ∧ E' c = false := by
  obtain ⟨m1, m2, m3⟩ := (children_spec hw (h.old.valid c hc) (h.finer_lvl hf)).1 hx
  refine ⟨?_, m3, m1, m2, (h.after x).2 (Or.inr (Or.inl ⟨c, hc, hf, hx⟩)), ?_⟩
  · cases e : E x with
    | false => rfl
    | true =>
      have := h.old.unique _ _ _ e hc (mem_self x) (m3 ▸ mem_parent hw m1 (mem_self x))
      subst this; omega
  · cases e : E' c with
    | false => rfl
    | true => exact absurd hf (h.same hc e).1

/-- A new parent. -/
theorem Adapted.par (hw : g.WF) (h : Adapted g E E') {c : Nat} (hc : E c = true) (hf : Coarser g E' c) :
    E (g.parent c) = false ∧ E (g.parent (g.parent c)) = false ∧ E' (g.parent c) = true ∧
    ∀ x ∈ g.children (g.parent c), E x = true ∧ E' x = false ∧ g.parent x = g.parent c ∧ Coarser g E' x := by
  obtain ⟨f1, f2⟩ := h.family c hc hf
  have hv := h.old.valid c hc
  have hpv := parent_valid hw hv
  have hpl := lvl_parent hw hv
  have hp : E' (g.parent c) = true := (h.after _).2 (Or.inr (Or.inr ⟨c, hc, hf, rfl⟩))
  have hm := mem_parent hw hv (mem_self c)
  refine ⟨?_, ?_, hp, fun x hx => ?_⟩
  · cases e : E (g.parent c) with
    | false => rfl
    | true =>
      have := h.old.unique _ _ _ e hc hm (mem_self c)
      rw [this] at hpl; omega
  · cases e : E (g.parent (g.parent c)) with
    | false => rfl
    | true =>
      have := h.old.unique _ _ _ e hc (mem_parent hw hpv hm) (mem_self c)
      have h2 := lvl_parent hw hpv
      rw [this] at h2; omega
  · obtain ⟨x1, x2, x3⟩ := (children_spec hw hpv (lvl_parent_lt hw hv f1)).1 hx
    have hxm := mem_parent hw x1 (mem_self x)
    rw [x3] at hxm
    refine ⟨f2 x hx, ?_, x3, ⟨g.parent c, g.idx x, hp, hxm, mem_self x, by omega⟩⟩
    cases e : E' x with
    | false => rfl
    | true =>
      have := h.new.unique _ _ _ e hp (mem_self x) hxm
      rw [this] at x2; omega
end

/-- Adapting succeeds and gives the same data as one process would get. -/
theorem adaptGrid_holds (hw : g.WF) (hn : 0 < n) (hm : g.last ≤ maxTag) (h : Idle g dflt maxTag s)
    {u : Nat → Option AdvCell} (hu : Holds s u) (h0 : g.maxLvl ≠ 0) {id : Int}
    (hH : ∀ i, (hoodFor g (s i) id).isSome = true) (len vel : Nat → V3 Rat) (refine keep unrefine : Fin n → List Nat) :
    ∃ t, adaptGrid g dflt maxTag len vel id refine keep unrefine s = .ok t ∧ Idle g dflt maxTag t ∧
      (∀ i, (t i).hoods = (s i).hoods) ∧
      ∃ E', (∀ i, exist (t i).owner = E') ∧ (∀ i, Adapted g (exist (s i).owner) E') ∧ Holds t (adaptedTo g len vel E' u) ∧
        ∃ s1 res, Out.fold (fun op s => step g dflt maxTag s op) ((List.finRange n).flatMap (adaptAsks refine keep unrefine)) s = .ok s1 ∧
          stopRefining g dflt maxTag false s1 = .ok res ∧ (∀ i, (res i).1.owner = (t i).owner ∧ (s1 i).owner = (s i).owner) ∧
          Reachable g dflt maxTag s1 ∧ ∃ s2, Reachable g dflt maxTag s2 ∧ step g dflt maxTag s2 (.update defaultId) = .ok t := by
  obtain ⟨w, hi⟩ := h.reachable.inv hw hn
  obtain ⟨k, hk, hk0⟩ := h
  have z : Fin n := ⟨0, hn⟩
  -- requests
  obtain ⟨s1, k', a1, a2, a3, a4⟩ := fold_asks hw hn hm (ops := (List.finRange n).flatMap (adaptAsks refine keep unrefine))
    (by
      intro op hop
      obtain ⟨i, -, hop⟩ := List.mem_flatMap.1 hop
      unfold adaptAsks at hop
      rw [List.mem_append, List.mem_append] at hop
      rcases hop with (hop | hop) | hop
      · obtain ⟨c, -, rfl⟩ := List.mem_map.1 hop; exact ⟨i, c, Or.inl rfl⟩
      · obtain ⟨c, -, rfl⟩ := List.mem_map.1 hop; exact ⟨i, c, Or.inr (Or.inr rfl)⟩
      · obtain ⟨c, -, rfl⟩ := List.mem_map.1 hop; exact ⟨i, c, Or.inr (Or.inl rfl)⟩) hk (fun c => (hk0 c).2.2.1)
  have hr1 := a2.reachable
  have o1 : ∀ i, (s1 i).owner = w := fun i => by rw [(a4 i).1, hi.sys.owner]
  obtain ⟨w1, hi1⟩ := hr1.inv hw hn
  have : w1 = w := by rw [← hi1.sys.owner z, o1]
  subst this
  -- stop_refining
  obtain ⟨s2, hstop⟩ := step_ok hw hn dflt hi1 hm (.stop false) trivial trivial
  obtain ⟨res, hres, e⟩ := Out.bind_inv hstop
  injection e with e
  subst e
  have hI2 : Idle g dflt maxTag fun i => (res i).1 :=
    ⟨_, .stop false a2 hstop, fun c => ⟨fun h => h, fun h => h, fun ⟨_, e⟩ => Veto.none a3 e, fun h => h⟩⟩
  obtain ⟨v, hv⟩ := hI2.reachable.inv hw hn
  have hvo : ∀ i, (res i).1.owner = v := hv.sys.owner
  have hA : Adapted g (exist w1) (exist v) := by
    refine ⟨fun x => ?_, fun c hc hC => ?_, hi.sys.tiled, hv.sys.tiled⟩
    · have := a2.exist_after hw hres z x
      rw [hvo, o1] at this
      exact this
    · have := hr1.coarser_family hw hres z (by rw [o1]; exact hc) (by rw [hvo]; exact hC)
      rw [o1] at this
      exact this
  have hnew : ∀ i x, x ∈ (res i).2 ↔ v x = some i ∧
      ∃ c, exist w1 c = true ∧ Finer g (exist v) c ∧ x ∈ g.children c := by
    intro i x
    have := (C27_new_cells hw hr1 hres i).2.2 x
    rw [hvo, o1] at this
    exact this
  have hrem : ∀ i c, c ∈ getRemovedCells g (res i).1 false ↔ exist w1 c = true ∧ exist v c = false ∧
      v (g.parent c) = some i := by
    intro i c
    have := (C69_removed_cells hw hr1 hres i false).2.2 c
    rw [hvo, o1] at this
    exact this
  have hcoar : ∀ i c, c ∈ getRemovedCells g (res i).1 false → exist w1 c = true ∧ Coarser g (exist v) c ∧
      v (g.parent c) = some i := by
    intro i c hc
    obtain ⟨e1, e2, e3⟩ := (hrem i c).1 hc
    have hcv := hi.sys.tiled.valid c e1
    refine ⟨e1, ⟨g.parent c, g.idx c, exist_of e3, mem_parent hw hcv (mem_self c), mem_self c, ?_⟩, e3⟩
    have := lvl_parent hw hcv
    by_cases h0 : g.lvl c = 0
    · unfold Cfg.parent at e3
      rw [if_pos h0] at e3
      rw [exist_of e3] at e2
      cases e2
    · omega
  have hu1 : ∀ i c, w1 c = some i → (s1 i).data c = u c := by
    intro i c e
    rw [(a4 i).2.1]
    exact ((hu i c).1 i (by rw [hi.sys.owner]; exact e)).2
  have hun : ∀ c, exist w1 c = false → u c = none := by
    intro c e
    have := (hu z c).2
    rw [hi.sys.owner, e] at this
    simpa using this
  have hus : ∀ c, exist w1 c = true → ∃ a, u c = some a := by
    intro c e
    exact Option.ne_none_iff_exists'.1 (((hu z c).2).1 (by rw [hi.sys.owner]; exact e))
  have own : ∀ i x, v x = some i → access (res i).1 x ≠ none := by
    intro i x e
    rw [(hv.access_own e).1]; exact (hv.access_own e).2
  -- saved data
  have accF : ∀ i x, x ∈ (res i).2 → access (res i).1 (g.parent x) = u (g.parent x) ∧ exist w1 (g.parent x) = true := by
    intro i x hx
    obtain ⟨e, c, c1, hf, c3⟩ := (hnew i x).1 hx
    obtain ⟨-, hpx, -⟩ := hA.child hw c1 hf c3
    rw [hpx]
    have hf' : Finer g (exist (res i).1.owner) c := by rw [hvo]; exact hf
    have ho := (C27_owners hw hr1 hres i (by rw [o1]; exact c1)).1 hf' x c3
    rw [hvo, e] at ho
    obtain ⟨q1, -⟩ := C28_data (j := i) hw hr1 hres ho.symm
    rw [o1] at ho
    exact ⟨by rw [q1 hf', hu1 i c ho.symm], c1⟩
  have accC : ∀ i c, c ∈ getRemovedCells g (res i).1 false → access (res i).1 c = u c := by
    intro i c hc
    obtain ⟨c1, c2, c3⟩ := hcoar i c hc
    obtain ⟨j, hj⟩ := Option.isSome_iff_exists.1 c1
    obtain ⟨-, q2, -⟩ := C28_data (i := j) (j := i) hw hr1 hres (by rw [o1]; exact hj)
    rw [q2 (by rw [hvo]; exact c2) (by rw [hvo]; exact c3), hu1 j c hj]
  have accS : ∀ i x, v x = some i → exist w1 x = true → access (res i).1 x = u x := by
    intro i x e hx
    obtain ⟨n1, n2⟩ := hA.same hx (exist_of e)
    have n1' : ¬ Finer g (exist (res i).1.owner) x := by rw [hvo]; exact n1
    have n2' : ¬ Coarser g (exist (res i).1.owner) x := by rw [hvo]; exact n2
    have ho := (C27_owners hw hr1 hres i (by rw [o1]; exact hx)).2.2 n1' n2'
    rw [hvo, e] at ho
    obtain ⟨-, -, q3, -⟩ := C28_data (j := i) hw hr1 hres ho.symm
    rw [o1] at ho
    rw [q3 n1' n2', hu1 i x ho.symm]
  -- densities
  have hproc := fun i => adaptProc_densities (g := g) (p := (res i).1) (new := (res i).2) (C27_new_cells hw hr1 hres i).1 (by
      intro x hx
      obtain ⟨e1, e2⟩ := accF i x hx
      obtain ⟨b, hb⟩ := hus _ e2
      refine ⟨own i x ((hnew i x).1 hx).1, by rw [e1, hb]; exact Option.some_ne_none b, fun hy => ?_⟩
      obtain ⟨-, c, c1, hf, c3⟩ := (hnew i _).1 hy
      rw [(hA.child hw c1 hf c3).1] at e2
      cases e2) (by
      intro c hc
      obtain ⟨c1, c2, c3⟩ := hcoar i c hc
      obtain ⟨a, ha⟩ := hus c c1
      obtain ⟨p1, p2, p3, p4⟩ := hA.par hw c1 c2
      refine ⟨by rw [accC i c hc, ha]; exact Option.some_ne_none a, own i _ c3, fun hx => ?_, fun hx => ?_, fun c' hc' e => ?_⟩
      · obtain ⟨-, b, b1, hf, b3⟩ := (hnew i _).1 hx
        rw [(hA.child hw b1 hf b3).1] at c1
        cases c1
      · rw [(accF i _ hx).2] at p2
        cases p2
      · obtain ⟨d1, d2, -⟩ := hcoar i c' hc'
        have := (hA.par hw d1 d2).1
        rw [e, c1] at this
        cases this)
  have hchoice : ∃ q : Sys n AdvCell W, ∀ i, ∃ p1 p2, Out.fold (fillNew g) (res i).2 (res i).1 = .ok p1 ∧
      Out.fold emptyParent (dedup ((getRemovedCells g p1 false).map g.parent)) p1 = .ok p2 ∧
      Out.fold (fillParent g) (getRemovedCells g p1 false) p2 = .ok (q i) ∧ Wrote (res i).1 (q i) ∧
      ∀ y, access (q i) y = (access (res i).1 y).map fun a =>
        if y ∈ (res i).2 then { a with density := densityOn (res i).1 (g.parent y), flux := 0 }
        else if y ∈ (getRemovedCells g (res i).1 false).map g.parent then
          { a with density := (((getRemovedCells g (res i).1 false).filter fun c => g.parent c = y).map fun c => densityOn (res i).1 c / 8).sum, flux := 0 }
        else a := by
    refine ⟨fun i => (hproc i).choose_spec.choose_spec.choose, fun i => ?_⟩
    exact ⟨_, _, (hproc i).choose_spec.choose_spec.choose_spec⟩
  obtain ⟨q, hq⟩ := hchoice
  have hI3 : Idle g dflt maxTag q := hI2.wrote fun i => by
    obtain ⟨_, _, -, -, -, h, -⟩ := hq i
    exact h
  have hqs : ∀ i, (q i).owner = v ∧ (q i).hoods = (s i).hoods := by
    intro i
    obtain ⟨_, _, -, -, -, h, -⟩ := hq i
    refine ⟨h.same.1.trans (hvo i), ?_⟩
    rw [h.same.2.1]
    exact (stop_hoods hw hi1 hstop i).trans (a4 i).2.2
  have hI4 := hI3.cleared
  obtain ⟨v4, hi4⟩ := hI4.reachable.inv hw hn
  have : v4 = v := by rw [← hi4.sys.owner z]; exact (hqs z).1
  subst this
  have hacc4 : ∀ i x, v4 x = some i → access (clearRefined (q i)) x = access (q i) x := by
    intro i x e
    have hd : ((q i).data x).isSome = true := (hi4.sys.placed i x).2 e
    unfold access clearRefined
    cases hx : (q i).data x with
    | none => rw [hx] at hd; cases hd
    | some d => simp
  have hshape := fun i => setShape_all (id := id) hw hI4.reachable i len vel (by
    have e : hoodFor g (clearRefined (q i)) id = hoodFor g (s i) id := by
      unfold hoodFor
      show (if _ then _ else (q i).hoods.lookup id) = _
      rw [(hqs i).2]
    rw [e]; exact hH i)
  have hchoice : ∃ r : Sys n AdvCell W, ∀ i, ∃ k, updatePointers g i (clearRefined (q i)) id = .ok k ∧
      Out.fold (fun x => setShape len vel x.id) (range k.cells k.loc) (clearRefined (q i)) = .ok (r i) ∧
      Wrote (clearRefined (q i)) (r i) ∧
      ∀ x, (clearRefined (q i)).owner x = some i →
        access (r i) x = (access (clearRefined (q i)) x).map fun a => { a with len := len x, v := vel x } := by
    refine ⟨fun i => (hshape i).choose_spec.choose, fun i => ?_⟩
    exact ⟨_, (hshape i).choose_spec.choose_spec⟩
  obtain ⟨r, hr⟩ := hchoice
  have hI5 : Idle g dflt maxTag r := hI4.wrote fun i => by
    obtain ⟨_, -, -, h, -⟩ := hr i
    exact h
  have hrs : ∀ i, (r i).owner = v4 ∧ (r i).hoods = (s i).hoods := by
    intro i
    obtain ⟨_, -, -, h, -⟩ := hr i
    exact ⟨h.same.1.trans (hqs i).1, h.same.2.1.trans (hqs i).2⟩
  obtain ⟨v5, hi5⟩ := hI5.reachable.inv hw hn
  have : v5 = v4 := by rw [← hi5.sys.owner z]; exact (hrs z).1
  subst this
  have hcol : (Out.collect fun i => adaptProc g len vel id i (res i).1 (res i).2) = .ok r := by
    refine Out.collect_ok fun i => ?_
    obtain ⟨p1, p2, b1, b2, b3, -⟩ := hq i
    obtain ⟨k, c1, c2, -⟩ := hr i
    unfold adaptProc
    rw [b1, Out.bind_ok]
    show (Out.fold emptyParent _ p1).bind _ = _
    rw [b2, Out.bind_ok, b3, Out.bind_ok, c1, Out.bind_ok, c2]
  -- update
  obtain ⟨t, ht⟩ := step_ok hw hn dflt hi5 hm (.update defaultId) trivial (fun i => by rw [hoodFor, if_pos rfl]; rfl)
  have hI6 := hI5.step (.update defaultId) trivial trivial ht
  have hts : ∀ i, (t i).owner = v5 ∧ (t i).data = (r i).data ∧ (t i).hoods = (s i).hoods := by
    intro i
    obtain ⟨x, hx, e⟩ := Out.bind_inv ht
    injection e with e
    subst e
    have := (C33_rest hw hI5.reachable hx i).1
    show (x i).2.owner = _ ∧ (x i).2.data = _ ∧ (x i).2.hoods = _
    rw [this]
    exact ⟨(hrs i).1, rfl, (hrs i).2⟩
  obtain ⟨v6, hi6⟩ := hI6.reachable.inv hw hn
  have : v6 = v5 := by rw [← hi6.sys.owner z]; exact (hts z).1
  subst this
  refine ⟨t, ?_, hI6, fun i => (hts i).2.2, exist v6, fun i => by rw [(hts i).1], fun i => by rw [hi.sys.owner]; exact hA, ?_,
    s1, res, a1, hres, fun i => ⟨by rw [hvo, (hts i).1], (a4 i).1⟩, hr1, r, hI5.reachable, ht⟩
  · unfold adaptGrid
    rw [if_neg h0, a1, Out.bind_ok, hres, Out.bind_ok, hcol, Out.bind_ok, ht]
  refine hi6.holds_of (fun i x e => ?_) (fun x e => ?_)
  · rw [(hts i).2.1, ← (hi5.access_own e).1]
    obtain ⟨k, -, -, -, c4⟩ := hr i
    obtain ⟨p1, p2, -, -, -, -, b5⟩ := hq i
    rw [c4 x (by show (q i).owner x = _; rw [(hqs i).1]; exact e), hacc4 i x e, b5 x]
    obtain ⟨a, ha⟩ := Option.ne_none_iff_exists'.1 (own i x e)
    unfold adaptedTo
    rw [if_pos (exist_of e), ha]
    by_cases hx1 : x ∈ (res i).2
    · obtain ⟨-, c, c1, hf, c3⟩ := (hnew i x).1 hx1
      obtain ⟨d1, d2, -⟩ := hA.child hw c1 hf c3
      obtain ⟨f1, f2⟩ := accF i x hx1
      obtain ⟨b, hb⟩ := hus _ f2
      simp only [Option.map_some, if_pos hx1, hun x d1, hb]
      unfold densityOn
      rw [f1, hb]
    · by_cases hx2 : x ∈ (getRemovedCells g (res i).1 false).map g.parent
      · obtain ⟨c, hc, rfl⟩ := List.mem_map.1 hx2
        obtain ⟨c1, c2, c3⟩ := hcoar i c hc
        obtain ⟨d1, d2, -, d4⟩ := hA.par hw c1 c2
        obtain ⟨e1, -⟩ := hA.family c c1 c2
        have hcv := hi.sys.tiled.valid c c1
        simp only [Option.map_some, if_neg hx1, if_pos hx2, hun _ d1, hun _ d2]
        have hsum : (((getRemovedCells g (res i).1 false).filter fun y => g.parent y = g.parent c).map fun y =>
            densityOn (res i).1 y / 8).sum = ((g.children (g.parent c)).map fun y => ((u y).getD .none).density / 8).sum := by
          have e2 : (((getRemovedCells g (res i).1 false).filter fun y => g.parent y = g.parent c).map fun y =>
              densityOn (res i).1 y / 8) = (((getRemovedCells g (res i).1 false).filter fun y => g.parent y = g.parent c).map fun y =>
              ((u y).getD .none).density / 8) := by
            refine List.map_congr_left fun y hy => ?_
            have hy := (List.mem_filter.1 hy).1
            obtain ⟨b, hb⟩ := hus y (hcoar i y hy).1
            unfold densityOn
            rw [accC i y hy, hb]
            rfl
          rw [e2]
          refine sum_perm (List.Perm.map _ ((List.perm_ext_iff_of_nodup
            (List.Pairwise.filter _ (C69_removed_cells hw hr1 hres i false).1)
            (children_nodup hw (parent_valid hw hcv) (lvl_parent_lt hw hcv e1))).2 fun y => ?_))
          rw [List.mem_filter]
          constructor
          · rintro ⟨y1, y2⟩
            have y2 : g.parent y = g.parent c := by simpa using y2
            obtain ⟨z1, z2, -⟩ := hcoar i y y1
            rw [← y2]
            exact mem_children_parent hw (hi.sys.tiled.valid y z1) (hA.family y z1 z2).1
          · intro hy
            obtain ⟨y1, y2, y3, -⟩ := d4 y hy
            exact ⟨(hrem i y).2 ⟨y1, y2, by rw [y3]; exact e⟩, by simpa using y3⟩
        rw [hsum]
      · have hx : exist w1 x = true := by
          rcases (hA.after x).1 (exist_of e) with h | ⟨c, c1, hf, c3⟩ | ⟨c, c1, hf, rfl⟩
          · exact h.1
          · exact absurd ((hnew i x).2 ⟨e, c, c1, hf, c3⟩) hx1
          · have hk := hA.par hw c1 hf
            have hl := (hA.family c c1 hf).1
            have hcc := hk.2.2.2 c (mem_children_parent hw (hi.sys.tiled.valid c c1) hl)
            exact absurd (List.mem_map.2 ⟨c, (hrem i c).2 ⟨c1, hcc.2.1, e⟩, rfl⟩) hx2
        have := accS i x e hx
        rw [ha] at this
        simp only [Option.map_some, if_neg hx1, if_neg hx2, ← this]
  · unfold adaptedTo
    rw [if_neg (by unfold exist; rw [e]; simp)]

/-! ## Amounts -/

/-- Lengths of cells: those of children are half of those of their parent. -/
structure Shapes (g : Cfg) (len : Nat → V3 Rat) : Prop where
  halves : ∀ c, g.Valid c → g.lvl c < g.maxLvl → ∀ x ∈ g.children c, ∀ d, len x d = len c d / 2
  pos : ∀ c, g.Valid c → ∀ d, 0 < len c d

/-- Volume of a cell. -/
def volumeOf (len : Nat → V3 Rat) (c : Nat) : Rat := len c 0 * len c 1 * len c 2

theorem Shapes.volume {len : Nat → V3 Rat} (h : Shapes g len) {c x : Nat} (hc : g.Valid c) (hl : g.lvl c < g.maxLvl)
    (hx : x ∈ g.children c) : volumeOf len x = volumeOf len c / 8 := by
  unfold volumeOf
  rw [h.halves c hc hl x hx, h.halves c hc hl x hx, h.halves c hc hl x hx]
  grind

theorem Shapes.volume_ne {len : Nat → V3 Rat} (h : Shapes g len) {c : Nat} (hc : g.Valid c) : volumeOf len c ≠ 0 := by
  have h0 := h.pos c hc
  unfold volumeOf
  have := Rat.mul_pos (Rat.mul_pos (h0 0) (h0 1)) (h0 2)
  grind

theorem sum_map_const {α : Type} (l : List α) (k : Rat) : (l.map fun _ => k).sum = (l.length : Rat) * k := by
  induction l with
  | nil => simp [Rat.zero_mul]
  | cons a l ih =>
    rw [List.map_cons, List.sum_cons, ih, List.length_cons]
    push_cast
    grind

theorem sum_map_mul {α : Type} (f : α → Rat) (l : List α) (k : Rat) : (l.map fun x => f x * k).sum = (l.map f).sum * k := by
  induction l with
  | nil => simp [Rat.zero_mul]
  | cons a l ih => rw [List.map_cons, List.sum_cons, ih, List.map_cons, List.sum_cons, Rat.add_mul]

/-- The amount is the same in old and new cells. -/
theorem mass_adapted {E E' : Nat → Bool} (hw : g.WF) (hA : Adapted g E E') {len vel : Nat → V3 Rat} (hS : Shapes g len)
    {u : Nat → Option AdvCell} (hu : ∀ c, E c = true ↔ u c ≠ none) (hl : ∀ c a, u c = some a → a.len = len c)
    {L L' : List Nat} (hL : L.Nodup ∧ ∀ c, c ∈ L ↔ E c = true) (hL' : L'.Nodup ∧ ∀ c, c ∈ L' ↔ E' c = true) :
    (L'.map fun c => AdvCell.mass (adaptedTo g len vel E' u c)).sum = (L.map fun c => AdvCell.mass (u c)).sum := by
  classical
  let K := L.filter fun c => E' c
  let R := L.filter fun c => decide (Finer g E' c)
  let P := L'.filter fun x => decide (∃ c, E c = true ∧ Coarser g E' c ∧ x = g.parent c)
  have mK : ∀ x, x ∈ K ↔ E x = true ∧ E' x = true := fun x => by rw [List.mem_filter, hL.2]
  have mR : ∀ x, x ∈ R ↔ E x = true ∧ Finer g E' x := fun x => by rw [List.mem_filter, hL.2, decide_eq_true_iff]
  have mP : ∀ x, x ∈ P ↔ ∃ c, E c = true ∧ Coarser g E' c ∧ x = g.parent c := fun x => by
    rw [List.mem_filter, hL'.2, decide_eq_true_iff]
    constructor
    · exact fun h => h.2
    · rintro ⟨c, c1, c2, rfl⟩
      exact ⟨(hA.par hw c1 c2).2.2.1, c, c1, c2, rfl⟩
  have pv : ∀ c, E c = true → Coarser g E' c → g.Valid (g.parent c) ∧ g.lvl (g.parent c) < g.maxLvl := by
    intro c c1 c2
    have hv := hA.old.valid c c1
    exact ⟨parent_valid hw hv, lvl_parent_lt hw hv (hA.family c c1 c2).1⟩
  have hnone : ∀ c, E c = false → u c = none := by
    intro c e
    have := hu c
    rw [e] at this
    simpa using this
  have hsome : ∀ c, E c = true → ∃ a, u c = some a := fun c e => Option.ne_none_iff_exists'.1 ((hu c).1 e)
  have nK : K.Nodup := List.Pairwise.filter _ hL.1
  have nR : R.Nodup := List.Pairwise.filter _ hL.1
  have nP : P.Nodup := List.Pairwise.filter _ hL'.1
  have nRc : (R.flatMap g.children).Nodup := by
    apply flatMap_nodup nR
    · intro c hc
      obtain ⟨c1, c2⟩ := (mR c).1 hc
      exact children_nodup hw (hA.old.valid c c1) (hA.finer_lvl c2)
    · intro a ha b hb x h1 h2
      obtain ⟨a1, a2⟩ := (mR a).1 ha
      obtain ⟨b1, b2⟩ := (mR b).1 hb
      rw [← (hA.child hw a1 a2 h1).2.1, (hA.child hw b1 b2 h2).2.1]
  have nPc : (P.flatMap g.children).Nodup := by
    apply flatMap_nodup nP
    · intro c hc
      obtain ⟨c, c1, c2, rfl⟩ := (mP c).1 hc
      exact children_nodup hw (pv c c1 c2).1 (pv c c1 c2).2
    · intro a ha b hb x h1 h2
      obtain ⟨a, a1, a2, rfl⟩ := (mP a).1 ha
      obtain ⟨b, b1, b2, rfl⟩ := (mP b).1 hb
      rw [← ((hA.par hw a1 a2).2.2.2 x h1).2.2.1, ((hA.par hw b1 b2).2.2.2 x h2).2.2.1]
  have perm1 : L.Perm (K ++ (R ++ P.flatMap g.children)) := by
    refine (List.perm_ext_iff_of_nodup hL.1 ?_).2 fun x => ?_
    · rw [List.nodup_append, List.nodup_append]
      refine ⟨nK, ⟨nR, nPc, ?_⟩, ?_⟩
      · rintro x hx y hy rfl
        obtain ⟨c, hc, hy⟩ := List.mem_flatMap.1 hy
        obtain ⟨c, c1, c2, rfl⟩ := (mP c).1 hc
        obtain ⟨-, -, -, k, p, k1, k2, k3, k4⟩ := (hA.par hw c1 c2).2.2.2 x hy
        obtain ⟨r1, k', p', r2, r3, r4, r5⟩ := (mR x).1 hx
        have hc' := (hA.child hw r1 ⟨k', p', r2, r3, r4, r5⟩ (x := _)
          (exists_child_mem hw (hA.old.valid x r1) (hA.finer_lvl ⟨k', p', r2, r3, r4, r5⟩) k3).choose_spec.1)
        have := hA.new.unique _ _ _ hc'.2.2.2.2.1 k1
          (exists_child_mem hw (hA.old.valid x r1) (hA.finer_lvl ⟨k', p', r2, r3, r4, r5⟩) k3).choose_spec.2 k2
        have h5 := hc'.2.2.2.1
        rw [this] at h5
        omega
      · rintro x hx y hy rfl
        obtain ⟨x1, x2⟩ := (mK x).1 hx
        rcases List.mem_append.1 hy with hy | hy
        · exact (hA.same x1 x2).1 ((mR x).1 hy).2
        · obtain ⟨c, hc, hy⟩ := List.mem_flatMap.1 hy
          obtain ⟨c, c1, c2, rfl⟩ := (mP c).1 hc
          rw [((hA.par hw c1 c2).2.2.2 x hy).2.1] at x2
          cases x2
    · rw [hL.2, List.mem_append, List.mem_append, mK, mR, List.mem_flatMap]
      constructor
      · intro hx
        by_cases h1 : Finer g E' x
        · exact Or.inr (Or.inl ⟨hx, h1⟩)
        · by_cases h2 : Coarser g E' x
          · exact Or.inr (Or.inr ⟨g.parent x, (mP _).2 ⟨x, hx, h2, rfl⟩,
              mem_children_parent hw (hA.old.valid x hx) (hA.family x hx h2).1⟩)
          · exact Or.inl ⟨hx, (hA.after x).2 (Or.inl ⟨hx, h1, h2⟩)⟩
      · rintro (h | h | ⟨c, hc, hx⟩)
        · exact h.1
        · exact h.1
        · obtain ⟨c, c1, c2, rfl⟩ := (mP c).1 hc
          exact ((hA.par hw c1 c2).2.2.2 x hx).1
  have perm2 : L'.Perm (K ++ (R.flatMap g.children ++ P)) := by
    refine (List.perm_ext_iff_of_nodup hL'.1 ?_).2 fun x => ?_
    · rw [List.nodup_append, List.nodup_append]
      refine ⟨nK, ⟨nRc, nP, ?_⟩, ?_⟩
      · rintro x hx y hy rfl
        obtain ⟨r, hr, hx⟩ := List.mem_flatMap.1 hx
        obtain ⟨r1, r2⟩ := (mR r).1 hr
        obtain ⟨c, c1, c2, rfl⟩ := (mP x).1 hy
        have := (hA.par hw c1 c2).2.1
        rw [(hA.child hw r1 r2 hx).2.1, r1] at this
        cases this
      · rintro x hx y hy rfl
        obtain ⟨x1, x2⟩ := (mK x).1 hx
        rcases List.mem_append.1 hy with hy | hy
        · obtain ⟨r, hr, hx⟩ := List.mem_flatMap.1 hy
          obtain ⟨r1, r2⟩ := (mR r).1 hr
          rw [(hA.child hw r1 r2 hx).1] at x1
          cases x1
        · obtain ⟨c, c1, c2, rfl⟩ := (mP x).1 hy
          rw [(hA.par hw c1 c2).1] at x1
          cases x1
    · rw [hL'.2, List.mem_append, List.mem_append, mK, mP, List.mem_flatMap, hA.after]
      constructor
      · rintro (h | ⟨c, c1, c2, c3⟩ | h)
        · exact Or.inl ⟨h.1, Or.inl h⟩
        · exact Or.inr (Or.inl ⟨c, (mR c).2 ⟨c1, c2⟩, c3⟩)
        · exact Or.inr (Or.inr h)
      · rintro (h | ⟨c, c1, c2⟩ | h)
        · exact Or.inl ⟨h.1, hA.same h.1 ((hA.after x).2 h.2)⟩
        · obtain ⟨r1, r2⟩ := (mR c).1 c1
          exact Or.inr (Or.inl ⟨c, r1, r2, c2⟩)
        · exact Or.inr (Or.inr h)
  rw [sum_perm (perm1.map _), sum_perm (perm2.map _)]
  simp only [List.map_append, List.sum_append]
  have vol : ∀ c a, u c = some a → a.volume = volumeOf len c := by
    intro c a ha
    unfold AdvCell.volume volumeOf
    rw [hl c a ha]
  have sK : K.map (fun c => AdvCell.mass (adaptedTo g len vel E' u c)) = K.map fun c => AdvCell.mass (u c) := by
    refine List.map_congr_left fun c hc => ?_
    obtain ⟨c1, c2⟩ := (mK c).1 hc
    obtain ⟨a, ha⟩ := hsome c c1
    unfold adaptedTo
    rw [if_pos c2, ha]
    show a.density * volumeOf len c = a.density * a.volume
    rw [vol c a ha]
  have sR : ((R.flatMap g.children).map fun c => AdvCell.mass (adaptedTo g len vel E' u c)).sum =
      (R.map fun c => AdvCell.mass (u c)).sum := by
    rw [List.map_flatMap, sum_flatMap]
    congr 1
    refine List.map_congr_left fun c hc => ?_
    obtain ⟨c1, c2⟩ := (mR c).1 hc
    obtain ⟨a, ha⟩ := hsome c c1
    have : (g.children c).map (fun x => AdvCell.mass (adaptedTo g len vel E' u x)) =
        (g.children c).map fun _ => a.density * (volumeOf len c / 8) := by
      refine List.map_congr_left fun x hx => ?_
      obtain ⟨x1, x2, -, -, x5, -⟩ := hA.child hw c1 c2 hx
      unfold adaptedTo
      rw [if_pos x5, hnone x x1, x2, ha]
      show a.density * volumeOf len x = _
      rw [hS.volume (hA.old.valid c c1) (hA.finer_lvl c2) hx]
    rw [this, sum_map_const, children_length, ha]
    show _ = a.density * a.volume
    rw [vol c a ha]
    push_cast
    grind
  have sP : (P.map fun c => AdvCell.mass (adaptedTo g len vel E' u c)).sum =
      ((P.flatMap g.children).map fun c => AdvCell.mass (u c)).sum := by
    rw [List.map_flatMap, sum_flatMap]
    congr 1
    refine List.map_congr_left fun c hc => ?_
    obtain ⟨c, c1, c2, rfl⟩ := (mP c).1 hc
    obtain ⟨d1, d2, d3, d4⟩ := hA.par hw c1 c2
    have e1 : (g.children (g.parent c)).map (fun x => AdvCell.mass (u x)) =
        (g.children (g.parent c)).map fun x => ((u x).getD .none).density / 8 * volumeOf len (g.parent c) := by
      refine List.map_congr_left fun x hx => ?_
      obtain ⟨a, ha⟩ := hsome x (d4 x hx).1
      rw [ha]
      show a.density * a.volume = a.density / 8 * _
      rw [vol x a ha, hS.volume (pv c c1 c2).1 (pv c c1 c2).2 hx]
      grind
    rw [e1, sum_map_mul]
    unfold adaptedTo
    rw [if_pos d3, hnone _ d1, hnone _ d2]
    rfl
  rw [sK, sR, sP]

/-! ## The property -/

/-- Lengths of cells which exist are numbers. -/
def Geo.lengths (G : Geo) (c : Nat) : V3 Rat := fun d => (G.length c d).getD 0

theorem Geo.shapes {m : Mapping} {per : V3 Bool} {hood : Nat} {G : Geo} (h : m.OK) (hG : G.Consistent m) :
    Shapes (m.grid per hood) G.lengths := by
  constructor
  · intro c hv hl x hx d
    have hv' := grid_valid.1 hv
    have hl : m.cfg.lvl c < m.cfg.maxLvl := by rw [grid_lvl] at hl; exact hl
    rw [grid_children] at hx
    have hid := (Mapping.validId_iff h).2 hv'
    have hm := Mapping.cfg_max h
    have hlvl : m.getLevel c < m.maxLvl := by
      rw [Mapping.getLevel_eq h, if_pos hv']
      have : (m.grid per hood).maxLvl = m.cfg.maxLvl := rfl
      omega
    have := hG.halves c hid hlvl x (by
      rw [Mapping.allChildren_eq h hv', if_pos hl]
      exact hx) d
    obtain ⟨lo, hi, -, -, -, -, -, e, -⟩ := hG.box c hid d
    unfold Geo.lengths
    rw [this, e]
    rfl
  · intro c hv d
    obtain ⟨lo, hi, -, -, -, e1, -, e, -⟩ := hG.box c ((Mapping.validId_iff h).2 (grid_valid.1 hv)) d
    unfold Geo.lengths
    rw [e]
    show 0 < hi - lo
    grind

/-- A simulation which does turns, adapts the grid and moves cells in any order. Every process wants any cells to be refined,
unrefined and not unrefined. -/
inductive AdvectRun (g : Cfg) (dflt : AdvCell) (maxTag : Nat) (len vel : Nat → V3 Rat) :
    Sys n AdvCell W → Sys n AdvCell W → Prop
  | refl {s : Sys n AdvCell W} : AdvectRun g dflt maxTag len vel s s
  | turn {s t t' : Sys n AdvCell W} (dt : Rat) : AdvectRun g dflt maxTag len vel s t →
      advectTurn g maxTag defaultId dt t = .ok t' → AdvectRun g dflt maxTag len vel s t'
  | adapt {s t t' : Sys n AdvCell W} (refine keep unrefine : Fin n → List Nat) : AdvectRun g dflt maxTag len vel s t →
      adaptGrid g dflt maxTag len vel defaultId refine keep unrefine t = .ok t' → AdvectRun g dflt maxTag len vel s t'
  | moves {s t t' : Sys n AdvCell W} : AdvectRun g dflt maxTag len vel s t → Runs g dflt maxTag Op.Moves t t' →
      AdvectRun g dflt maxTag len vel s t'

/-- C121: adapting the grid succeeds whatever cells processes want to refine and unrefine. Densities do not change in
cells that existed before. New cells get the density of the cell that was refined, or average density of the cells that were
unrefined, also from other processes. -/
theorem C121_adapt (hw : g.WF) (hn : 0 < n) (hm : g.last ≤ maxTag) (h : Idle g dflt maxTag s) (h0 : g.maxLvl ≠ 0) {id : Int}
    (hH : ∀ i, (hoodFor g (s i) id).isSome = true) (len vel : Nat → V3 Rat) (refine keep unrefine : Fin n → List Nat) :
    ∃ t, adaptGrid g dflt maxTag len vel id refine keep unrefine s = .ok t ∧ Idle g dflt maxTag t ∧
      ∀ i c, (t i).owner c = some i →
        (exist (s i).owner c = true → ∃ a, ownData s i c = some a ∧
          access (t i) c = some { a with len := len c, v := vel c }) ∧
        (exist (s i).owner c = false → exist (s i).owner (g.parent c) = true → ∃ b, ownData s i (g.parent c) = some b ∧
          access (t i) c = some ⟨b.density, 0, len c, vel c⟩) ∧
        (exist (s i).owner c = false → exist (s i).owner (g.parent c) = false →
          (∀ x ∈ g.children c, ownData s i x ≠ none) ∧
          access (t i) c = some ⟨((g.children c).map fun x => ((ownData s i x).getD .none).density / 8).sum, 0, len c, vel c⟩) := by
  obtain ⟨w, hi⟩ := h.reachable.inv hw hn
  obtain ⟨u, hu⟩ := hi.holds
  obtain ⟨t, e1, e2, -, E', e3, e4, e5, -⟩ := adaptGrid_holds hw hn hm h hu h0 hH len vel refine keep unrefine
  have hown : ∀ i b, ownData s i b = u b := by
    intro i b
    unfold ownData
    cases hb : (s i).owner b with
    | none =>
      have := (hu i b).2
      unfold exist at this
      rw [hb] at this
      show none = _
      have : u b = none := by simpa using this
      exact this.symm
    | some j => exact ((hu i b).1 j hb).1
  have hne : ∀ i b, exist (s i).owner b = true → ∃ a, u b = some a := fun i b hb =>
    Option.ne_none_iff_exists'.1 (((hu i b).2).1 hb)
  have hno : ∀ i b, exist (s i).owner b = false → u b = none := by
    intro i b hb
    have := (hu i b).2
    rw [hb] at this
    simpa using this
  refine ⟨t, e1, e2, fun i c hc => ?_⟩
  have hE : E' c = true := by rw [← e3 i]; exact exist_of hc
  rw [((e5 i c).1 i hc).1]
  unfold adaptedTo
  rw [if_pos hE]
  simp only [hown]
  refine ⟨fun h1 => ?_, fun h1 h2 => ?_, fun h1 h2 => ?_⟩
  · obtain ⟨a, ha⟩ := hne i c h1
    exact ⟨a, ha, by rw [ha]⟩
  · obtain ⟨b, hb⟩ := hne i _ h2
    exact ⟨b, hb, by rw [hno i c h1, hb]⟩
  · refine ⟨fun x hx => ?_, by rw [hno i c h1, hno i _ h2]⟩
    have hA := e4 i
    rcases (hA.after c).1 hE with h | ⟨r, r1, r2, r3⟩ | ⟨r, r1, r2, rfl⟩
    · rw [h.1] at h1; cases h1
    · rw [(hA.child hw r1 r2 r3).2.1, r1] at h2; cases h2
    · obtain ⟨a, ha⟩ := hne i x ((hA.par hw r1 r2).2.2.2 x hx).1
      rw [ha]; exact Option.some_ne_none a

/-- C121: after adaptation copies of remote neighbors have data of the cells. -/
theorem C121_copies (hw : g.WF) (hn : 0 < n) (hm : g.last ≤ maxTag) (h : Idle g dflt maxTag s) (h0 : g.maxLvl ≠ 0) {id : Int}
    (hH : ∀ i, (hoodFor g (s i) id).isSome = true) {len vel : Nat → V3 Rat} {refine keep unrefine : Fin n → List Nat}
    (ht : adaptGrid g dflt maxTag len vel id refine keep unrefine s = .ok t) (i j : Fin n) {c b : Nat}
    (hc : (t i).owner c = some i) (hb : NbrOf g (t i) defaultId c b) (hj : (t i).owner b = some j) :
    access (t i) b = access (t j) b ∧ access (t i) b ≠ none := by
  obtain ⟨w, hi⟩ := h.reachable.inv hw hn
  obtain ⟨u, hu⟩ := hi.holds
  obtain ⟨t1, e1, e2, -, E, e3, -, e5, s1, res, -, -, -, -, s2, g1, g2⟩ := adaptGrid_holds hw hn hm h hu h0 hH len vel refine keep unrefine
  rw [ht] at e1
  injection e1 with e1
  subst e1
  obtain ⟨v, hv⟩ := e2.reachable.inv hw hn
  have hbe : exist (t i).owner b = true := exist_of hj
  by_cases hij : j = i
  · subst hij
    refine ⟨rfl, ?_⟩
    rw [((e5 j b).1 j hj).1]
    exact ((e5 j b).2).1 hbe
  obtain ⟨x, hx, e⟩ := Out.bind_inv g2
  injection e with e
  have hr := fun k => C33_rest hw g1 hx k
  have hti : ∀ k, t k = (x k).2 := fun k => by rw [← e]
  have ho : ∀ k, (t k).owner = (s2 k).owner := fun k => by rw [hti, (hr k).1]
  have hb' : NbrOf g (s2 i) defaultId c b := by
    have := (hr i).1
    rw [hti, this] at hb
    exact hb
  have hjj : (s2 j).owner b = some j := by rw [← ho j, hv.sys.owner, ← hv.sys.owner i]; exact hj
  have := C33_copies hw g1 hx i j (by rw [← ho]; exact hc) hb' (by rw [← ho]; exact hj) hij
  rw [hti i, hti j, (hr j).2 b (Or.inl hjj), this.2.1]
  exact ⟨rfl, fun h => by rw [h] at this; exact absurd this.2.2 (by simp)⟩

/-- Requests of all processes. -/
def requested (refine keep unrefine : Fin n → List Nat) : Calls where
  refine c := ∃ i, c ∈ refine i
  unrefine c := ∃ i, c ∈ unrefine i
  dontRefine _ := False
  dontUnrefine c := ∃ i, c ∈ keep i

/-- Cell `c` of grid `E` is unrefined when calls `k` have been made. -/
def UnrefinedBy (g : Cfg) (E : Nat → Bool) (k : Calls) (c : Nat) : Prop :=
  0 < g.lvl c ∧ (∃ x ∈ g.children (g.parent c), k.unrefine x) ∧
  (∀ x ∈ g.children (g.parent c), E x = true ∧ ¬ k.refine x ∧ ¬ k.dontUnrefine x ∧ ¬ Forced g E k x) ∧
  ∀ b, E b = true → ∀ o ∈ hoodOf g, Meets g (g.parent c) o b → g.lvl b ≤ g.lvl c ∧ (g.lvl b = g.lvl c → ¬ Forced g E k b)

theorem fold_ops {D : Type} {s t : Sys n D W} {dflt : D} {ops : List (Op n D W)} (hq : ∀ op ∈ ops, op.Quiet)
    (h : Out.fold (fun op s => step g dflt maxTag s op) ops s = .ok t) : Ops g dflt maxTag s ops t := by
  induction ops generalizing s with
  | nil => injection h with h; subst h; exact .nil s
  | cons op ops ih =>
    unfold Out.fold at h
    cases h1 : step g dflt maxTag s op with
    | ok s1 =>
      simp only [h1] at h
      exact .cons ((hq op (List.mem_cons_self ..)).ok s) h1 (ih (fun o ho => hq o (List.mem_cons_of_mem _ ho)) h)
    | throws => simp only [h1] at h; cases h
    | hangs => simp only [h1] at h; cases h
    | undef => simp only [h1] at h; cases h

/-- C121: cells that processes want to refine are refined, and so are larger cells in their neighborhoods. Cells that processes
want to unrefine are unrefined if nothing prevents that. -/
theorem C121_cells (hw : g.WF) (hn : 0 < n) (hm : g.last ≤ maxTag) (h : Idle g dflt maxTag s) (h0 : g.maxLvl ≠ 0)
    {len vel : Nat → V3 Rat} {refine keep unrefine : Fin n → List Nat}
    (hl : ∀ i c, c ∈ refine i ∨ c ∈ keep i ∨ c ∈ unrefine i → (s i).owner c = some i)
    (ht : adaptGrid g dflt maxTag len vel defaultId refine keep unrefine s = .ok t) (i : Fin n) {c : Nat}
    (hc : exist (s i).owner c = true) :
    (Finer g (exist (t i).owner) c ↔ Forced g (exist (s i).owner) (requested refine keep unrefine) c) ∧
    (Coarser g (exist (t i).owner) c ↔ UnrefinedBy g (exist (s i).owner) (requested refine keep unrefine) c) := by
  obtain ⟨w, hi⟩ := h.reachable.inv hw hn
  obtain ⟨u, hu⟩ := hi.holds
  obtain ⟨t1, e1, -, -, E, e3, -, -, s1, res, f1, f2, f3, -⟩ := adaptGrid_holds (id := defaultId) hw hn hm h hu h0
    (fun i => by rw [hoodFor, if_pos rfl]; rfl) len vel refine keep unrefine
  rw [ht] at e1
  injection e1 with e1
  subst e1
  obtain ⟨k, hk, hk0⟩ := h
  have hmem : ∀ op, op ∈ (List.finRange n).flatMap (adaptAsks (W := W) refine keep unrefine) ↔
      ∃ j x, (op = .refine j x ∧ x ∈ refine j) ∨ (op = .dontUnrefine j x ∧ x ∈ keep j) ∨ (op = .unrefine j x ∧ x ∈ unrefine j) := by
    intro op
    rw [List.mem_flatMap]
    constructor
    · rintro ⟨j, -, hop⟩
      unfold adaptAsks at hop
      rw [List.mem_append, List.mem_append] at hop
      rcases hop with (hop | hop) | hop
      · obtain ⟨x, hx, rfl⟩ := List.mem_map.1 hop; exact ⟨j, x, Or.inl ⟨rfl, hx⟩⟩
      · obtain ⟨x, hx, rfl⟩ := List.mem_map.1 hop; exact ⟨j, x, Or.inr (Or.inl ⟨rfl, hx⟩)⟩
      · obtain ⟨x, hx, rfl⟩ := List.mem_map.1 hop; exact ⟨j, x, Or.inr (Or.inr ⟨rfl, hx⟩)⟩
    · rintro ⟨j, x, ⟨rfl, hx⟩ | ⟨rfl, hx⟩ | ⟨rfl, hx⟩⟩
      · exact ⟨j, List.mem_finRange j, List.mem_append_left _ (List.mem_append_left _ (List.mem_map_of_mem hx))⟩
      · exact ⟨j, List.mem_finRange j, List.mem_append_left _ (List.mem_append_right _ (List.mem_map_of_mem hx))⟩
      · exact ⟨j, List.mem_finRange j, List.mem_append_right _ (List.mem_map_of_mem hx)⟩
  have hops := fold_ops (fun op hop => by
    obtain ⟨j, x, ⟨rfl, -⟩ | ⟨rfl, -⟩ | ⟨rfl, -⟩⟩ := (hmem op).1 hop <;> trivial) f1
  obtain ⟨k', b1, b2, b3, b4, b5, b6, b7, -⟩ := Ops.asks hw hn hk hi (fun c => (hk0 c).2.2.1) (by
    intro op hop
    obtain ⟨j, x, ⟨rfl, hx⟩ | ⟨rfl, hx⟩ | ⟨rfl, hx⟩⟩ := (hmem op).1 hop
    · exact ⟨j, x, by rw [← hi.sys.owner j]; exact hl j x (Or.inl hx), Or.inl rfl⟩
    · exact ⟨j, x, by rw [← hi.sys.owner j]; exact hl j x (Or.inr (Or.inl hx)), Or.inr (Or.inr rfl)⟩
    · exact ⟨j, x, by rw [← hi.sys.owner j]; exact hl j x (Or.inr (Or.inr hx)), Or.inr (Or.inl rfl)⟩) hops
  have kR : ∀ x, k'.refine x ↔ (requested refine keep unrefine).refine x := by
    intro x
    rw [b4]
    constructor
    · rintro (e | ⟨j, e⟩)
      · exact absurd e (hk0 x).1
      · obtain ⟨j', y, ⟨e, hx⟩ | ⟨e, hx⟩ | ⟨e, hx⟩⟩ := (hmem _).1 e
        · injection e with _ e; subst e; exact ⟨j', hx⟩
        · cases e
        · cases e
    · rintro ⟨j, e⟩
      exact Or.inr ⟨j, (hmem _).2 ⟨j, x, Or.inl ⟨rfl, e⟩⟩⟩
  have kH : ∀ x, k'.dontUnrefine x ↔ (requested refine keep unrefine).dontUnrefine x := by
    intro x
    rw [b5]
    constructor
    · rintro (e | ⟨j, e⟩)
      · exact absurd e (hk0 x).2.2.2
      · obtain ⟨j', y, ⟨e, hx⟩ | ⟨e, hx⟩ | ⟨e, hx⟩⟩ := (hmem _).1 e
        · cases e
        · injection e with _ e; subst e; exact ⟨j', hx⟩
        · cases e
    · rintro ⟨j, e⟩
      exact Or.inr ⟨j, (hmem _).2 ⟨j, x, Or.inr (Or.inl ⟨rfl, e⟩)⟩⟩
  have kU : ∀ x, k'.unrefine x → (requested refine keep unrefine).unrefine x := by
    intro x e
    rcases b6 x e with e | ⟨j, e⟩
    · exact absurd e (hk0 x).2.1
    · obtain ⟨j', y, ⟨e, hx⟩ | ⟨e, hx⟩ | ⟨e, hx⟩⟩ := (hmem _).1 e
      · cases e
      · cases e
      · injection e with _ e; subst e; exact ⟨j', hx⟩
  have kU' : ∀ x, (requested refine keep unrefine).unrefine x → (∀ y ∈ g.children (g.parent x), exist w y = true) → k'.unrefine x := by
    rintro x ⟨j, e⟩ hx
    exact b7 x (Or.inr ⟨j, (hmem _).2 ⟨j, x, Or.inr (Or.inr ⟨rfl, e⟩)⟩⟩) hx
  have hF : ∀ x, Forced g (exist w) k' x ↔ Forced g (exist w) (requested refine keep unrefine) x := by
    intro x
    constructor
    · intro hx
      induction hx with
      | base h1 h2 _ => exact .base ((kR _).1 h1) h2 (Veto.none fun _ h => h)
      | step _ h1 h2 h3 h4 ih => exact .step ih h1 h2 h3 h4
    · intro hx
      induction hx with
      | base h1 h2 _ => exact .base ((kR _).2 h1) h2 (Veto.none b3)
      | step _ h1 h2 h3 h4 ih => exact .step ih h1 h2 h3 h4
  rw [hi.sys.owner] at hc ⊢
  have hc1 : exist (s1 i).owner c = true := by rw [b2.sys.owner]; exact hc
  rw [← (f3 i).1]
  constructor
  · rw [(b1.recorded hw i).refined_cells hw f2 i hc1, b2.sys.owner, hF]
  · rw [(b1.recorded hw i).unrefined_cells hw b3 f2 i hc1, b2.sys.owner]
    unfold UnrefinedBy
    simp only [hF, kR, kH]
    have hv := hi.sys.tiled.valid c hc
    constructor
    · rintro ⟨a1, ⟨x, a2, a3⟩, a4, a5⟩
      exact ⟨a1, ⟨x, a2, kU x a3⟩, a4, a5⟩
    · rintro ⟨a1, ⟨x, a2, a3⟩, a4, a5⟩
      refine ⟨a1, ⟨x, a2, kU' x a3 ?_⟩, a4, a5⟩
      rw [((children_spec hw (parent_valid hw hv) (lvl_parent_lt hw hv a1)).1 a2).2.2]
      exact fun y hy => (a4 y hy).1

/-- C121: if the same requests are made, by any processes about their own cells, the result is the same whatever the number
of processes is and whichever cells they have. -/
theorem C121_same_results {n' : Nat} {W' : Type} {dflt' : AdvCell} {maxTag' : Nat} {s' t' : Sys n' AdvCell W'} (hw : g.WF)
    (hn : 0 < n) (hn' : 0 < n') (hm : g.last ≤ maxTag) (hm' : g.last ≤ maxTag') (h : Idle g dflt maxTag s)
    (h' : Idle g dflt' maxTag' s') (hs : SameData s s') {len vel : Nat → V3 Rat}
    {refine keep unrefine : Fin n → List Nat} {refine' keep' unrefine' : Fin n' → List Nat}
    (hl : ∀ i c, c ∈ refine i ∨ c ∈ keep i ∨ c ∈ unrefine i → (s i).owner c = some i)
    (hl' : ∀ i c, c ∈ refine' i ∨ c ∈ keep' i ∨ c ∈ unrefine' i → (s' i).owner c = some i)
    (hq : ∀ c, ((∃ i, c ∈ refine i) ↔ ∃ i, c ∈ refine' i) ∧ ((∃ i, c ∈ keep i) ↔ ∃ i, c ∈ keep' i) ∧
      ((∃ i, c ∈ unrefine i) ↔ ∃ i, c ∈ unrefine' i))
    (ht : adaptGrid g dflt maxTag len vel defaultId refine keep unrefine s = .ok t)
    (ht' : adaptGrid g dflt' maxTag' len vel defaultId refine' keep' unrefine' s' = .ok t') : SameData t t' := by
  by_cases h0 : g.maxLvl = 0
  · unfold adaptGrid at ht ht'
    rw [if_pos h0] at ht ht'
    injection ht with ht
    injection ht' with ht'
    subst ht; subst ht'
    exact hs
  have hreq : requested refine keep unrefine = requested refine' keep' unrefine' := by
    unfold requested
    congr 1
    · funext c; exact propext (hq c).1
    · funext c; exact propext (hq c).2.2
    · funext c; exact propext (hq c).2.1
  have hcell := fun c => C121_cells (c := c) hw hn hm h h0 hl ht ⟨0, hn⟩
  have hcell' := fun c => C121_cells (c := c) hw hn' hm' h' h0 hl' ht' ⟨0, hn'⟩
  obtain ⟨w, hi⟩ := h.reachable.inv hw hn
  obtain ⟨w', hi'⟩ := h'.reachable.inv hw hn'
  obtain ⟨u, hu, hu'⟩ := hs.holds hi hi' hn hn'
  obtain ⟨t1, e1, -, -, E, e3, e4, e5, -⟩ := adaptGrid_holds (id := defaultId) hw hn hm h hu h0
    (fun i => by rw [hoodFor, if_pos rfl]; rfl) len vel refine keep unrefine
  obtain ⟨t1', e1', -, -, E', e3', e4', e5', -⟩ := adaptGrid_holds (id := defaultId) hw hn' hm' h' hu' h0
    (fun i => by rw [hoodFor, if_pos rfl]; rfl) len vel refine' keep' unrefine'
  rw [ht] at e1
  injection e1 with e1
  subst e1
  rw [ht'] at e1'
  injection e1' with e1'
  subst e1'
  have hEs : exist (s' ⟨0, hn'⟩).owner = exist (s ⟨0, hn⟩).owner := by
    funext c
    exact (hs.1 ⟨0, hn⟩ ⟨0, hn'⟩ c).symm
  have a := e4 ⟨0, hn⟩
  have a' := e4' ⟨0, hn'⟩
  rw [hEs] at a'
  simp only [e3] at hcell
  simp only [e3', hEs, ← hreq] at hcell'
  have : E' = E := by
    funext c
    rw [Bool.eq_iff_iff, a.after, a'.after]
    refine or_congr ?_ (or_congr ?_ ?_)
    · refine and_congr_right fun hc => ?_
      rw [(hcell c hc).1, (hcell c hc).2, (hcell' c hc).1, (hcell' c hc).2]
    · refine exists_congr fun b => and_congr_right fun hb => ?_
      rw [(hcell b hb).1, (hcell' b hb).1]
    · refine exists_congr fun b => and_congr_right fun hb => ?_
      rw [(hcell b hb).2, (hcell' b hb).2]
  subst this
  exact e5.same e5'

theorem AdvectRun.conserved {len vel : Nat → V3 Rat} (hw : g.WF) (hn : 0 < n) (hm : g.last ≤ maxTag) (hS : Shapes g len)
    (h : Idle g dflt maxTag s) {u : Nat → Option AdvCell} (hu : Holds s u)
    (h0 : ∀ c a, u c = some a → a.flux = 0 ∧ a.len = len c) (hr : AdvectRun g dflt maxTag len vel s t) :
    Idle g dflt maxTag t ∧ ∃ v, Holds t v ∧ (∀ c a, v c = some a → a.flux = 0 ∧ a.len = len c) ∧
      advectedMass g t = advectedMass g s := by
  induction hr with
  | refl => exact ⟨h, u, hu, h0, rfl⟩
  | turn dt _ ht ih =>
    obtain ⟨h1, v, h2, h3, h4⟩ := ih
    obtain ⟨a1, a2⟩ := advectTurn_default hw hn h1 h2 ht
    obtain ⟨w1, hi1⟩ := h1.reachable.inv hw hn
    refine ⟨a1, _, a2, fun c a ha => ?_, (mass_turn hw hn h1 h2 (fun c a ha => ⟨(h3 c a ha).1, ?_⟩) ht).trans h4⟩
    · have ha : (v c).map _ = some a := ha
      cases hv : v c with
      | none => rw [hv] at ha; cases ha
      | some b =>
        rw [hv] at ha
        injection ha with ha
        rw [← ha]
        exact ⟨rfl, (h3 c b hv).2⟩
    · have hex : exist w1 c = true := by
        have := ((h2 ⟨0, hn⟩ c).2).2 (by rw [ha]; exact Option.some_ne_none a)
        rw [hi1.sys.owner] at this
        exact this
      have := hS.volume_ne (hi1.sys.tiled.valid c hex)
      unfold AdvCell.volume
      rw [(h3 c a ha).2]
      exact this
  | @adapt t t' refine keep unrefine _ ht ih =>
    obtain ⟨h1, v, h2, h3, h4⟩ := ih
    by_cases hmax : g.maxLvl = 0
    · unfold adaptGrid at ht
      rw [if_pos hmax] at ht
      injection ht with ht
      subst ht
      exact ⟨h1, v, h2, h3, h4⟩
    obtain ⟨t1, e1, e2, -, E', e3, e4, e5, -⟩ := adaptGrid_holds (id := defaultId) hw hn hm h1 h2 hmax
      (fun i => by rw [hoodFor, if_pos rfl]; rfl) len vel refine keep unrefine
    rw [ht] at e1
    injection e1 with e1
    subst e1
    obtain ⟨w1, hi1⟩ := h1.reachable.inv hw hn
    obtain ⟨w2, hi2⟩ := e2.reachable.inv hw hn
    have hA := e4 ⟨0, hn⟩
    have hE2 := e3 ⟨0, hn⟩
    rw [hi1.sys.owner] at hA
    rw [hi2.sys.owner] at hE2
    subst hE2
    refine ⟨e2, _, e5, fun c a ha => ?_, ?_⟩
    · unfold adaptedTo at ha
      split at ha
      · split at ha
        · rename_i hb
          injection ha with ha
          rw [← ha]
          exact ⟨(h3 _ _ hb).1, rfl⟩
        · split at ha <;> (injection ha with ha; rw [← ha]; exact ⟨rfl, rfl⟩)
      · cases ha
    · rw [mass_holds hw e2.reachable hi2 e5, mass_adapted hw hA hS (u := v) (fun c => by
        rw [← (h2 ⟨0, hn⟩ c).2, hi1.sys.owner]) (fun c a ha => (h3 c a ha).2) (allCells_spec hw h1.reachable hi1)
        (allCells_spec hw e2.reachable hi2), ← mass_holds hw h1.reachable hi1 h2, h4]
  | moves _ hmv ih =>
    obtain ⟨h1, v, h2, h3, h4⟩ := ih
    obtain ⟨a1, a2⟩ := hmv.moves_holds hw hn h1 h2
    obtain ⟨w1, hi1⟩ := h1.reachable.inv hw hn
    obtain ⟨w2, hi2⟩ := a1.reachable.inv hw hn
    exact ⟨a1, v, a2, h3, (mass_same hw hn hn a1.reachable hi2 h1.reachable hi1 a2 h2).trans h4⟩

/-- C121: a simulation with a geometry of dccrg can be started on any grid and continued from every state with a turn of any length
and with any adaptation. The total amount is always that of initial densities. -/
theorem C121_conserved {m : Mapping} {per : V3 Bool} {hood : Nat} {G : Geo} (hM : m.OK) (hG : G.Consistent m) (hn : 0 < n)
    (hm : (m.grid per hood).last ≤ maxTag) (h : Idle (m.grid per hood) dflt maxTag s) (density : Nat → Rat) (vel : Nat → V3 Rat) :
    ∃ s1, startAdvection (m.grid per hood) dflt maxTag density G.lengths vel s = .ok s1 ∧
      (∀ i c, (s1 i).owner c = some i → access (s1 i) c = some ⟨density c, 0, G.lengths c, vel c⟩) ∧
      ∀ t, AdvectRun (m.grid per hood) dflt maxTag G.lengths vel s1 t →
        advectedMass (m.grid per hood) t = ((List.finRange n).map fun i =>
          ((getCells (m.grid per hood) i (s i) [] false defaultId false).map fun c => density c * volumeOf G.lengths c).sum).sum ∧
        (∀ i c a, (t i).owner c = some i → access (t i) c = some a → a.flux = 0 ∧ a.len = G.lengths c) ∧
        (∀ dt, ∃ t', advectTurn (m.grid per hood) maxTag defaultId dt t = .ok t') ∧
        ∀ refine keep unrefine, ∃ t', adaptGrid (m.grid per hood) dflt maxTag G.lengths vel defaultId refine keep unrefine t = .ok t' := by
  have hw := grid_wf (per := per) (hood := hood) hM
  have hS := Geo.shapes (per := per) (hood := hood) hM hG
  have z : Fin n := ⟨0, hn⟩
  obtain ⟨s1, e1, e2, e3, e4, -⟩ := startAdvection_holds hw hn hm h density G.lengths vel
  obtain ⟨w, hi⟩ := h.reachable.inv hw hn
  obtain ⟨w1, hi1⟩ := e2.reachable.inv hw hn
  have : w1 = w := by rw [← hi1.sys.owner z, (e3 z).1, hi.sys.owner]
  subst this
  have hu := e4 z
  rw [hi.sys.owner] at hu
  refine ⟨s1, e1, fun i c hc => ?_, fun t hr => ?_⟩
  · rw [((hu i c).1 i hc).1]
    rw [hi1.sys.owner] at hc
    exact if_pos (exist_of hc)
  obtain ⟨a1, v, a2, a3, a4⟩ := hr.conserved hw hn hm hS e2 hu (by
    intro c a ha
    split at ha
    · injection ha with ha
      rw [← ha]
      exact ⟨rfl, rfl⟩
    · cases ha)
  refine ⟨?_, fun i c a hc ha => a3 c a (by rw [← ((a2 i c).1 i hc).1]; exact ha), fun dt => ?_, fun refine keep unrefine => ?_⟩
  · rw [a4]
    unfold advectedMass
    congr 1
    refine List.map_congr_left fun i _ => ?_
    have hp : (getCells (m.grid per hood) i (s1 i) [] false defaultId false).Perm
        (getCells (m.grid per hood) i (s i) [] false defaultId false) := by
      refine (List.perm_ext_iff_of_nodup (cells_spec hw e2.reachable hi1 i).1 (cells_spec hw h.reachable hi i).1).2 fun c => ?_
      rw [(cells_spec hw e2.reachable hi1 i).2, (cells_spec hw h.reachable hi i).2]
    rw [sum_perm (hp.map _)]
    congr 1
    refine List.map_congr_left fun c hc => ?_
    have hc := ((cells_spec hw h.reachable hi i).2 c).1 hc
    have e : access (s1 i) c = some ⟨density c, 0, G.lengths c, vel c⟩ := by
      rw [((hu i c).1 i (by rw [hi1.sys.owner]; exact hc)).1]
      exact if_pos (exist_of hc)
    rw [e]
    rfl
  · obtain ⟨t', h1, -⟩ := advectTurn_holds hw hn a1 a2 (fun i => if_pos rfl) (fun o h => faces_sub_hoodOf h) dt
    exact ⟨t', h1⟩
  · by_cases hmax : (m.grid per hood).maxLvl = 0
    · exact ⟨t, by unfold adaptGrid; rw [if_pos hmax]⟩
    · obtain ⟨t', h1, -⟩ := adaptGrid_holds (id := defaultId) hw hn hm a1 a2 hmax (fun i => by rw [hoodFor, if_pos rfl]; rfl)
        G.lengths vel refine keep unrefine
      exact ⟨t', h1⟩

/-- Cell 1 of a grid of two cells is refined by its process; then the process of one of its children unrefines it. -/
theorem tiny_adapted : ∃ (s t t' : Sys 2 AdvCell Nat) (j : Fin 2), Idle tinyG (advDemo 0) 146 s ∧ Idle tinyG (advDemo 0) 146 t ∧
    (s 0).owner 1 = some 0 ∧ (s 1).owner 2 = some 1 ∧ access (s 0) 1 = some (advDemo 1) ∧ Holds s advField ∧
    adaptGrid tinyG (advDemo 0) 146 (tinyCart.geo tinyM).lengths (fun _ _ => 0) defaultId (fun i => if i = 0 then [1] else []) (fun _ => [])
      (fun _ => []) s = .ok t ∧
    (∀ x ∈ tinyG.children 1, exist (t 0).owner x = true) ∧ (t j).owner 3 = some j ∧
    access (t j) 3 = some ⟨1, 0, (tinyCart.geo tinyM).lengths 3, fun _ => 0⟩ ∧
    adaptGrid tinyG (advDemo 0) 146 (tinyCart.geo tinyM).lengths (fun _ _ => 0) defaultId (fun _ => []) (fun _ => [])
      (fun i => if i = j then [3] else []) t = .ok t' ∧ exist (t' 0).owner 1 = true ∧ exist (t' 0).owner 3 = false := by
  obtain ⟨s, h1, h2, h3⟩ := advDemo_start (n := 2) (by omega)
  have hm : tinyG.last ≤ 146 := by rw [tiny_last]; exact Nat.le_refl _
  have h0 : tinyG.maxLvl ≠ 0 := by decide
  have o1 : (s 0).owner 1 = some 0 := by rw [h3]; decide
  have o2 : (s 1).owner 2 = some 1 := by rw [h3]; decide
  obtain ⟨t, e1, e2, e0, E, e3, e4, e5, -⟩ := adaptGrid_holds (id := defaultId) tiny_wf (by omega) hm h1 h2 h0
    (fun i => by rw [hoodFor, if_pos rfl]; rfl) (tinyCart.geo tinyM).lengths (fun _ _ => 0) (fun i => if i = 0 then [1] else [])
    (fun _ => []) (fun _ => [])
  have hl : ∀ (i : Fin 2) c, c ∈ (if i = 0 then [1] else []) ∨ c ∈ ([] : List Nat) ∨ c ∈ ([] : List Nat) → (s i).owner c = some i := by
    rintro i c (h | h | h)
    · split at h
      · rename_i hi
        rw [List.mem_singleton] at h
        rw [h, hi]
        exact o1
      · cases h
    · cases h
    · cases h
  have x1 : ∀ i, exist (s i).owner 1 = true := fun i => by
    rw [h3]; exact (createLevel0_exist (by omega)).2 (by omega)
  have hf : Finer tinyG E 1 := by
    rw [← e3 0, (C121_cells tiny_wf (by omega) hm h1 h0 hl e1 0 (x1 0)).1]
    exact .base ⟨0, by show 1 ∈ if _ then _ else _; rw [if_pos rfl]; exact List.mem_singleton.2 rfl⟩ (by decide +kernel) (Veto.none fun _ h => h)
  have hch := fun x hx => (e4 0).child tiny_wf (x := x) (x1 0) hf hx
  have m3 : 3 ∈ tinyG.children 1 := by decide +kernel
  have x3 := hch 3 m3
  have x3' : exist (t 0).owner 3 = true := by rw [e3]; exact x3.2.2.2.2.1
  obtain ⟨wt, hit⟩ := e2.reachable.inv tiny_wf (by omega)
  obtain ⟨j, hj⟩ : ∃ j, wt 3 = some j := by
    unfold exist at x3'
    rw [hit.sys.owner] at x3'
    exact Option.isSome_iff_exists.1 x3'
  have hj' : (t j).owner 3 = some j := by rw [hit.sys.owner]; exact hj
  obtain ⟨t', f1, f2, f0, E', f3, f4, f5, -⟩ := adaptGrid_holds (id := defaultId) tiny_wf (by omega) hm e2 e5 h0
    (fun i => by rw [hoodFor, if_pos rfl]; rfl) (tinyCart.geo tinyM).lengths (fun _ _ => 0) (fun _ => [])
    (fun _ => []) (fun i => if i = j then [3] else [])
  have hl' : ∀ (i : Fin 2) c, c ∈ ([] : List Nat) ∨ c ∈ ([] : List Nat) ∨ c ∈ (if i = j then [3] else []) → (t i).owner c = some i := by
    rintro i c (h | h | h)
    · cases h
    · cases h
    · split at h
      · rename_i hi
        rw [List.mem_singleton] at h
        rw [h, hi]
        exact hj'
      · cases h
  have p3 : tinyG.parent 3 = 1 := x3.2.1
  have l1 : tinyG.lvl 1 = 0 := by decide +kernel
  have l3 : tinyG.lvl 3 = 1 := by rw [x3.2.2.2.1, l1]
  have nf : ∀ x, ¬ Forced tinyG (exist (t 0).owner)
      (requested (n := 2) (fun _ => []) (fun _ => []) (fun i => if i = j then [3] else [])) x := by
    intro x hx
    induction hx with
    | base h _ _ => obtain ⟨_, h⟩ := h; cases h
    | step _ _ _ _ _ ih => exact ih
  have hco : Coarser tinyG E' 3 := by
    rw [← f3 0, (C121_cells tiny_wf (by omega) hm e2 h0 hl' f1 0 x3').2]
    refine ⟨by omega, ⟨3, by rw [p3]; exact m3, j, by show 3 ∈ if _ then _ else _; rw [if_pos rfl]; exact List.mem_singleton.2 rfl⟩, ?_, ?_⟩
    · rw [p3]
      intro x hx
      refine ⟨by rw [e3]; exact (hch x hx).2.2.2.2.1, ?_, ?_, nf x⟩
      · rintro ⟨_, h⟩; cases h
      · rintro ⟨_, h⟩; cases h
    · intro b hb o ho hme
      refine ⟨?_, fun _ => nf b⟩
      rw [e3] at hb
      have lv : ∀ c, exist (s 0).owner c = true → tinyG.lvl c = 0 := by
        intro c hc
        rw [h3, createLevel0_exist (by omega)] at hc
        have : c = 1 ∨ c = 2 := by omega
        rcases this with rfl | rfl <;> decide +kernel
      rcases ((e4 0).after b).1 hb with ⟨h, -, -⟩ | ⟨c, hc, hfc, hx⟩ | ⟨c, hc, hcc, rfl⟩
      · rw [lv b h]; omega
      · rw [((e4 0).child tiny_wf hc hfc hx).2.2.2.1, lv c hc]; omega
      · have := ((e4 0).family c hc hcc).1
        rw [lv c hc] at this
        omega
  have hpar := (f4 0).par tiny_wf x3' hco
  rw [p3] at hpar
  refine ⟨s, t, t', j, h1, e2, o1, o2, ((h2 0 1).1 0 o1).1, h2, e1, fun x hx => by rw [e3]; exact (hch x hx).2.2.2.2.1, hj', ?_, f1,
    by rw [f3]; exact hpar.2.2.1, by rw [f3]; exact (hpar.2.2.2 3 m3).2.1⟩
  rw [((e5 j 3).1 j hj').1]
  unfold adaptedTo
  rw [if_pos x3.2.2.2.2.1]
  have a3 : advField 3 = none := rfl
  have a1 : advField (tinyG.parent 3) = some (advDemo 1) := by rw [p3]; rfl
  rw [a3, a1]
  rfl

/-- Hypotheses of `C121_adapt` and `C121_cells` are met. -/
example : ∃ (s t t' : Sys 2 AdvCell Nat) (j : Fin 2), tinyG.WF ∧ tinyG.maxLvl ≠ 0 ∧ tinyG.last ≤ 146 ∧
    Idle tinyG (advDemo 0) 146 s ∧ (s 0).owner 1 = some 0 ∧
    adaptGrid tinyG (advDemo 0) 146 (tinyCart.geo tinyM).lengths (fun _ _ => 0) defaultId (fun i => if i = 0 then [1] else [])
      (fun _ => []) (fun _ => []) s = .ok t ∧ Idle tinyG (advDemo 0) 146 t ∧ (t j).owner 3 = some j ∧
    access (t j) 3 = some ⟨1, 0, (tinyCart.geo tinyM).lengths 3, fun _ => 0⟩ ∧
    adaptGrid tinyG (advDemo 0) 146 (tinyCart.geo tinyM).lengths (fun _ _ => 0) defaultId (fun _ => []) (fun _ => [])
      (fun i => if i = j then [3] else []) t = .ok t' ∧ exist (t' 0).owner 1 = true ∧ exist (t' 0).owner 3 = false := by
  obtain ⟨s, t, t', j, a1, a2, a3, -, -, -, a4, -, a5, a6, a7, a8, a9⟩ := tiny_adapted
  exact ⟨s, t, t', j, tiny_wf, by decide, by rw [tiny_last]; exact Nat.le_refl _, a1, a3, a4, a2, a5, a6, a7, a8, a9⟩

/-- Hypotheses of `C121_copies` are met. -/
example : ∃ (s t : Sys 2 AdvCell Nat), Idle tinyG (advDemo 0) 146 s ∧
    adaptGrid tinyG (advDemo 0) 146 (tinyCart.geo tinyM).lengths (fun _ _ => 0) defaultId (fun _ => []) (fun _ => [])
      (fun _ => []) s = .ok t ∧ (t 0).owner 1 = some 0 ∧ (t 0).owner 2 = some 1 ∧ NbrOf tinyG (t 0) defaultId 1 2 := by
  obtain ⟨s, h1, h2, h3⟩ := advDemo_start (n := 2) (by omega)
  have hm : tinyG.last ≤ 146 := by rw [tiny_last]; exact Nat.le_refl _
  have h0 : tinyG.maxLvl ≠ 0 := by decide
  obtain ⟨t, e1, e2, e0, E, e3, e4, e5, s1, res, -, e6, e7, e8, -⟩ := adaptGrid_holds (id := defaultId) tiny_wf (by omega) hm h1 h2 h0
    (fun i => by rw [hoodFor, if_pos rfl]; rfl) (tinyCart.geo tinyM).lengths (fun _ _ => 0) (fun _ => []) (fun _ => []) (fun _ => [])
  have hl : ∀ (i : Fin 2) (c : Nat), c ∈ ([] : List Nat) ∨ c ∈ ([] : List Nat) ∨ c ∈ ([] : List Nat) → (s i).owner c = some i := by
    rintro i c (h | h | h) <;> cases h
  have same : ∀ c, c = 1 ∨ c = 2 → (t 0).owner c = (createLevel0 2 2).2 c := by
    intro c hc
    have hx : exist (s 0).owner c = true := by
      rw [h3]; exact (createLevel0_exist (by omega)).2 (by omega)
    have h4 := C121_cells tiny_wf (by omega) hm h1 h0 hl e1 0 hx
    have h5 := (C27_owners tiny_wf e8 e6 0 (by rw [(e7 0).2]; exact hx)).2.2
    rw [(e7 0).1, (e7 0).2, h3] at h5
    refine h5 (fun h => ?_) (fun h => ?_)
    · have h := h4.1.1 h
      have : ∀ x, ¬ Forced tinyG (exist (s 0).owner) (requested (n := 2) (fun _ => []) (fun _ => []) (fun _ => [])) x := by
        intro x hx
        induction hx with
        | base h _ _ => obtain ⟨_, h⟩ := h; cases h
        | step _ _ _ _ _ ih => exact ih
      exact this _ h
    · obtain ⟨-, ⟨_, -, _, h⟩, -⟩ := h4.2.1 h
      cases h
  have o1 : (t 0).owner 1 = some 0 := by rw [same 1 (Or.inl rfl)]; decide
  have o2 : (t 0).owner 2 = some 1 := by rw [same 2 (Or.inr rfl)]; decide
  refine ⟨s, t, h1, e1, o1, o2, ?_⟩
  obtain ⟨w, hi⟩ := e2.reachable.inv tiny_wf (by omega)
  rw [hi.sys.owner] at o1 o2
  exact (hi.nbrOf_iff tiny_wf (if_pos rfl) (exist_of o1)).2 ⟨exist_of o2, tiny_linked.1⟩

/-- Hypotheses of `C121_same_results` are met. -/
example : ∃ (s t : Sys 2 AdvCell Nat) (s' t' : Sys 1 AdvCell Nat), Idle tinyG (advDemo 0) 146 s ∧
    Idle tinyG (advDemo 0) 146 s' ∧ SameData s s' ∧ (s 0).owner 1 = some 0 ∧ (s' 0).owner 1 = some 0 ∧
    (∀ c, (∃ i : Fin 2, c ∈ if i = 0 then [1] else []) ↔ ∃ _ : Fin 1, c ∈ [1]) ∧
    adaptGrid tinyG (advDemo 0) 146 (tinyCart.geo tinyM).lengths (fun _ _ => 0) defaultId (fun i => if i = 0 then [1] else [])
      (fun _ => []) (fun _ => []) s = .ok t ∧
    adaptGrid tinyG (advDemo 0) 146 (tinyCart.geo tinyM).lengths (fun _ _ => 0) defaultId (fun _ => [1])
      (fun _ => []) (fun _ => []) s' = .ok t' ∧ exist (t 0).owner 3 = true := by
  obtain ⟨s, t, -, -, a1, a2, a3, -, -, a4, a5, a6, -⟩ := tiny_adapted
  obtain ⟨s', h1, h2, h3⟩ := advDemo_start (n := 1) (by omega)
  obtain ⟨t', e1, -⟩ := adaptGrid_holds (id := defaultId) tiny_wf (by omega) (by rw [tiny_last]; exact Nat.le_refl _) h1 h2 (by decide)
    (fun i => by rw [hoodFor, if_pos rfl]; rfl) (tinyCart.geo tinyM).lengths (fun _ _ => 0) (fun _ => [1])
    (fun _ => []) (fun _ => [])
  refine ⟨s, t, s', t', a1, h1, a4.same h2, a3, by rw [h3]; decide, fun c => ⟨?_, fun ⟨_, h⟩ => ⟨0, h⟩⟩, a5, e1,
    a6 3 (by decide +kernel)⟩
  rintro ⟨i, hi⟩
  split at hi
  · exact ⟨0, hi⟩
  · cases hi

/-- Hypotheses of `C121_conserved` are met. -/
example : ∃ (s : Sys 2 AdvCell Nat), tinyM.OK ∧ (tinyCart.geo tinyM).Consistent tinyM ∧
    (tinyM.grid (v3 false false true) 1).last ≤ 146 ∧ Idle (tinyM.grid (v3 false false true) 1) (advDemo 0) 146 s ∧
    volumeOf (tinyCart.geo tinyM).lengths 1 = 3 / 2 := by
  obtain ⟨s, -, -, -, a, -⟩ := tiny_adapted
  exact ⟨s, tinyM_ok, C44_cartesian_consistent tinyM_ok tinyCart_ok,
    by rw [tinyM_grid, tiny_last]; exact Nat.le_refl _, by rw [tinyM_grid]; exact a, by decide +kernel⟩

end Dccrg
