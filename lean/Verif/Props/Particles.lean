import Verif.Particles
import Verif.Props.VarData
import Verif.Props.Advect
import Verif.Props.NbrOnce
import Verif.LoadBare
/-!
# C129: particles of the particle test
-/
namespace Dccrg
open Cfg
variable {n : Nat} {W X : Type} {g : Cfg} {w : Owner n} {s t : Sys n (VarCell X) W} {dflt : VarCell X} {maxTag : Nat}
  {find : X → Nat} {wrap : X → X} {p q : Proc n (VarCell X) W}

/-! ## Specification -/

/-- Number of particles with property `r` in all cells of the grid: each cell is counted on its process. -/
def particlesWith (g : Cfg) (s : Sys n (VarCell X) W) (r : X → Bool) : Nat :=
  ((List.range (g.last + 1)).map fun c => ((List.finRange n).map fun i =>
    if (s i).owner c = some i then ((access (s i) c).map (·.items.countP r)).getD 0 else 0).sum).sum

/-- Cells that a process has: its own cells and its copies of cells of other processes. -/
def KnowsCell (g : Cfg) (i : Fin n) (p : Proc n (VarCell X) W) (c : Nat) : Prop := p.owner c = some i ∨ RemoteNbr g i p defaultId c

/-- `d` is exactly once in the list returned by `get_neighbors_of(c)`. -/
def ListedOnce (g : Cfg) (p : Proc n (VarCell X) W) (c d : Nat) : Prop :=
  ∃ l z, getNeighborsOf g p c defaultId = some l ∧ ∀ z', (d, z') ∈ l ↔ z' = z

/-! ## Particles of one cell -/

theorem scan_pos {c : Nat} {x y : X} {l : List X} (h : find (wrap x) = c) : scanCell find wrap c (x :: y :: l) =
    (wrap x :: (scanCell find wrap c (y :: l)).1, (scanCell find wrap c (y :: l)).2) := by
  rw [scanCell, if_pos h]

theorem scan_neg {c : Nat} {x y : X} {l : List X} (h : find (wrap x) ≠ c) : scanCell find wrap c (x :: y :: l) =
    (y :: (scanCell find wrap c l).1, wrap x :: (scanCell find wrap c l).2) := by
  rw [scanCell, if_neg h]

theorem scan_stay {c : Nat} {l : List X} (h : ∀ y ∈ l, wrap y = y ∧ find y = c) : scanCell find wrap c l = (l, []) := by
  induction l with
  | nil => rfl
  | cons x l ih =>
    obtain ⟨h1, h2⟩ := h x List.mem_cons_self
    have ih := ih fun y hy => h y (List.mem_cons_of_mem _ hy)
    cases l with
    | nil =>
      unfold scanCell
      rw [h1, if_pos h2]
    | cons y l =>
      unfold scanCell
      rw [h1, if_pos h2, ih]

/-- Particles that have been added to the list of a cell, in which they are, do not matter. -/
theorem scan_append {c : Nat} {l m : List X} (h : ∀ y ∈ m, wrap y = y ∧ find y = c) :
    scanCell find wrap c (l ++ m) = ((scanCell find wrap c l).1 ++ m, (scanCell find wrap c l).2) := by
  fun_induction scanCell find wrap c l with
  | case1 => rw [List.nil_append, scan_stay h]
  | case2 x hx =>
    cases m with
    | nil => simp only [List.append_nil]; unfold scanCell; rw [if_pos hx]
    | cons y m =>
      show scanCell find wrap c (x :: y :: m) = _
      unfold scanCell
      rw [if_pos hx, scan_stay h]
      rfl
  | case3 x hx =>
    cases m with
    | nil => simp only [List.append_nil]; unfold scanCell; rw [if_neg hx]
    | cons y m =>
      show scanCell find wrap c (x :: y :: m) = _
      unfold scanCell
      rw [if_neg hx, scan_stay fun z hz => h z (List.mem_cons_of_mem _ hz)]
      rfl
  | case4 x y l hx ih =>
    have ih : scanCell find wrap c (y :: (l ++ m)) = _ := ih
    show scanCell find wrap c (x :: y :: (l ++ m)) = _
    rw [scan_pos hx, ih]
    rfl
  | case5 x y l hx ih =>
    show scanCell find wrap c (x :: y :: (l ++ m)) = _
    rw [scan_neg hx, ih]
    rfl

theorem scan_sent {c : Nat} {l : List X} : ∀ y ∈ (scanCell find wrap c l).2, ∃ x ∈ l, y = wrap x ∧ find y ≠ c := by
  fun_induction scanCell find wrap c l with
  | case1 => intro y hy; cases hy
  | case2 x hx => intro y hy; cases hy
  | case3 x hx =>
    intro y hy
    rw [List.mem_singleton] at hy
    subst hy
    exact ⟨x, List.mem_cons_self, rfl, hx⟩
  | case4 x y l hx ih =>
    intro z hz
    obtain ⟨a, h1, h2⟩ := ih z hz
    exact ⟨a, List.mem_cons_of_mem _ h1, h2⟩
  | case5 x y l hx ih =>
    intro z hz
    rcases List.mem_cons.1 hz with rfl | hz
    · exact ⟨x, List.mem_cons_self, rfl, hx⟩
    · obtain ⟨a, h1, h2⟩ := ih z hz
      exact ⟨a, List.mem_cons_of_mem _ (List.mem_cons_of_mem _ h1), h2⟩

/-- No particle is lost or multiplied in the list of the cell. -/
theorem scan_count {c : Nat} {l : List X} {r : X → Bool} (h : ∀ x, r (wrap x) = r x) :
    (scanCell find wrap c l).1.countP r + (scanCell find wrap c l).2.countP r = l.countP r := by
  fun_induction scanCell find wrap c l with
  | case1 => rfl
  | case2 x hx => simp [List.countP_cons, h]
  | case3 x hx => simp [List.countP_cons, h]
  | case4 x y l hx ih =>
    dsimp only
    rw [List.countP_cons, List.countP_cons (a := x), ← ih, h]
    omega
  | case5 x y l hx ih =>
    simp only [List.countP_cons, ← ih, h]
    omega

theorem scan_length {c : Nat} {l : List X} : (scanCell find wrap c l).1.length + (scanCell find wrap c l).2.length = l.length := by
  have := scan_count (find := find) (wrap := wrap) (c := c) (l := l) (r := fun _ => true) fun _ => rfl
  simpa using this

/-! ## Writes -/

/-- What loops over cells may change: data and copies of cells of `S`. -/
structure Rewrites (S : Nat → Prop) (p q : Proc n (VarCell X) W) : Prop where
  rest : q = { p with data := q.data, remote := q.remote }
  data : ∀ c, (q.data c).isSome = (p.data c).isSome
  remote : ∀ c, (q.remote c).isSome = (p.remote c).isSome
  only : ∀ c, q.remote c ≠ p.remote c → p.data c = none ∧ S c

theorem Rewrites.refl (S : Nat → Prop) (p : Proc n (VarCell X) W) : Rewrites S p p :=
  ⟨rfl, fun _ => rfl, fun _ => rfl, fun _ h => absurd rfl h⟩

theorem Rewrites.trans {S : Nat → Prop} {r : Proc n (VarCell X) W} (h : Rewrites S p q) (h' : Rewrites S q r) : Rewrites S p r := by
  refine ⟨?_, fun c => (h'.data c).trans (h.data c), fun c => (h'.remote c).trans (h.remote c), fun c hc => ?_⟩
  · rw [h'.rest, h.rest]
  · by_cases e : r.remote c = q.remote c
    · exact h.only c (by rw [← e]; exact hc)
    · obtain ⟨a, b⟩ := h'.only c e
      refine ⟨?_, b⟩
      have := h.data c
      rw [a] at this
      cases hx : p.data c with
      | none => rfl
      | some x => rw [hx] at this; cases this

theorem Rewrites.owner {S : Nat → Prop} (h : Rewrites S p q) : q.owner = p.owner := by rw [h.rest]

/-- A cell that has data or a copy. -/
def Has (p : Proc n (VarCell X) W) (c : Nat) : Prop := (p.data c).isSome = true ∨ (p.remote c).isSome = true

theorem Rewrites.has {S : Nat → Prop} (h : Rewrites S p q) {c : Nat} : Has q c ↔ Has p c := by
  unfold Has
  rw [h.data, h.remote]

theorem write_rewrites {S : Nat → Prop} {c : Nat} (hc : Has p c) (hS : S c) (v : VarCell X) : Rewrites S p (write p c v) := by
  unfold write
  by_cases hd : (p.data c).isSome = true
  · rw [if_pos hd]
    refine ⟨rfl, fun b => ?_, fun _ => rfl, fun b hb => absurd rfl hb⟩
    show (if b = c then some v else p.data b).isSome = _
    split
    · rename_i e; rw [e, hd]; rfl
    · rfl
  · rw [if_neg hd, if_pos (hc.resolve_left hd)]
    refine ⟨rfl, fun _ => rfl, fun b => ?_, fun b hb => ?_⟩
    · show (if b = c then some v else p.remote b).isSome = _
      split
      · rename_i e; rw [e, hc.resolve_left hd]; rfl
      · rfl
    · have hb : (if b = c then some v else p.remote b) ≠ p.remote b := hb
      by_cases e : b = c
      · subst e
        exact ⟨Option.not_isSome_iff_eq_none.1 hd, hS⟩
      · rw [if_neg e] at hb
        exact absurd rfl hb

/-! ## Loops over cells -/

/-- Particles of cells of `S` are given, and their number is right. -/
def HoldsOn (S : Nat → Prop) (p : Proc n (VarCell X) W) (L : Nat → List X) : Prop :=
  ∀ c, S c → access p c = some ⟨(L c).length, L c⟩

theorem addFold {S : Nat → Prop} {L : Nat → List X} {m : Movement X} {l : List CellItem} (hn : (l.map (·.id)).Nodup) (hl : ∀ x ∈ l, S x.id)
    (hS : ∀ c, S c → Has p c) (hL : HoldsOn S p L) :
    ∃ q, Out.fold (fun x => addVelocity m x.id) l p = .ok q ∧ Rewrites S p q ∧
      HoldsOn S q fun c => if c ∈ l.map (·.id) then (L c).map m.add else L c := by
  induction l generalizing p L with
  | nil => exact ⟨p, rfl, .refl S p, by simpa using hL⟩
  | cons x l ih =>
    rw [List.map_cons, List.nodup_cons] at hn
    have hx := hl x List.mem_cons_self
    have r1 := write_rewrites (hS _ hx) hx ⟨(L x.id).length, (L x.id).map m.add⟩
    obtain ⟨q, q1, q2, q3⟩ := ih (p := write p x.id ⟨(L x.id).length, (L x.id).map m.add⟩)
      (L := fun c => if c = x.id then (L c).map m.add else L c) hn.2 (fun y hy => hl y (List.mem_cons_of_mem _ hy))
      (fun c hc => r1.has.2 (hS c hc)) (fun c hc => by
        rw [access_write (hL _ hx)]
        by_cases e : c = x.id
        · subst e; simp
        · rw [if_neg e]; dsimp only; rw [if_neg e]; exact hL c hc)
    refine ⟨q, ?_, r1.trans q2, fun c hc => ?_⟩
    · unfold Out.fold
      have : addVelocity m x.id p = .ok (write p x.id ⟨(L x.id).length, (L x.id).map m.add⟩) := by
        unfold addVelocity
        rw [hL _ hx]
      rw [this]
      exact q1
    · rw [q3 c hc]
      by_cases e : c = x.id
      · subst e
        simp [hn.1]
      · simp [e]

theorem pushes {S : Nat → Prop} {L : Nat → List X} {y : X} {d k : Nat} (hd : k = 0 ∨ S d) (hS : ∀ c, S c → Has p c) (hL : HoldsOn S p L) :
    ∃ q, Out.fold (pushItem y) (List.replicate k d) p = .ok q ∧ Rewrites S p q ∧
      HoldsOn S q fun c => L c ++ if d = c then List.replicate k y else [] := by
  induction k generalizing p L with
  | zero => exact ⟨p, rfl, .refl S p, by simpa using hL⟩
  | succ k ih =>
    have hd : S d := hd.resolve_left (Nat.succ_ne_zero k)
    have r1 := write_rewrites (hS _ hd) hd ⟨(L d).length + 1, L d ++ [y]⟩
    obtain ⟨q, q1, q2, q3⟩ := ih (p := write p d ⟨(L d).length + 1, L d ++ [y]⟩) (L := fun c => L c ++ if d = c then [y] else []) (Or.inr hd)
      (fun c hc => r1.has.2 (hS c hc)) (fun c hc => by
        rw [access_write (hL _ hd)]
        by_cases e : c = d
        · subst e; simp
        · rw [if_neg e]; dsimp only; rw [if_neg (Ne.symm e), List.append_nil]; exact hL c hc)
    refine ⟨q, ?_, r1.trans q2, fun c hc => ?_⟩
    · rw [List.replicate_succ]
      unfold Out.fold
      have : pushItem y d p = .ok (write p d ⟨(L d).length + 1, L d ++ [y]⟩) := by
        unfold pushItem
        rw [hL _ hd]
      rw [this]
      exact q1
    · rw [q3 c hc]
      by_cases e : d = c
      · subst e
        simp only [if_true, List.append_assoc, List.replicate_succ, List.singleton_append]
      · simp only [if_neg e, List.append_nil]

/-- Particles that come to cell `d` from a list of particles that leave a cell, whose neighbors are `l`. -/
def arrive (find : X → Nat) (l : List Nat) (m : List X) (d : Nat) : List X :=
  m.flatMap fun y => if find y = d then List.replicate (l.count d) y else []

theorem pushAll {S : Nat → Prop} {L : Nat → List X} {l : List Nat} {m : List X} (hm : ∀ y ∈ m, l.count (find y) = 0 ∨ S (find y))
    (hS : ∀ c, S c → Has p c) (hL : HoldsOn S p L) :
    ∃ q, Out.fold (fun y => Out.fold (pushItem y) (l.filter (· == find y))) m p = .ok q ∧ Rewrites S p q ∧
      HoldsOn S q fun c => L c ++ arrive find l m c := by
  induction m generalizing p L with
  | nil => exact ⟨p, rfl, .refl S p, by simpa [arrive] using hL⟩
  | cons y m ih =>
    obtain ⟨q, q1, q2, q3⟩ := pushes (y := y) (k := l.count (find y)) (hm y List.mem_cons_self) hS hL
    obtain ⟨r, r1, r2, r3⟩ := ih (p := q) (L := _) (fun z hz => hm z (List.mem_cons_of_mem _ hz)) (fun c hc => q2.has.2 (hS c hc)) q3
    refine ⟨r, ?_, q2.trans r2, fun c hc => ?_⟩
    · unfold Out.fold
      rw [List.filter_beq, q1]
      exact r1
    · rw [r3 c hc]
      have : arrive find l (y :: m) c = (if find y = c then List.replicate (l.count (find y)) y else []) ++ arrive find l m c := by
        unfold arrive
        rw [List.flatMap_cons]
        congr 1
        by_cases e : find y = c
        · rw [if_pos e, if_pos e, e]
        · rw [if_neg e, if_neg e]
      dsimp only
      rw [this]
      simp only [List.append_assoc]

theorem arrive_settled {l : List Nat} {m : List X} {d : Nat} (hw : ∀ x, wrap (wrap x) = wrap x) (hm : ∀ y ∈ m, ∃ x, y = wrap x) :
    ∀ y ∈ arrive find l m d, wrap y = y ∧ find y = d := by
  intro y hy
  unfold arrive at hy
  obtain ⟨z, z1, z2⟩ := List.mem_flatMap.1 hy
  by_cases e : find z = d
  · rw [if_pos e] at z2
    have := (List.mem_replicate.1 z2).2
    subst this
    obtain ⟨x, rfl⟩ := hm y z1
    exact ⟨hw x, e⟩
  · rw [if_neg e] at z2
    cases z2

/-- Neighbors of a cell in ranges of an iterator. -/
def Cache.listed (k : Cache) (x : CellItem) : List Nat := (range k.nbrs x.of).map (·.1)

theorem moveOne {S : Nat → Prop} {m : Movement X} {k : Cache} {x : CellItem} {K A : Nat → List X} {E : Nat → Bool} (hE : exist p.owner = E)
    (hw : ∀ x, m.wrap (m.wrap x) = m.wrap x) (hx : S x.id) (hS : ∀ c, S c → Has p c) (hL : HoldsOn S p fun c => K c ++ A c)
    (hA : ∀ c, ∀ y ∈ A c, m.wrap y = y ∧ m.find E y = c)
    (hm : ∀ y ∈ (scanCell (m.find E) m.wrap x.id (K x.id)).2, (k.listed x).count (m.find E y) = 0 ∨ S (m.find E y)) :
    ∃ q, moveParticles m k x p = .ok q ∧ Rewrites S p q ∧ HoldsOn S q fun c =>
      (if c = x.id then (scanCell (m.find E) m.wrap x.id (K x.id)).1 else K c) ++
      (A c ++ arrive (m.find E) (k.listed x) (scanCell (m.find E) m.wrap x.id (K x.id)).2 c) := by
  subst hE
  let r := scanCell (m.find (exist p.owner)) m.wrap x.id (K x.id)
  have ha := hL _ hx
  have hr := scan_append (find := m.find (exist p.owner)) (wrap := m.wrap) (c := x.id) (l := K x.id) (hA x.id)
  have hc : (if r.2.isEmpty then (K x.id ++ A x.id).length else (r.1 ++ A x.id).length) = (r.1 ++ A x.id).length := by
    by_cases e : r.2 = []
    · have := scan_length (find := m.find (exist p.owner)) (wrap := m.wrap) (c := x.id) (l := K x.id)
      have e' : (scanCell (m.find (exist p.owner)) m.wrap x.id (K x.id)).2 = [] := e
      rw [e', List.length_nil] at this
      rw [e, List.length_append, List.length_append, ← this]
      split <;> rfl
    · have : r.2.isEmpty = false := by rw [List.isEmpty_eq_false_iff]; exact e
      rw [this]
      rfl
  have r1 := write_rewrites (hS _ hx) hx ⟨(r.1 ++ A x.id).length, r.1 ++ A x.id⟩
  obtain ⟨q, q1, q2, q3⟩ := pushAll (find := m.find (exist p.owner)) (l := k.listed x) (m := r.2)
    (p := write p x.id ⟨(r.1 ++ A x.id).length, r.1 ++ A x.id⟩) (L := fun c => (if c = x.id then r.1 else K c) ++ A c) hm
    (fun c hc => r1.has.2 (hS c hc)) (fun c hc => by
      rw [access_write ha]
      by_cases e : c = x.id
      · subst e; simp
      · rw [if_neg e]; dsimp only; rw [if_neg e]; exact hL c hc)
  refine ⟨q, ?_, r1.trans q2, fun c hc => ?_⟩
  · unfold moveParticles
    rw [ha]
    dsimp only
    rw [hr]
    dsimp only
    have hc' := hc
    dsimp only [r] at hc'
    rw [hc']
    exact q1
  · rw [q3 c hc]
    simp only [List.append_assoc]
    rfl

theorem moveAll {S : Nat → Prop} {m : Movement X} {k : Cache} {l : List CellItem} {L K A : Nat → List X} {E : Nat → Bool} (hE : exist p.owner = E)
    (hw : ∀ x, m.wrap (m.wrap x) = m.wrap x) (hn : (l.map (·.id)).Nodup) (hl : ∀ x ∈ l, S x.id) (hK : ∀ x ∈ l, K x.id = L x.id)
    (hS : ∀ c, S c → Has p c) (hL : HoldsOn S p fun c => K c ++ A c)
    (hA : ∀ c, ∀ y ∈ A c, m.wrap y = y ∧ m.find E y = c)
    (hm : ∀ x ∈ l, ∀ y ∈ (scanCell (m.find E) m.wrap x.id (L x.id)).2, (k.listed x).count (m.find E y) = 0 ∨ S (m.find E y)) :
    ∃ q, Out.fold (moveParticles m k) l p = .ok q ∧ Rewrites S p q ∧ HoldsOn S q fun c =>
      (if c ∈ l.map (·.id) then (scanCell (m.find E) m.wrap c (L c)).1 else K c) ++
      (A c ++ l.flatMap fun x => arrive (m.find E) (k.listed x) (scanCell (m.find E) m.wrap x.id (L x.id)).2 c) := by
  induction l generalizing p K A with
  | nil => exact ⟨p, rfl, .refl S p, by simpa using hL⟩
  | cons x l ih =>
    rw [List.map_cons, List.nodup_cons] at hn
    have hx := hl x List.mem_cons_self
    have hKx := hK x List.mem_cons_self
    obtain ⟨q, q1, q2, q3⟩ := moveOne (k := k) hE hw hx hS hL hA (by rw [hKx]; exact hm x List.mem_cons_self)
    rw [hKx] at q3
    obtain ⟨r, r1, r2, r3⟩ := ih (p := q) (by rw [q2.owner]; exact hE) hn.2 (fun y hy => hl y (List.mem_cons_of_mem _ hy))
      (fun y hy => by
        have e : y.id ≠ x.id := fun e => hn.1 (e ▸ List.mem_map_of_mem hy)
        rw [if_neg e]
        exact hK y (List.mem_cons_of_mem _ hy))
      (fun c hc => q2.has.2 (hS c hc)) q3
      (fun c y hy => by
        rcases List.mem_append.1 hy with hy | hy
        · exact hA c y hy
        · refine arrive_settled hw (fun z hz => ?_) y hy
          obtain ⟨a, -, a2, -⟩ := scan_sent z hz
          exact ⟨a, a2⟩)
      (fun y hy => hm y (List.mem_cons_of_mem _ hy))
    refine ⟨r, ?_, q2.trans r2, fun c hc => ?_⟩
    · unfold Out.fold
      rw [q1]
      exact r1
    · rw [r3 c hc]
      by_cases e : c = x.id
      · subst e
        simp [hn.1]
      · simp [e]

/-! ## Sums -/

theorem sum_zero {α : Type} {l : List α} {f : α → Nat} (h : ∀ a ∈ l, f a = 0) : (l.map f).sum = 0 := by
  induction l with
  | nil => rfl
  | cons x l ih => rw [List.map_cons, List.sum_cons, h x List.mem_cons_self, ih fun a ha => h a (List.mem_cons_of_mem _ ha)]

theorem sum_pick {α : Type} [DecidableEq α] {l : List α} (hl : l.Nodup) {a : α} (ha : a ∈ l) (f : α → Nat) :
    (l.map fun x => if a = x then f x else 0).sum = f a := by
  induction l with
  | nil => cases ha
  | cons x l ih =>
    rw [List.nodup_cons] at hl
    rw [List.map_cons, List.sum_cons]
    by_cases e : a = x
    · subst e
      rw [if_pos rfl, sum_zero, Nat.add_zero]
      · intro b hb
        rw [if_neg]
        rintro rfl
        exact hl.1 hb
    · rw [if_neg e, ih hl.2 ((List.mem_cons.1 ha).resolve_left e), Nat.zero_add]

theorem sum_sub {α : Type} [DecidableEq α] {l m : List α} {f : α → Nat} (hl : l.Nodup) (hm : m.Nodup) (h1 : ∀ a ∈ l, a ∈ m)
    (h2 : ∀ a ∈ m, a ∉ l → f a = 0) : (l.map f).sum = (m.map f).sum := by
  have e1 : (l.map f).sum = (l.map fun a => (m.map fun b => if a = b then f b else 0).sum).sum :=
    sum_map_eq fun a ha => (sum_pick hm (h1 a ha) f).symm
  rw [e1, sum_swap]
  refine sum_map_eq fun b hb => ?_
  by_cases hbl : b ∈ l
  · refine Eq.trans (sum_map_eq fun a _ => ?_) (sum_pick hl hbl fun _ => f b)
    by_cases e : a = b
    · rw [if_pos e, if_pos e.symm]
    · rw [if_neg e, if_neg (Ne.symm e)]
  · rw [h2 b hb hbl]
    refine sum_zero fun a _ => ?_
    split <;> rfl

theorem countP_split {N : List Nat} (hN : N.Nodup) {P : Nat → Prop} [DecidablePred P] {m : List X} (hm : ∀ y ∈ m, find y ∈ N ∧ P (find y))
    (r : X → Bool) : (N.map fun d => if P d then (m.filter fun y => find y = d).countP r else 0).sum = m.countP r := by
  induction m with
  | nil => exact sum_zero fun a _ => by simp
  | cons y m ih =>
    rw [List.countP_cons, ← ih fun z hz => hm z (List.mem_cons_of_mem _ hz)]
    obtain ⟨h1, h2⟩ := hm y List.mem_cons_self
    have := sum_pick hN h1 fun d => if P d then (if r y then 1 else 0) else 0
    rw [if_pos h2] at this
    rw [← this, ← sum_map_add]
    refine sum_map_eq fun d _ => ?_
    by_cases hP : P d
    · simp only [if_pos hP]
      by_cases e : find y = d
      · rw [List.filter_cons_of_pos (by simpa using e), List.countP_cons, if_pos e]
      · rw [List.filter_cons_of_neg (by simpa using e), if_neg e, Nat.add_zero]
    · simp only [if_neg hP]
      split <;> rfl

theorem particlesWith_eq {f : Nat → Nat} {r : X → Bool} (ho : ∀ i, (s i).owner = w)
    (h1 : ∀ i c, w c = some i → ((access (s i) c).map (·.items.countP r)).getD 0 = f c) (h2 : ∀ c, w c = none → f c = 0) :
    particlesWith g s r = ((List.range (g.last + 1)).map f).sum := by
  unfold particlesWith
  refine sum_map_eq fun c _ => ?_
  cases hc : w c with
  | none =>
    rw [h2 c hc]
    refine sum_zero fun i _ => ?_
    rw [ho, hc]
    rfl
  | some j =>
    rw [← sum_pick (List.nodup_finRange n) (List.mem_finRange j) fun _ => f c]
    refine sum_map_eq fun i _ => ?_
    rw [ho, hc]
    by_cases e : j = i
    · rw [if_pos (by rw [e]), if_pos e, h1 i c (by rw [hc, e])]
    · rw [if_neg (by rintro ⟨⟩; exact e rfl), if_neg e]

theorem arrive_once {l : List Nat} {m : List X} {d : Nat} (h : ∀ y ∈ m, find y = d → l.count d = 1) :
    arrive find l m d = m.filter fun y => find y = d := by
  unfold arrive
  induction m with
  | nil => rfl
  | cons y m ih =>
    rw [List.flatMap_cons, ih fun z hz => h z (List.mem_cons_of_mem _ hz)]
    by_cases e : find y = d
    · rw [if_pos e, h y List.mem_cons_self e, List.filter_cons_of_pos (by simpa using e)]
      rfl
    · rw [if_neg e, List.filter_cons_of_neg (by simpa using e)]
      rfl

theorem listed_once {k : Cache} {x : CellItem} {d : Nat} (hr : NbrRanges g p defaultId k x) (ho : ListedOnce g p x.id d) :
    (k.listed x).count d = 1 := by
  obtain ⟨l, z, hl, hz⟩ := ho
  unfold Cache.listed
  rw [List.count_eq_countP, List.countP_map, List.countP_eq_length_filter]
  have : ((range k.nbrs x.of).filter ((· == d) ∘ (·.1))).Perm [(d, z)] := by
    rw [List.perm_ext_iff_of_nodup (hr.of.1.filter _) (by simp)]
    intro y
    rw [List.mem_filter, List.mem_singleton, hr.of.2]
    constructor
    · rintro ⟨⟨l', e, h1⟩, h2⟩
      rw [hl] at e
      cases e
      have h2 : y.1 = d := by simpa using h2
      have := (hz y.2).1 (by rw [← h2]; exact h1)
      rw [← h2, ← this]
    · rintro rfl
      exact ⟨⟨l, hl, (hz z).2 rfl⟩, by simp⟩
  exact this.length_eq

theorem scan_kept {c : Nat} {l : List X} : ∀ y ∈ (scanCell find wrap c l).1, find y = c ∨ y ∈ l := by
  fun_induction scanCell find wrap c l with
  | case1 => intro y hy; cases hy
  | case2 x hx =>
    intro y hy
    rw [List.mem_singleton] at hy
    subst hy
    exact .inl hx
  | case3 x hx => intro y hy; cases hy
  | case4 x y l hx ih =>
    intro z hz
    rcases List.mem_cons.1 hz with rfl | hz
    · exact .inl hx
    · exact (ih z hz).imp id fun h => List.mem_cons_of_mem _ h
  | case5 x y l hx ih =>
    intro z hz
    rcases List.mem_cons.1 hz with rfl | hz
    · exact .inr (by simp)
    · exact (ih z hz).imp id fun h => List.mem_cons_of_mem _ (List.mem_cons_of_mem _ h)

/-! ## C129 -/

/-- Particles that leave cell `c`. -/
def sentBy (m : Movement X) (E : Nat → Bool) (L : Nat → List X) (c : Nat) : List X := (scanCell (m.find E) m.wrap c ((L c).map m.add)).2

def keptBy (m : Movement X) (E : Nat → Bool) (L : Nat → List X) (c : Nat) : List X := (scanCell (m.find E) m.wrap c ((L c).map m.add)).1

/-- `propagate_particles` on one process, that has given particles in its cells and copies. -/
theorem propagate_spec (hw : g.WF) (h : Reachable g dflt maxTag s) (hi : Inv g w s) (i : Fin n) (m : Movement X) (L : Nat → List X)
    (hwrap : ∀ x, m.wrap (m.wrap x) = m.wrap x) (hL : HoldsOn (KnowsCell g i (s i)) (s i) L)
    (hgo : ∀ c, KnowsCell g i (s i) c → ∀ y ∈ sentBy m (exist w) L c,
      ListedOnce g (s i) c (m.find (exist w) y) ∧ KnowsCell g i (s i) (m.find (exist w) y)) :
    ∃ q, propagateParticles g m i (s i) = .ok q ∧ Rewrites (KnowsCell g i (s i)) (s i) q ∧
      ∃ l : List Nat, l.Nodup ∧ (∀ c, c ∈ l ↔ KnowsCell g i (s i) c) ∧
        HoldsOn (KnowsCell g i (s i)) q fun d => keptBy m (exist w) L d ++
          l.flatMap fun c => (sentBy m (exist w) L c).filter fun y => m.find (exist w) y = d := by
  have hH : hoodFor g (s i) defaultId = some (hoodOf g) := if_pos rfl
  obtain ⟨k, hk, -, -, -, -, hall, hx⟩ := C38_ranges (id := defaultId) hw h i (by rw [hH]; rfl)
  have hall : Enumerates k k.all (KnowsCell g i (s i)) := hall
  have hmem : ∀ x ∈ range k.cells k.all, KnowsCell g i (s i) x.id := fun x hx => (hall.2 x.id).1 (List.mem_map_of_mem hx)
  have hS : ∀ c, KnowsCell g i (s i) c → Has (s i) c := by
    rintro c (hc | ⟨⟨j, hj, hji⟩, b, hb, hbc⟩)
    · left
      rw [hi.sys.owner] at hc
      exact (hi.sys.placed i c).2 hc
    · right
      apply (h.fresh hw i).copies c
      rw [hi.sys.owner] at hj hb
      rw [remoteBoundary_eq, hi.sys.owner, mem_remoteBoundaryH hw hi.sys.tiled hi.sys.balanced (fun _ h => h) (hi.sys.placed i)]
      refine ⟨⟨j, hj, hji⟩, b, hb, ?_⟩
      rcases hbc with hbc | hbc
      · exact .inl ((hi.nbrOf_iff hw hH (exist_of hb)).1 hbc).2
      · exact .inr ((hi.nbrTo_iff hw hH (exist_of hb)).1 hbc).2
  obtain ⟨q, q1, q2, q3⟩ := addFold (m := m) hall.1 hmem hS hL
  have q3' : HoldsOn (KnowsCell g i (s i)) q fun c => (L c).map m.add ++ [] := by
    intro c hc
    rw [q3 c hc]
    dsimp only
    rw [if_pos ((hall.2 c).2 hc), List.append_nil]
  obtain ⟨r, r1, r2, r3⟩ := moveAll (k := k) (L := fun c => (L c).map m.add) (A := fun _ => []) (E := exist w)
    (by rw [q2.owner, hi.sys.owner]) hwrap hall.1 hmem (fun _ _ => rfl) (fun c hc => q2.has.2 (hS c hc)) q3' (fun _ y hy => by cases hy)
    (fun x hx y hy => .inr (hgo x.id (hmem x hx) y hy).2)
  refine ⟨r, ?_, q2.trans r2, _, hall.1, hall.2, fun d hd => ?_⟩
  · unfold propagateParticles
    rw [hk, Out.bind_ok, q1, Out.bind_ok]
    exact r1
  · rw [r3 d hd]
    have e : ((range k.cells k.all).flatMap fun x => arrive (m.find (exist w)) (k.listed x)
        (scanCell (m.find (exist w)) m.wrap x.id ((L x.id).map m.add)).2 d) =
        ((range k.cells k.all).map (·.id)).flatMap fun c => (sentBy m (exist w) L c).filter fun y => m.find (exist w) y = d := by
      rw [List.flatMap_map]
      rw [List.flatMap_def, List.flatMap_def]
      refine congrArg List.flatten (List.map_congr_left fun x hxm => ?_)
      refine arrive_once fun y hy e => ?_
      rw [← e]
      exact listed_once (hx x hxm).1 (hgo x.id (hmem x hxm) y hy).1
    dsimp only
    rw [e, if_pos ((hall.2 d).2 hd), List.nil_append]
    rfl

/-- C129: if all cells have the same size, and each particle that leaves its cell moves to a cell that is exactly once in the list of neighbors
of its cell and which every process has that has a copy of its cell, then no particle is lost or multiplied by a step, whatever are the processes
of cells. Every particle is then in the list of the cell in which it is or stays in the list in which it was. -/
theorem C129_conserved_partial (hw : g.WF) (hn : 0 < n) (h : Reachable g dflt maxTag s) (hc : Counted s) (e : X) (m : Movement X)
    (hwrap : ∀ x, m.wrap (m.wrap x) = m.wrap x)
    (hlvl : ∀ i a b, exist (s i).owner a = true → exist (s i).owner b = true → g.lvl a = g.lvl b)
    (hgo : ∀ i c a x, (s i).owner c = some i → access (s i) c = some a → x ∈ a.items →
      m.find (exist (s i).owner) (m.wrap (m.add x)) ≠ c → ∀ j, KnowsCell g j (s j) c →
      ListedOnce g (s j) c (m.find (exist (s i).owner) (m.wrap (m.add x))) ∧
      KnowsCell g j (s j) (m.find (exist (s i).owner) (m.wrap (m.add x)))) :
    ∃ t, particleStep g maxTag e m s = .ok t ∧ Reachable g dflt maxTag t ∧ (∀ i, (t i).owner = (s i).owner) ∧
      (∀ r : X → Bool, (∀ x, r (m.add x) = r x) → (∀ x, r (m.wrap x) = r x) → particlesWith g t r = particlesWith g s r) ∧
      ∀ i c b, (s i).owner c = some i → access (t i) c = some b → b.count = b.items.length ∧
        ∀ y ∈ b.items, m.find (exist (s i).owner) y = c ∨ ∃ a x, access (s i) c = some a ∧ x ∈ a.items ∧ y = m.add x := by
  obtain ⟨w, hi⟩ := h.inv hw hn
  have hH : ∀ i, hoodFor g (s i) defaultId = some (hoodOf g) := fun i => if_pos rfl
  obtain ⟨u, u1, u2, u3, u4⟩ := C123_copies hw hn h hc e
  have ho : ∀ i, (u i).owner = w := fun i => by rw [u3]; exact hi.sys.owner i
  have hiu : Inv g w u := by
    obtain ⟨w', hi'⟩ := u2.inv hw hn
    have : w' = w := (hi'.sys.owner ⟨0, hn⟩).symm.trans (ho _)
    rw [← this]; exact hi'
  have hkn : ∀ i c, KnowsCell g i (u i) c ↔ KnowsCell g i (s i) c := fun i c => by rw [u3]; exact Iff.rfl
  have hls : ∀ i c d, ListedOnce g (s i) c d → ListedOnce g (u i) c d := fun i c d h => by rw [u3]; exact h
  -- particles of cells on their processes
  let L : Nat → List X := fun c => match w c with
    | none => []
    | some i => ((access (s i) c).map (·.items)).getD []
  have hown : ∀ i c, w c = some i → access (s i) c = some ⟨(L c).length, L c⟩ := by
    intro i c hwc
    obtain ⟨e1, e2⟩ := hi.access_own hwc
    cases hx : access (s i) c with
    | none => rw [hx] at e1; exact absurd e1.symm e2
    | some a =>
      have hLc : L c = a.items := by
        dsimp only [L]
        rw [hwc]
        dsimp only
        rw [hx]
        rfl
      have := (hc i c a (by rw [hi.sys.owner]; exact hwc) hx).1
      rw [hLc, ← this]
  have hnone : ∀ c, w c = none → L c = [] := by
    intro c hwc
    dsimp only [L]
    rw [hwc]
  have hL : ∀ i, HoldsOn (KnowsCell g i (u i)) (u i) L := by
    rintro i c (hci | ⟨⟨j, hj, hji⟩, b, hb, hbc⟩)
    · rw [ho] at hci
      rw [← hown i c hci, (hi.access_own hci).1, (hiu.access_own hci).1, u3]
    · rw [ho] at hj hb
      have hbc' : NbrOf g (s i) defaultId b c := by
        rw [hi.nbrOf_iff hw (hH i) (exist_of hb)]
        refine ⟨exist_of hj, ?_⟩
        rcases hbc with hbc | hbc
        · exact ((hiu.nbrOf_iff hw (if_pos rfl) (exist_of hb)).1 hbc).2
        · refine linked_symm hw hi.sys.tiled (exist_of hj) (exist_of hb) ?_ ?_ ((hiu.nbrTo_iff hw (if_pos rfl) (exist_of hb)).1 hbc).2
          · have := hlvl i c b
            rw [hi.sys.owner] at this
            exact this (exist_of hj) (exist_of hb)
          · rintro rfl
            rw [hj] at hb
            exact hji (Option.some.inj hb)
      obtain ⟨x, x1, x2⟩ := u4 i j b c (by rw [hi.sys.owner]; exact hb) hbc' (by rw [hi.sys.owner]; exact hj) hji
      rw [x2, ← x1]
      exact hown j c hj
  -- particles that leave cells
  have hsent : ∀ c, ∀ y ∈ sentBy m (exist w) L c, (∃ j, w c = some j) ∧ ∀ i, KnowsCell g i (s i) c →
      ListedOnce g (s i) c (m.find (exist w) y) ∧ KnowsCell g i (s i) (m.find (exist w) y) := by
    intro c y hy
    obtain ⟨x, x1, x2, x3⟩ := scan_sent y hy
    obtain ⟨a, a1, a2⟩ := List.mem_map.1 x1
    cases hwc : w c with
    | none => rw [hnone c hwc] at a1; cases a1
    | some j =>
      refine ⟨⟨j, rfl⟩, fun i hic => ?_⟩
      have := hgo j c _ a (by rw [hi.sys.owner]; exact hwc) (hown j c hwc) a1
      rw [hi.sys.owner, a2, ← x2] at this
      exact this x3 i hic
  have hdest : ∀ c, ∀ y ∈ sentBy m (exist w) L c, (w (m.find (exist w) y)).isSome = true ∧ m.find (exist w) y ≤ g.last ∧
      ∀ i, w (m.find (exist w) y) = some i → KnowsCell g i (u i) c := by
    intro c y hy
    obtain ⟨⟨j, hj⟩, h1⟩ := hsent c y hy
    obtain ⟨⟨l, z, l1, l2⟩, h3⟩ := h1 j (.inl (by rw [hi.sys.owner]; exact hj))
    have hex : ∃ k, w (m.find (exist w) y) = some k := by
      rcases h3 with h3 | ⟨⟨k, h3, -⟩, -⟩
      · rw [hi.sys.owner] at h3; exact ⟨j, h3⟩
      · rw [hi.sys.owner] at h3; exact ⟨k, h3⟩
    obtain ⟨k, hk⟩ := hex
    refine ⟨by rw [hk]; rfl, (hi.sys.tiled.valid _ (exist_of hk)).2, fun i hik => ?_⟩
    by_cases hij : j = i
    · left
      rw [ho, hj, hij]
    · right
      have hlk := ((hi.nbrOf_iff hw (hH j) (exist_of hj)).1 ⟨l, z, l1, (l2 z).2 rfl⟩).2
      exact ⟨⟨j, by rw [ho]; exact hj, hij⟩, _, by rw [ho]; exact hik, .inr ((hiu.nbrTo_iff hw (if_pos rfl) (exist_of hik)).2 ⟨exist_of hj, hlk⟩)⟩
  -- processes
  obtain ⟨t, t1, t2⟩ := Out.collect_all (f := fun i => propagateParticles g m i (u i)) fun i =>
    propagate_spec hw u2 hiu i m L hwrap (hL i) fun c hic y hy => by
      obtain ⟨a, b⟩ := (hsent c y hy).2 i ((hkn i c).1 hic)
      exact ⟨hls i _ _ a, (hkn i _).2 b⟩
  have hot : ∀ i, (t i).owner = w := fun i => by rw [(t2 i).1.owner]; exact ho i
  have hfin : ∀ i d, w d = some i → ∃ l : List Nat, l.Nodup ∧ (∀ c, c ∈ l ↔ KnowsCell g i (u i) c) ∧ ∃ b, access (t i) d = some b ∧
      b.count = b.items.length ∧ b.items = keptBy m (exist w) L d ++
        l.flatMap fun c => (sentBy m (exist w) L c).filter fun y => m.find (exist w) y = d := by
    intro i d hd
    obtain ⟨-, l, l1, l2, l3⟩ := t2 i
    exact ⟨l, l1, l2, _, l3 d (.inl (by rw [ho]; exact hd)), rfl, rfl⟩
  refine ⟨t, ?_, ?_, fun i => by rw [hot, hi.sys.owner], fun r hr1 hr2 => ?_, fun i c b hic hb => ?_⟩
  · unfold particleStep
    rw [u1, Out.bind_ok]
    exact t1
  · have h1 : Reachable g dflt maxTag fun i => { u i with remote := (t i).remote } := by
      refine reachable_remote u2 (fun i => rfl) fun i c hch => ?_
      have hch : (t i).remote c ≠ (u i).remote c := hch
      obtain ⟨a, b⟩ := (t2 i).1.only c hch
      have hs := (t2 i).1.remote c
      refine ⟨a, ?_, ?_⟩
      · rcases b with b | ⟨⟨j, b, -⟩, -⟩ <;> rw [ho] at b <;> exact (hi.sys.tiled.valid _ (exist_of b)).2
      · have : (u i).remote c ≠ none := by
          intro hx
          rw [hx] at hs
          rw [hx] at hch
          exact hch (Option.not_isSome_iff_eq_none.1 (by rw [hs]; simp))
        have hsu := Option.isSome_iff_ne_none.2 this
        exact ⟨hsu, hs.trans hsu⟩
    refine reachable_data hw h1 (fun i => ?_) fun i c => (t2 i).1.data c
    exact (t2 i).1.rest
  · -- numbers of particles
    have hN : (List.range (g.last + 1)).Nodup := List.nodup_range
    let arr (c d : Nat) : Nat := ((sentBy m (exist w) L c).filter fun y => m.find (exist w) y = d).countP r
    have e1 : particlesWith g t r = ((List.range (g.last + 1)).map fun d => (keptBy m (exist w) L d).countP r +
        ((List.range (g.last + 1)).map fun c => if (w d).isSome = true then arr c d else 0).sum).sum := by
      refine particlesWith_eq hot (fun i d hd => ?_) fun d hd => ?_
      · obtain ⟨l, l1, l2, b, b1, -, b3⟩ := hfin i d hd
        rw [b1]
        show b.items.countP r = _
        rw [b3, List.countP_append, List.countP_flatMap]
        congr 1
        rw [hd]
        refine sum_sub (f := fun c => arr c d) l1 hN (fun c hcl => ?_) fun c _ hcl => ?_
        · rw [List.mem_range]
          have : c ≤ g.last := by
            rcases (l2 c).1 hcl with b | ⟨⟨j, b, -⟩, -⟩ <;> rw [ho] at b <;> exact (hi.sys.tiled.valid _ (exist_of b)).2
          omega
        · have : ((sentBy m (exist w) L c).filter fun y => m.find (exist w) y = d) = [] := by
            rw [List.filter_eq_nil_iff]
            intro y hy e
            have e : m.find (exist w) y = d := by simpa using e
            exact hcl ((l2 c).2 ((hdest c y hy).2.2 i (by rw [e]; exact hd)))
          dsimp only [arr]
          rw [this]
          rfl
      · have : keptBy m (exist w) L d = [] := by
          unfold keptBy
          rw [hnone d hd]
          rfl
        rw [this, hd]
        rw [sum_zero fun _ _ => if_neg (by simp)]
        rfl
    have e2 : particlesWith g s r = ((List.range (g.last + 1)).map fun d => (L d).countP r).sum := by
      refine particlesWith_eq hi.sys.owner (fun i d hd => ?_) fun d hd => by rw [hnone d hd]; rfl
      rw [hown i d hd]
      rfl
    rw [e1, e2, sum_map_add, sum_swap, ← sum_map_add]
    refine sum_map_eq fun c _ => ?_
    rw [countP_split (P := fun d => (w d).isSome = true) hN (fun y hy => ?_) r]
    · unfold keptBy sentBy
      rw [scan_count hr2, List.countP_map]
      refine congrArg (fun f => (L c).countP f) (funext fun x => hr1 x)
    · obtain ⟨a, b, -⟩ := hdest c y hy
      exact ⟨List.mem_range.2 (by omega), a⟩
  · rw [hi.sys.owner] at hic ⊢
    obtain ⟨l, -, -, b', b1, b2, b3⟩ := hfin i c hic
    rw [hb] at b1
    cases b1
    refine ⟨b2, fun y hy => ?_⟩
    rw [b3] at hy
    rcases List.mem_append.1 hy with hy | hy
    · refine (scan_kept y hy).imp id fun hy => ?_
      obtain ⟨x, x1, x2⟩ := List.mem_map.1 hy
      exact ⟨_, x, hown i c hic, x1, x2.symm⟩
    · obtain ⟨d, -, hd⟩ := List.mem_flatMap.1 hy
      left
      simpa using (List.mem_filter.1 hd).2

/-- C129: in a grid that is not shorter than neighborhoods of cells it is enough that particles move to neighbors of their cells, which are known to
every process that has a copy of their cell. -/
theorem C129_long_partial (hw : g.WF) (hn : 0 < n) (h : Reachable g dflt maxTag s) (hc : Counted s) (e : X) (m : Movement X)
    (hwrap : ∀ x, m.wrap (m.wrap x) = m.wrap x)
    (hlvl : ∀ i a b, exist (s i).owner a = true → exist (s i).owner b = true → g.lvl a = g.lvl b)
    (hlong : ∀ d, g.periodic d = true → 2 * max g.hood 1 + 1 ≤ g.len d)
    (hgo : ∀ i c a x, (s i).owner c = some i → access (s i) c = some a → x ∈ a.items →
      m.find (exist (s i).owner) (m.wrap (m.add x)) ≠ c → NbrOf g (s i) defaultId c (m.find (exist (s i).owner) (m.wrap (m.add x))) ∧
      ∀ j, KnowsCell g j (s j) c → KnowsCell g j (s j) (m.find (exist (s i).owner) (m.wrap (m.add x)))) :
    ∃ t, particleStep g maxTag e m s = .ok t ∧ Reachable g dflt maxTag t ∧ (∀ i, (t i).owner = (s i).owner) ∧
      (∀ r : X → Bool, (∀ x, r (m.add x) = r x) → (∀ x, r (m.wrap x) = r x) → particlesWith g t r = particlesWith g s r) ∧
      ∀ i c b, (s i).owner c = some i → access (t i) c = some b → b.count = b.items.length ∧
        ∀ y ∈ b.items, m.find (exist (s i).owner) y = c ∨ ∃ a x, access (s i) c = some a ∧ x ∈ a.items ∧ y = m.add x := by
  refine C129_conserved_partial hw hn h hc e m hwrap hlvl fun i c a x hic ha hx hne j hj => ?_
  obtain ⟨w, hi⟩ := h.inv hw hn
  obtain ⟨h1, h2⟩ := hgo i c a x hic ha hx hne
  refine ⟨?_, h2 j hj⟩
  have hex : exist w c = true := exist_of (by rw [← hi.sys.owner i]; exact hic)
  have h3 := (hi.nbrOf_iff hw (if_pos rfl) hex).1 h1
  obtain ⟨l, z, l1, l2⟩ := (hi.nbrOf_iff (i := j) hw (if_pos rfl) hex).2 h3
  refine ⟨l, z, l1, fun z' => ⟨fun hz => ?_, fun hz => hz ▸ l2⟩⟩
  refine (C130_once hw hn h l1 fun d hd => ?_).1 _ _ _ hz l2
  exact Nat.le_trans (hlong d hd) (Nat.le_mul_of_pos_right _ (Nat.pow_pos (by omega)))

/-- C129: with one process it is enough that particles move to neighbors of their cells. -/
theorem C129_alone_partial {s : Sys 1 (VarCell X) W} (hw : g.WF) (h : Reachable g dflt maxTag s) (hc : Counted s) (e : X) (m : Movement X)
    (hwrap : ∀ x, m.wrap (m.wrap x) = m.wrap x)
    (hlvl : ∀ a b, exist (s 0).owner a = true → exist (s 0).owner b = true → g.lvl a = g.lvl b)
    (hlong : ∀ d, g.periodic d = true → 2 * max g.hood 1 + 1 ≤ g.len d)
    (hgo : ∀ c a x, (s 0).owner c = some 0 → access (s 0) c = some a → x ∈ a.items →
      m.find (exist (s 0).owner) (m.wrap (m.add x)) ≠ c → NbrOf g (s 0) defaultId c (m.find (exist (s 0).owner) (m.wrap (m.add x)))) :
    ∃ t, particleStep g maxTag e m s = .ok t ∧ Reachable g dflt maxTag t ∧
      ∀ r : X → Bool, (∀ x, r (m.add x) = r x) → (∀ x, r (m.wrap x) = r x) → particlesWith g t r = particlesWith g s r := by
  obtain ⟨t, t1, t2, -, t3, -⟩ := C129_long_partial hw (by decide) h hc e m hwrap (fun i a b => by rw [show i = 0 by omega]; exact hlvl a b) hlong
    fun i c a x hic ha hx hne => by
      have hi0 : i = 0 := by omega
      subst hi0
      have hnb := hgo c a x hic ha hx hne
      refine ⟨hnb, fun j _ => ?_⟩
      have hj : j = 0 := by omega
      subst hj
      obtain ⟨w, hi⟩ := h.inv hw (by decide)
      have hex : exist w c = true := exist_of (by rw [← hi.sys.owner 0]; exact hic)
      obtain ⟨k, hk⟩ := exist_iff.1 ((hi.nbrOf_iff hw (if_pos rfl) hex).1 hnb).1
      rw [← hi.sys.owner 0] at hk
      left
      rw [show (0 : Fin 1) = k by omega] at hk ⊢
      exact hk
  exact ⟨t, t1, t2, t3⟩

/-! ## Wrong numbers and places of particles -/

/-- A grid after `initialize` with given particles in cells. -/
def startWith (g : Cfg) (n : Nat) (maxTag : Nat) (F : Nat → List X) : Out (Sys n (VarCell X) Nat) :=
  (createGrid g n ⟨0, []⟩ maxTag).bind fun s =>
  .ok fun i => { s i with data := fun c => ((s i).data c).map fun _ => ⟨(F c).length, F c⟩ }

theorem inv_at (hw : g.WF) (hn : 0 < n) (h : Reachable g dflt maxTag t) (ho : ∀ i, (t i).owner = w) : Inv g w t := by
  obtain ⟨w', hi⟩ := h.inv hw hn
  have : w' = w := (hi.sys.owner ⟨0, hn⟩).symm.trans (ho _)
  rw [← this]; exact hi

theorem startWith_spec (hw : g.WF) (hn : 0 < n) {F : Nat → List X} (hF : ∀ c, 3 * (F c).length < 2147483648)
    (hm : g.last ≤ maxTag) : ∃ s : Sys n (VarCell X) Nat, startWith g n maxTag F = .ok s ∧ Reachable g ⟨0, []⟩ maxTag s ∧
      Inv g (createLevel0 n g.total).2 s ∧ Counted s ∧
      ∀ i c, (createLevel0 n g.total).2 c = some i → access (s i) c = some ⟨(F c).length, F c⟩ := by
  obtain ⟨s, h1, hx, -⟩ := createGrid_spec (n := n) (W := Nat) (maxTag := maxTag) hw hn (⟨0, []⟩ : VarCell X)
    (fitsTags_mono hm (fitsTags_last (createLevel0_tiled hw hn).valid))
  have hr : Reachable g (⟨0, []⟩ : VarCell X) maxTag s := .init h1
  have hr' : Reachable g (⟨0, []⟩ : VarCell X) maxTag fun i => { s i with data := fun c => ((s i).data c).map fun _ => ⟨(F c).length, F c⟩ } :=
    reachable_data hw hr (fun i => rfl) fun i c => by
      show (((s i).data c).map fun _ => (⟨(F c).length, F c⟩ : VarCell X)).isSome = _
      rw [Option.isSome_map]
  have hi := inv_at hw hn hr' (w := (createLevel0 n g.total).2) fun i => hx.owner i
  have ha : ∀ i c, (createLevel0 n g.total).2 c = some i →
      access { s i with data := fun c => ((s i).data c).map fun _ => (⟨(F c).length, F c⟩ : VarCell X) } c = some ⟨(F c).length, F c⟩ := by
    intro i c hc
    have hi0 : Inv g (createLevel0 n g.total).2 s := inv_at hw hn hr hx.owner
    obtain ⟨x, e⟩ := Option.ne_none_iff_exists'.1 (hi0.access_own hc).2
    rw [(hi.access_own hc).1]
    show ((s i).data c).map _ = _
    rw [e]
    rfl
  refine ⟨_, ?_, hr', hi, fun i c x hc hxx => ?_, ha⟩
  · unfold startWith
    rw [h1]
    rfl
  · have hc : (s i).owner c = some i := hc
    rw [hx.owner] at hc
    rw [ha i c hc] at hxx
    cases hxx
    exact ⟨rfl, hF c⟩

/-- The grid of the particle test (tests/particles/simple.cpp:223-229). -/
def ringG : Cfg := { len := v3 3 1 1, maxLvl := 0, periodic := v3 true true true, hood := 1 }

theorem ring_wf : ringG.WF := by unfold Cfg.WF; rw [forall_fin3]; decide

/-- The same without periodicity in dimensions with one cell. -/
def rowG : Cfg := { len := v3 3 1 1, maxLvl := 0, periodic := v3 true false false, hood := 1 }

theorem row_wf : rowG.WF := by unfold Cfg.WF; rw [forall_fin3]; decide

/-- Four cells in a row. -/
def fourG : Cfg := { len := v3 4 1 1, maxLvl := 0, periodic := v3 false false false, hood := 1 }

theorem four_wf : fourG.WF := by unfold Cfg.WF; rw [forall_fin3]; decide

/-- Labels of particles and their positions in tenths of length of a cell of level 0, from 0 to 10 in cell 1. -/
def tenths (cells : Int) : Movement (Nat × Int) :=
  { add := fun x => (x.1, x.2 + 1), wrap := fun x => (x.1, x.2 % (10 * cells)), find := fun _ x => (x.2 / 10).toNat + 1 }

/-- C129: in the grid of the particle test a particle that moves to the next cell becomes nine particles, because that cell is nine times in the list
of neighbors. -/
theorem C129_multiplied_false : ∃ s : Sys 1 (VarCell (Nat × Int)) Nat, Reachable ringG ⟨0, []⟩ 3 s ∧ Counted s ∧
    particlesWith ringG s (·.1 == 7) = 1 ∧
    ∃ t, particleStep ringG 3 (0, 0) (tenths 3) s = .ok t ∧ particlesWith ringG t (·.1 == 7) = 9 := by
  obtain ⟨s, s1, s2, -, s3, -⟩ := startWith_spec (n := 1) (maxTag := 3) ring_wf (by decide) (F := fun c => if c = 1 then [(7, (9 : Int))] else [])
    (fun c => by split <;> decide) (by decide)
  have h1 : Out.okAnd (fun s => particlesWith ringG s (·.1 == 7) == 1)
      (startWith ringG 1 3 fun c => if c = 1 then [(7, (9 : Int))] else []) = true := by decide +kernel
  have h2 : Out.okAnd (fun t => particlesWith ringG t (·.1 == 7) == 9)
      ((startWith ringG 1 3 fun c => if c = 1 then [(7, (9 : Int))] else []).bind fun s => particleStep ringG 3 (0, 0) (tenths 3) s) = true := by
    decide +kernel
  rw [s1] at h1 h2
  obtain ⟨t, t1, t2⟩ := Out.okAnd_ok h2
  exact ⟨s, s2, s3, by simpa [Out.okAnd] using h1, t, t1, by simpa using t2⟩

/-- C129: when a particle leaves a cell the next particle in the list of the cell stays in the list although it left the cell. -/
theorem C129_place_false : ∃ s : Sys 1 (VarCell (Nat × Int)) Nat, Reachable rowG ⟨0, []⟩ 3 s ∧ Counted s ∧
    access (s 0) 1 = some ⟨2, [(7, 9), (8, 9)]⟩ ∧
    ∃ t, particleStep rowG 3 (0, 0) (tenths 3) s = .ok t ∧ access (t 0) 1 = some ⟨1, [(8, 10)]⟩ ∧
      (tenths 3).find (exist (t 0).owner) (8, 10) = 2 := by
  obtain ⟨s, s1, s2, -, s3, s4⟩ := startWith_spec (n := 1) (maxTag := 3) row_wf (by decide)
    (F := fun c => if c = 1 then [(7, (9 : Int)), (8, 9)] else []) (fun c => by split <;> decide) (by decide)
  have h2 : Out.okAnd (fun t => ((access (t 0) 1).map fun a => (a.count, a.items)) == some (1, [(8, 10)]))
      ((startWith rowG 1 3 fun c => if c = 1 then [(7, (9 : Int)), (8, 9)] else []).bind fun s => particleStep rowG 3 (0, 0) (tenths 3) s) = true := by
    decide +kernel
  rw [s1] at h2
  obtain ⟨t, t1, t2⟩ := Out.okAnd_ok h2
  refine ⟨s, s2, s3, s4 0 1 (by decide), t, t1, ?_, rfl⟩
  have t2 := eq_of_beq t2
  cases hx : access (t 0) 1 with
  | none => rw [hx] at t2; cases t2
  | some a =>
    rw [hx] at t2
    obtain ⟨c, l⟩ := a
    have t2 : some (c, l) = some (1, [(8, 10)]) := t2
    cases t2
    rfl

/-- C129: behavior is undefined when a particle leaves a cell, of which another process has a copy, to a cell that the other process does not
have. -/
theorem C129_defined_false : ∃ s : Sys 2 (VarCell (Nat × Int)) Nat, Reachable fourG ⟨0, []⟩ 4 s ∧ Counted s ∧
    access (s 1) 3 = some ⟨1, [(7, 29)]⟩ ∧ particleStep fourG 4 (0, 0) (tenths 4) s = .undef := by
  obtain ⟨s, s1, s2, -, s3, s4⟩ := startWith_spec (n := 2) (maxTag := 4) four_wf (by decide)
    (F := fun c => if c = 3 then [(7, (29 : Int))] else []) (fun c => by split <;> decide) (by decide)
  have h2 : (match (startWith fourG 2 4 fun c => if c = 3 then [(7, (29 : Int))] else []).bind fun s => particleStep fourG 4 (0, 0) (tenths 4) s with
      | .undef => true
      | _ => false) = true := by
    decide +kernel
  rw [s1, Out.bind_ok] at h2
  refine ⟨s, s2, s3, s4 1 3 (by decide), ?_⟩
  cases hx : particleStep fourG 4 (0, 0) (tenths 4) s with
  | undef => rfl
  | ok _ => rw [hx] at h2; cases h2
  | throws => rw [hx] at h2; cases h2
  | hangs => rw [hx] at h2; cases h2

/-- Hypotheses of `C129_conserved_partial` and `C129_long_partial` hold for a particle that crosses the periodic boundary of the grid to a cell of another process. -/
example : ∃ s t : Sys 2 (VarCell (Nat × Int)) Nat, Reachable rowG ⟨0, []⟩ 3 s ∧ access (s 1) 3 = some ⟨1, [(7, 29)]⟩ ∧
    particleStep rowG 3 (0, 0) (tenths 3) s = .ok t ∧ access (t 0) 1 = some ⟨1, [(7, 0)]⟩ ∧
    particlesWith rowG t (·.1 == 7) = particlesWith rowG s (·.1 == 7) ∧
    (∀ d, rowG.periodic d = true → 2 * max rowG.hood 1 + 1 ≤ rowG.len d) ∧ NbrOf rowG (s 1) defaultId 3 1 := by
  obtain ⟨s, s1, s2, hi, s3, s4⟩ := startWith_spec (n := 2) (maxTag := 3) row_wf (by decide)
    (F := fun c => if c = 3 then [(7, (29 : Int))] else []) (fun c => by split <;> decide) (by decide)
  have htot : rowG.total = 3 := by decide
  rw [htot] at hi s4
  have hl : Out.okAnd (fun l => l.filter (·.1 == 1) == [(1, v3 1 0 0)]) (findNeighborsOf rowG (exist (createLevel0 2 3).2) 3 (hoodOf rowG)) = true := by
    decide +kernel
  obtain ⟨l, l1, l2⟩ := Out.okAnd_ok hl
  have l2 := eq_of_beq l2
  have hg : ∀ j, getNeighborsOf rowG (s j) 3 defaultId = some l := by
    intro j
    unfold getNeighborsOf
    rw [hi.sys.owner, if_pos (exist_of (i := 1) (by decide)), show hoodFor rowG (s j) defaultId = some (hoodOf rowG) from if_pos rfl]
    simp only [l1]
  have hz : ∀ z, (1, z) ∈ l ↔ z = v3 1 0 0 := by
    intro z
    have : (1, z) ∈ l ↔ (1, z) ∈ l.filter (·.1 == 1) := by simp [List.mem_filter]
    rw [this, l2]
    simp
  obtain ⟨t, t1, -, -, t2, -⟩ := C129_conserved_partial (n := 2) row_wf (by decide) s2 s3 (0, 0) (tenths 3)
    (fun x => by simp [tenths])
    (fun i a b ha hb => by
      rw [hi.sys.owner] at ha hb
      have e : ∀ c, exist (createLevel0 2 3).2 c = true → rowG.lvl c = 0 := fun c hc => by
        have := (hi.sys.tiled.valid c hc).2
        have hlast : rowG.last = 3 := by decide
        rw [hlast] at this
        rcases (by omega : c = 0 ∨ c = 1 ∨ c = 2 ∨ c = 3) with rfl | rfl | rfl | rfl <;> decide
      rw [e a ha, e b hb])
    (fun i c a x hic hca hx hne j hj => by
      rw [hi.sys.owner] at hic
      rw [s4 i c hic] at hca
      cases hca
      by_cases hc3 : c = 3
      · subst hc3
        have hx : x ∈ [(7, (29 : Int))] := hx
        rw [List.mem_singleton] at hx
        subst hx
        show ListedOnce rowG (s j) 3 1 ∧ KnowsCell rowG j (s j) 1
        refine ⟨⟨l, _, hg j, hz⟩, ?_⟩
        by_cases hj0 : j = 0
        · subst hj0
          left
          rw [hi.sys.owner]
          decide
        · have : j = 1 := by omega
          subst this
          right
          refine ⟨⟨0, by rw [hi.sys.owner]; decide, by decide⟩, 3, by rw [hi.sys.owner]; decide, .inl ⟨l, _, hg 1, (hz _).2 rfl⟩⟩
      · have hx : x ∈ (if c = 3 then [(7, (29 : Int))] else []) := hx
        rw [if_neg hc3] at hx
        cases hx)
  refine ⟨s, t, s2, s4 1 3 (by decide), t1, ?_, t2 _ (fun _ => rfl) fun _ => rfl, by rw [forall_fin3]; decide, l, _, hg 1, (hz _).2 rfl⟩
  have h2 : Out.okAnd (fun t => ((access (t 0) 1).map fun a => (a.count, a.items)) == some (1, [(7, 0)]))
      ((startWith rowG 2 3 fun c => if c = 3 then [(7, (29 : Int))] else []).bind fun s => particleStep rowG 3 (0, 0) (tenths 3) s) = true := by
    decide +kernel
  rw [s1, Out.bind_ok, t1] at h2
  have t2 : ((access (t 0) 1).map fun a => (a.count, a.items)) = some (1, [(7, 0)]) := eq_of_beq h2
  cases hx : access (t 0) 1 with
  | none => rw [hx] at t2; cases t2
  | some a =>
    rw [hx] at t2
    obtain ⟨c, l⟩ := a
    have t2 : some (c, l) = some (1, [(7, 0)]) := t2
    cases t2
    rfl

/-- Hypotheses of `C129_alone_partial` hold for a particle that crosses the periodic boundary of the grid. -/
example : ∃ s t : Sys 1 (VarCell (Nat × Int)) Nat, Reachable rowG ⟨0, []⟩ 3 s ∧ access (s 0) 3 = some ⟨1, [(7, 29)]⟩ ∧
    particleStep rowG 3 (0, 0) (tenths 3) s = .ok t ∧ particlesWith rowG t (·.1 == 7) = particlesWith rowG s (·.1 == 7) := by
  obtain ⟨s, s1, s2, hi, s3, s4⟩ := startWith_spec (n := 1) (maxTag := 3) row_wf (by decide)
    (F := fun c => if c = 3 then [(7, (29 : Int))] else []) (fun c => by split <;> decide) (by decide)
  have htot : rowG.total = 3 := by decide
  rw [htot] at hi s4
  have hl : Out.okAnd (fun l => l.any (· == (1, v3 1 0 0))) (findNeighborsOf rowG (exist (createLevel0 1 3).2) 3 (hoodOf rowG)) = true := by
    decide +kernel
  obtain ⟨l, l1, l2⟩ := Out.okAnd_ok hl
  have l3 : (1, v3 1 0 0) ∈ l := by
    obtain ⟨a, a1, a2⟩ := List.any_eq_true.1 l2
    rw [← eq_of_beq a2]
    exact a1
  have hg : getNeighborsOf rowG (s 0) 3 defaultId = some l := by
    unfold getNeighborsOf
    rw [hi.sys.owner, if_pos (exist_of (i := 0) (by decide)), show hoodFor rowG (s 0) defaultId = some (hoodOf rowG) from if_pos rfl]
    simp only [l1]
  obtain ⟨t, t1, -, t2⟩ := C129_alone_partial row_wf s2 s3 (0, 0) (tenths 3)
    (fun x => by simp [tenths])
    (fun a b ha hb => by
      rw [hi.sys.owner] at ha hb
      have e : ∀ c, exist (createLevel0 1 3).2 c = true → rowG.lvl c = 0 := fun c hc => by
        have := (hi.sys.tiled.valid c hc).2
        have hlast : rowG.last = 3 := by decide
        rw [hlast] at this
        rcases (by omega : c = 0 ∨ c = 1 ∨ c = 2 ∨ c = 3) with rfl | rfl | rfl | rfl <;> decide
      rw [e a ha, e b hb])
    (by rw [forall_fin3]; decide)
    (fun c a x hic hca hx hne => by
      rw [hi.sys.owner] at hic
      rw [s4 0 c hic] at hca
      cases hca
      by_cases hc3 : c = 3
      · subst hc3
        have hx : x ∈ [(7, (29 : Int))] := hx
        rw [List.mem_singleton] at hx
        subst hx
        exact ⟨l, _, hg, l3⟩
      · have hx : x ∈ (if c = 3 then [(7, (29 : Int))] else []) := hx
        rw [if_neg hc3] at hx
        cases hx)
  exact ⟨s, t, s2, s4 0 3 (by decide), t1, t2 _ (fun _ => rfl) fun _ => rfl⟩

end Dccrg
