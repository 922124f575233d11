import Verif.Handles
/-!
# Which objects of MPI exist after functions of dccrg
-/
namespace Dccrg
open Mpi

/-- Objects that exist: datatypes `A`, requests of unfinished communication `P`, open files `F`. Datatypes `C` have been committed. -/
structure Mpi.Has (h : Mpi) (A C P F : Nat → Prop) : Prop where
  alive : ∀ k, h.alive k = true ↔ A k
  types : ∀ k, A k → k < h.types
  committed : ∀ k, C k → k < h.types ∧ h.committed k = true
  pending : ∀ k, h.pending k = true ↔ P k
  reqs : ∀ k, P k → k < h.reqs
  opened : ∀ k, h.opened k = true ↔ F k
  files : ∀ k, F k → k < h.files

/-- A program returns, and its result and objects after it satisfy `Q`. -/
def Use.Ends {α : Type} (m : Use α) (h : Mpi) (Q : α → Mpi → Prop) : Prop := ∃ a h', m h = .ok (a, h') ∧ Q a h'

theorem Use.Ends.bind {α β : Type} {m : Use α} {f : α → Use β} {h : Mpi} {Q : α → Mpi → Prop} {R : β → Mpi → Prop}
    (h1 : m.Ends h Q) (h2 : ∀ a h', Q a h' → (f a).Ends h' R) : (m >>= f).Ends h R := by
  obtain ⟨a, h', e1, q⟩ := h1
  obtain ⟨b, h'', e2, r⟩ := h2 a h' q
  refine ⟨b, h'', ?_, r⟩
  show (match m h with
    | .ok (a, h') => f a h'
    | .throws => .throws
    | .hangs => .hangs
    | .undef => .undef) = _
  rw [e1]
  exact e2

theorem Use.Ends.pure {α : Type} {a : α} {h : Mpi} {Q : α → Mpi → Prop} (q : Q a h) : (Pure.pure a : Use α).Ends h Q := ⟨a, h, rfl, q⟩

theorem Use.Ends.mono {α : Type} {m : Use α} {h : Mpi} {Q R : α → Mpi → Prop} (h1 : m.Ends h Q) (h2 : ∀ a h', Q a h' → R a h') :
    m.Ends h R := by
  obtain ⟨a, h', e, q⟩ := h1
  exact ⟨a, h', e, h2 a h' q⟩

variable {A C P F : Nat → Prop} {h h' : Mpi}

theorem Mpi.Has.congr {A' P' F' : Nat → Prop} (hh : h.Has A C P F) (h1 : ∀ k, A k ↔ A' k) (h2 : ∀ k, P k ↔ P' k) (h3 : ∀ k, F k ↔ F' k) :
    h.Has A' C P' F' :=
  ⟨fun k => (hh.alive k).trans (h1 k), fun k hk => hh.types k ((h1 k).2 hk), hh.committed, fun k => (hh.pending k).trans (h2 k),
    fun k hk => hh.reqs k ((h2 k).2 hk), fun k => (hh.opened k).trans (h3 k), fun k hk => hh.files k ((h3 k).2 hk)⟩

/-- Number of a datatype that isn't named. -/
def Dtype.handles : Dtype → List Nat
  | .named => []
  | .derived k => [k]

/-- A datatype that exists. -/
def Dtype.In (A : Nat → Prop) (t : Dtype) : Prop := ∀ k ∈ t.handles, A k

theorem Mpi.Has.valid (hh : h.Has A C P F) {t : Dtype} (ht : t.In A) : h.valid t = true := by
  cases t with
  | named => rfl
  | derived k => exact (hh.alive k).2 (ht k (List.mem_singleton.2 rfl))

/-! ## Functions of MPI -/

theorem isNamed_ends (hh : h.Has A C P F) {t : Dtype} (ht : t.In A) :
    (isNamed t).Ends h fun b h' => h' = h ∧ (b = true ↔ t = .named) := by
  refine ⟨_, _, if_pos (hh.valid ht), rfl, ?_⟩
  cases t <;> simp

theorem typeSize_ends (hh : h.Has A C P F) {t : Dtype} (ht : t.In A) : (typeSize t).Ends h fun _ h' => h' = h :=
  ⟨_, _, if_pos (hh.valid ht), rfl⟩

theorem Mpi.Has.less {C' : Nat → Prop} (hh : h.Has A C' P F) (hc : ∀ k, C k → C' k) : h.Has A C P F :=
  ⟨hh.alive, hh.types, fun k hk => hh.committed k (hc k hk), hh.pending, hh.reqs, hh.opened, hh.files⟩

theorem Mpi.Has.ready (hh : h.Has A C P F) {t : Dtype} (ha : t.In A) (hc : t.In C) : h.ready t = true := by
  cases t with
  | named => rfl
  | derived k =>
    show (h.alive k && h.committed k) = true
    rw [(hh.alive k).2 (ha k (List.mem_singleton.2 rfl)), (hh.committed k (hc k (List.mem_singleton.2 rfl))).2]
    rfl

theorem commit_ends (hh : h.Has A C P F) {t : Dtype} (ht : t.In A) :
    (commit t).Ends h fun _ h' => h'.Has A (fun x => C x ∨ x ∈ t.handles) P F := by
  cases t with
  | named => exact ⟨_, _, rfl, hh.less fun k hk => hk.resolve_right fun h => by cases h⟩
  | derived k =>
    have hk := ht k (List.mem_singleton.2 rfl)
    refine ⟨_, _, if_pos ((hh.alive k).2 hk), ⟨hh.alive, hh.types, fun x hx => ?_, hh.pending, hh.reqs, hh.opened, hh.files⟩⟩
    show x < h.types ∧ (if x = k then true else h.committed x) = true
    rcases hx with hx | hx
    · refine ⟨(hh.committed x hx).1, ?_⟩
      rw [(hh.committed x hx).2]; split <;> rfl
    · rw [List.mem_singleton.1 hx, if_pos rfl]
      exact ⟨hh.types k hk, rfl⟩

theorem create_ends (hh : h.Has A C P F) {ts : List Dtype} (ht : ∀ t ∈ ts, t.In A) :
    (create ts).Ends h fun t h' => ∃ k, t = .derived k ∧ ¬ A k ∧ h'.Has (fun x => A x ∨ x = k) C P F := by
  refine ⟨_, _, if_pos (List.all_eq_true.2 fun t hx => hh.valid (ht t hx)), h.types, rfl, fun hk => ?_, ⟨fun k => ?_, ?_,
    fun k hk => ?_, hh.pending, hh.reqs, hh.opened, hh.files⟩⟩
  · exact Nat.lt_irrefl _ (hh.types _ hk)
  · show (if k = h.types then true else h.alive k) = true ↔ _
    split
    · rename_i e; exact ⟨fun _ => Or.inr e, fun _ => rfl⟩
    · rename_i e; rw [hh.alive]; exact ⟨Or.inl, fun h => h.resolve_right e⟩
  · rintro k (hk | rfl)
    · exact Nat.lt_succ_of_lt (hh.types k hk)
    · exact Nat.lt_succ_self _
  · have := hh.committed k hk
    refine ⟨Nat.lt_succ_of_lt this.1, ?_⟩
    show (if k = h.types then false else h.committed k) = true
    rw [if_neg (by omega)]
    exact this.2

theorem freeType_ends (hh : h.Has A C P F) {k : Nat} (hk : A k) :
    (freeType (.derived k)).Ends h fun _ h' => h'.Has (fun x => A x ∧ x ≠ k) C P F := by
  refine ⟨_, _, if_pos ((hh.alive k).2 hk), ⟨fun x => ?_, fun x hx => hh.types x hx.1, hh.committed, hh.pending, hh.reqs, hh.opened, hh.files⟩⟩
  show (if x = k then false else h.alive x) = true ↔ _
  split
  · rename_i e; exact ⟨fun h => (by cases h), fun h => absurd e h.2⟩
  · rename_i e; rw [hh.alive]; exact ⟨fun h => ⟨h, e⟩, fun h => h.1⟩

theorem post_ends (hh : h.Has A C P F) {t : Dtype} (ht : h.ready t = true) :
    (post t).Ends h fun q h' => ¬ P q ∧ h'.Has A C (fun x => P x ∨ x = q) F := by
  refine ⟨_, _, if_pos ht, fun hk => Nat.lt_irrefl _ (hh.reqs _ hk), ⟨hh.alive, hh.types, hh.committed, fun k => ?_, ?_, hh.opened, hh.files⟩⟩
  · show (if k = h.reqs then true else h.pending k) = true ↔ _
    split
    · rename_i e; exact ⟨fun _ => Or.inr e, fun _ => rfl⟩
    · rename_i e; rw [hh.pending]; exact ⟨Or.inl, fun h => h.resolve_right e⟩
  · rintro k (hk | rfl)
    · exact Nat.lt_succ_of_lt (hh.reqs k hk)
    · exact Nat.lt_succ_self _

theorem waitAll_ends (hh : h.Has A C P F) {l : List Nat} (hl : ∀ q ∈ l, P q) :
    (waitAll l).Ends h fun _ h' => h'.Has A C (fun x => P x ∧ x ∉ l) F := by
  refine ⟨_, _, if_pos (List.all_eq_true.2 fun q hq => (hh.pending q).2 (hl q hq)), ⟨hh.alive, hh.types, hh.committed, fun x => ?_,
    fun x hx => hh.reqs x hx.1, hh.opened, hh.files⟩⟩
  show (if x ∈ l then false else h.pending x) = true ↔ _
  split
  · rename_i e; exact ⟨fun h => (by cases h), fun h => absurd e h.2⟩
  · rename_i e; rw [hh.pending]; exact ⟨fun h => ⟨h, e⟩, fun h => h.1⟩

theorem openFile_ends (hh : h.Has A C P F) : openFile.Ends h fun f h' => ¬ F f ∧ h'.Has A C P fun x => F x ∨ x = f := by
  refine ⟨_, _, rfl, fun hk => Nat.lt_irrefl _ (hh.files _ hk), ⟨hh.alive, hh.types, hh.committed, hh.pending, hh.reqs, fun k => ?_, ?_⟩⟩
  · show (if k = h.files then true else h.opened k) = true ↔ _
    split
    · rename_i e; exact ⟨fun _ => Or.inr e, fun _ => rfl⟩
    · rename_i e; rw [hh.opened]; exact ⟨Or.inl, fun h => h.resolve_right e⟩
  · rintro k (hk | rfl)
    · exact Nat.lt_succ_of_lt (hh.files k hk)
    · exact Nat.lt_succ_self _

theorem fileWith_ends (hh : h.Has A C P F) {f : Nat} {t : Dtype} (hf : F f) (ht : h.ready t = true) :
    (fileWith f t).Ends h fun _ h' => h' = h := by
  refine ⟨_, _, if_pos ?_, rfl⟩
  rw [(hh.opened f).2 hf, ht]; rfl

theorem closeFile_ends (hh : h.Has A C P F) {f : Nat} (hf : F f) :
    (closeFile f).Ends h fun _ h' => h'.Has A C P fun x => F x ∧ x ≠ f := by
  refine ⟨_, _, if_pos ((hh.opened f).2 hf), ⟨hh.alive, hh.types, hh.committed, hh.pending, hh.reqs, fun x => ?_, fun x hx => hh.files x hx.1⟩⟩
  show (if x = f then false else h.opened x) = true ↔ _
  split
  · rename_i e; exact ⟨fun h => (by cases h), fun h => absurd e h.2⟩
  · rename_i e; rw [hh.opened]; exact ⟨fun h => ⟨h, e⟩, fun h => h.1⟩

/-! ## Datatypes of cells -/

/-- A reply that isn't a datatype made earlier. -/
def Reply.Own : Reply → Prop
  | .kept _ => False
  | _ => True

/-- How many datatypes are made. -/
def Reply.made : Reply → Nat
  | .fresh _ => 1
  | _ => 0

theorem ask_ends (hh : h.Has A C P F) {r : Reply} (hr : r.Own) :
    (ask r).Ends h fun t h' => (∀ k ∈ t.handles, ¬ A k) ∧ t.handles.Nodup ∧ t.handles.length = r.made ∧
      h'.Has (fun x => A x ∨ x ∈ t.handles) C P F := by
  cases r with
  | named =>
    exact .pure ⟨fun k hk => (by cases hk), List.nodup_nil, rfl, hh.congr (fun k => ⟨Or.inl, fun h => h.resolve_right (fun h => by cases h)⟩)
      (fun _ => Iff.rfl) fun _ => Iff.rfl⟩
  | kept k => exact hr.elim
  | fresh b =>
    refine (create_ends hh (ts := []) (fun t ht => by cases ht)).bind fun t h1 ⟨k, e, hk, h2⟩ => ?_
    subst e
    have h3 : h1.Has (fun x => A x ∨ x ∈ (Dtype.derived k).handles) C P F :=
      h2.congr (fun x => or_congr Iff.rfl List.mem_singleton.symm) (fun _ => Iff.rfl) fun _ => Iff.rfl
    have hq : (∀ x ∈ (Dtype.derived k).handles, ¬ A x) ∧ (Dtype.derived k).handles.Nodup ∧
        (Dtype.derived k).handles.length = (Reply.fresh b).made :=
      ⟨fun x hx => (by rw [List.mem_singleton.1 hx]; exact hk), (by simp [Dtype.handles]), rfl⟩
    cases b with
    | false => exact .pure ⟨hq.1, hq.2.1, hq.2.2, h3⟩
    | true =>
      exact (commit_ends h3 (t := .derived k) (fun x hx => Or.inr hx)).bind fun _ h4 h5 =>
        .pure ⟨hq.1, hq.2.1, hq.2.2, h5.less fun _ => Or.inl⟩

/-- Datatypes `ts` are new ones. -/
structure News (A : Nat → Prop) (ts : List Dtype) (m : Nat) : Prop where
  new : ∀ k ∈ ts.flatMap Dtype.handles, ¬ A k
  nodup : (ts.flatMap Dtype.handles).Nodup
  length : (ts.flatMap Dtype.handles).length = m

theorem forAll_new {α : Type} {f : α → Use Dtype} {m : α → Nat} {l : List α} {B : Nat → Prop} (hl : ∀ a ∈ l, ∀ (A : Nat → Prop) (h : Mpi),
      (∀ k, B k → A k) → h.Has A C P F →
      (f a).Ends h fun t h' => (∀ k ∈ t.handles, ¬ A k) ∧ t.handles.Nodup ∧ t.handles.length = m a ∧
        h'.Has (fun x => A x ∨ x ∈ t.handles) C P F) :
    ∀ {A : Nat → Prop} {h : Mpi}, (∀ k, B k → A k) → h.Has A C P F → (forAll f l).Ends h fun ts h' => News A ts (l.map m).sum ∧ ts.length = l.length ∧
      h'.Has (fun x => A x ∨ x ∈ ts.flatMap Dtype.handles) C P F := by
  induction l with
  | nil =>
    intro A h _ hh
    exact .pure ⟨⟨fun k hk => (by cases hk), List.nodup_nil, rfl⟩, rfl, hh.congr (fun k => ⟨Or.inl, fun h => h.resolve_right (fun h => by cases h)⟩)
      (fun _ => Iff.rfl) fun _ => Iff.rfl⟩
  | cons a l ih =>
    intro A h hB hh
    refine (hl a (List.mem_cons_self ..) A h hB hh).bind fun t h1 ⟨q1, q2, q3, q4⟩ => ?_
    refine (ih (fun b hb => hl b (List.mem_cons_of_mem _ hb)) (fun k hk => Or.inl (hB k hk)) q4).bind fun ts h2 ⟨r1, r3, r2⟩ => .pure ⟨⟨?_, ?_, ?_⟩, ?_, ?_⟩
    · intro k hk
      rw [List.flatMap_cons, List.mem_append] at hk
      rcases hk with hk | hk
      · exact q1 k hk
      · exact fun h => r1.new k hk (Or.inl h)
    · rw [List.flatMap_cons, List.nodup_append]
      exact ⟨q2, r1.nodup, fun x hx y hy e => r1.new y hy (Or.inr (e ▸ hx))⟩
    · rw [List.flatMap_cons, List.length_append, q3, r1.length]; rfl
    · rw [List.length_cons, List.length_cons, r3]
    · refine r2.congr (fun k => ?_) (fun _ => Iff.rfl) fun _ => Iff.rfl
      rw [List.flatMap_cons, List.mem_append, or_assoc]

theorem asks_end (hh : h.Has A C P F) {rs : List Reply} (hr : ∀ r ∈ rs, r.Own) :
    (forAll ask rs).Ends h fun ts h' => News A ts (rs.map Reply.made).sum ∧ ts.length = rs.length ∧
      h'.Has (fun x => A x ∨ x ∈ ts.flatMap Dtype.handles) C P F :=
  forAll_new (B := fun _ => False) (fun r hr' _ _ _ hh => ask_ends hh (hr r hr')) (fun _ h => h.elim) hh

theorem forAll_same {α β : Type} {f : α → Use β} {l : List α} (hl : ∀ a ∈ l, (f a).Ends h fun _ h' => h' = h) :
    (forAll f l).Ends h fun _ h' => h' = h := by
  induction l with
  | nil => exact .pure rfl
  | cons a l ih =>
    refine (hl a (List.mem_cons_self ..)).bind fun b h1 e => ?_
    subst e
    exact (ih fun b hb => hl b (List.mem_cons_of_mem _ hb)).bind fun _ h2 e => .pure e

theorem freeDerived_ends (hh : h.Has A C P F) {t : Dtype} (ht : t.In A) :
    (freeDerived t).Ends h fun _ h' => h'.Has (fun x => A x ∧ x ∉ t.handles) C P F := by
  refine (isNamed_ends hh ht).bind fun b h1 ⟨e, hb⟩ => ?_
  subst e
  cases t with
  | named =>
    rw [hb.2 rfl]
    exact .pure (hh.congr (fun k => ⟨fun h => ⟨h, fun h => by cases h⟩, fun h => h.1⟩) (fun _ => Iff.rfl) fun _ => Iff.rfl)
  | derived k =>
    cases b with
    | true => cases hb.1 rfl
    | false =>
      refine (freeType_ends hh (ht k (List.mem_singleton.2 rfl))).mono fun _ h' hh => hh.congr (fun x => ?_) (fun _ => Iff.rfl) fun _ => Iff.rfl
      exact and_congr Iff.rfl (not_congr List.mem_singleton.symm)

theorem frees_end {ts : List Dtype} : ∀ {A : Nat → Prop} {h : Mpi}, h.Has A C P F → (∀ k ∈ ts.flatMap Dtype.handles, A k) →
    (ts.flatMap Dtype.handles).Nodup →
    (forAll freeDerived ts).Ends h fun _ h' => h'.Has (fun x => A x ∧ x ∉ ts.flatMap Dtype.handles) C P F := by
  induction ts with
  | nil =>
    intro A h hh _ _
    exact .pure (hh.congr (fun k => ⟨fun h => ⟨h, fun h => by cases h⟩, fun h => h.1⟩) (fun _ => Iff.rfl) fun _ => Iff.rfl)
  | cons t ts ih =>
    intro A h hh h1 h2
    rw [List.flatMap_cons, List.nodup_append] at h2
    refine (freeDerived_ends hh (t := t) fun k hk => h1 k (by rw [List.flatMap_cons]; exact List.mem_append_left _ hk)).bind
      fun _ h3 hh3 => ?_
    refine (ih hh3 (fun k hk => ⟨h1 k (by rw [List.flatMap_cons]; exact List.mem_append_right _ hk), fun hx => h2.2.2 k hx k hk rfl⟩)
      h2.2.1).bind fun _ h4 hh4 => .pure (hh4.congr (fun k => ?_) (fun _ => Iff.rfl) fun _ => Iff.rfl)
    rw [List.flatMap_cons, List.mem_append, not_or, and_assoc]

/-- Datatypes that have been made and freed. -/
theorem News.gone {ts : List Dtype} {m : Nat} (hn : News A ts m) (k : Nat) :
    (A k ∨ k ∈ ts.flatMap Dtype.handles) ∧ k ∉ ts.flatMap Dtype.handles ↔ A k :=
  ⟨fun h => h.1.resolve_right h.2, fun h => ⟨Or.inl h, fun hk => hn.new k hk h⟩⟩

theorem fileType_ends (hh : h.Has A C P F) {t : Dtype} (ht : t.In A) :
    (fileType t).Ends h fun f h' => (t = .named → f = .named) ∧ (t ≠ .named → (∀ k ∈ f.handles, ¬ A k) ∧ f.handles.Nodup ∧ f.handles.length = 1) ∧
      h'.Has (fun x => A x ∨ x ∈ f.handles) C P F := by
  refine (isNamed_ends hh ht).bind fun b h1 ⟨e, hb⟩ => ?_
  subst e
  cases b with
  | true =>
    have e := hb.1 rfl
    subst e
    exact .pure ⟨fun _ => rfl, fun h => absurd rfl h, hh.congr (fun k => ⟨Or.inl, fun h => h.resolve_right (fun h => by cases h)⟩)
      (fun _ => Iff.rfl) fun _ => Iff.rfl⟩
  | false =>
    have hn : t ≠ .named := fun e => by cases hb.2 e
    refine (typeSize_ends hh ht).bind fun _ h2 e => ?_
    subst e
    refine (create_ends hh (ts := [.named]) (fun t ht k hk => by rw [List.mem_singleton.1 ht] at hk; cases hk)).mono
      fun t h1 ⟨k, e, hk, h2⟩ => ?_
    subst e
    exact ⟨fun h => absurd h hn, fun _ => ⟨fun x hx => (by rw [List.mem_singleton.1 hx]; exact hk), (by simp [Dtype.handles]), rfl⟩,
      h2.congr (fun x => or_congr Iff.rfl List.mem_singleton.symm) (fun _ => Iff.rfl) fun _ => Iff.rfl⟩

theorem fileTypes_end (hh : h.Has A C P F) {ts : List Dtype} (ht : ∀ t ∈ ts, t.In A) :
    (forAll fileType ts).Ends h fun fts h' => News A fts (ts.flatMap Dtype.handles).length ∧ fts.length = ts.length ∧
      h'.Has (fun x => A x ∨ x ∈ fts.flatMap Dtype.handles) C P F := by
  have := forAll_new (C := C) (P := P) (F := F) (f := fileType) (m := fun t => t.handles.length) (l := ts) (B := A)
    (fun t ht' A' h' hA hh => ((fileType_ends hh (t := t) fun k hk => hA k (ht t ht' k hk)).mono fun f h1 ⟨q1, q2, q3⟩ => by
      cases t with
      | named =>
        have e := q1 rfl
        subst e
        exact ⟨fun k hk => (by cases hk), List.nodup_nil, rfl, q3⟩
      | derived k =>
        obtain ⟨q4, q5, q6⟩ := q2 (fun e => by cases e)
        exact ⟨q4, q5, q6, q3⟩)) (fun _ h => h) hh
  rw [List.length_flatMap]
  exact this

theorem cellsType_ends (hh : h.Has A C P F) {ts : List Dtype} (ht : ∀ t ∈ ts, t.In A) :
    (cellsType ts).Ends h fun t h' => ∃ k, t = .derived k ∧ ¬ A k ∧ h'.Has (fun x => A x ∨ x = k) (fun x => C x ∨ x = k) P F := by
  refine (create_ends hh ht).bind fun t h1 ⟨k, e, hk, h2⟩ => ?_
  subst e
  exact (commit_ends h2 (t := .derived k) (fun x hx => Or.inr (List.mem_singleton.1 hx))).bind fun _ h3 h4 => .pure ⟨k, rfl, hk,
    h4.less fun x hx => hx.imp id (fun e => List.mem_singleton.2 e)⟩

theorem in_flat {A : Nat → Prop} {ts : List Dtype} (h : ∀ k ∈ ts.flatMap Dtype.handles, A k) : ∀ t ∈ ts, t.In A :=
  fun t ht k hk => h k (List.mem_flatMap.2 ⟨t, ht, hk⟩)

end Dccrg
