import Verif.HandlesSpec
/-!
# C110: datatypes, requests and files of MPI

dccrg never uses an object of MPI that doesn't exist, commits datatypes before they are used for communication, and frees what it
gets from users and makes itself, with two exceptions.
-/
namespace Dccrg
open Mpi
variable {A C P F U : Nat → Prop} {h h' : Mpi}

/-! ## Functions -/

theorem commitDerived_ends (hh : h.Has A C P F) {t : Dtype} (ht : t.In A) {b : Bool} (hb : b = true ↔ t = .named) :
    (Use.pick b (Pure.pure ()) (commit t)).Ends h fun _ h' => h'.Has A (fun x => C x ∨ x ∈ t.handles) P F := by
  cases b with
  | true =>
    have e := hb.1 rfl
    subst e
    exact .pure (hh.less fun k hk => hk.resolve_right fun h => by cases h)
  | false => exact commit_ends hh ht

theorem freeKnown_ends (hh : h.Has A C P F) {t : Dtype} (ht : t.In A) {b : Bool} (hb : b = true ↔ t = .named) :
    (Use.pick b (Pure.pure ()) (freeType t)).Ends h fun _ h' => h'.Has (fun x => A x ∧ x ∉ t.handles) C P F := by
  cases t with
  | named =>
    rw [hb.2 rfl]
    exact .pure (hh.congr (fun k => ⟨fun h => ⟨h, fun h => by cases h⟩, fun h => h.1⟩) (fun _ => Iff.rfl) fun _ => Iff.rfl)
  | derived k =>
    cases b with
    | true => cases hb.1 rfl
    | false =>
      refine (freeType_ends hh (ht k (List.mem_singleton.2 rfl))).mono fun _ h' hh => hh.congr (fun x => ?_) (fun _ => Iff.rfl) fun _ => Iff.rfl
      exact and_congr Iff.rfl (not_congr List.mem_singleton.symm)

theorem postSingle_ends (hh : h.Has A C P F) {r : Reply} (hr : r.Own) :
    (postSingle r).Ends h fun q h' => ¬ P q ∧ h'.Has A C (fun x => P x ∨ x = q) F := by
  refine (ask_ends hh hr).bind fun t h1 ⟨q1, _, _, q2⟩ => ?_
  have ht : t.In fun x => A x ∨ x ∈ t.handles := fun k hk => Or.inr hk
  refine (isNamed_ends q2 ht).bind fun b h2 ⟨e, hb⟩ => ?_
  subst e
  refine (commitDerived_ends q2 ht hb).bind fun _ h3 h4 => ?_
  refine (post_ends h4 (h4.ready ht fun k hk => Or.inr hk)).bind fun q h5 ⟨hq, h6⟩ => ?_
  refine (freeKnown_ends h6 ht hb).bind fun _ h7 h8 => .pure ⟨hq, ?_⟩
  exact (h8.less fun _ => Or.inl).congr (fun k => ⟨fun h => h.1.resolve_right h.2, fun h => ⟨Or.inl h, fun hk => q1 k hk h⟩⟩) (fun _ => Iff.rfl)
    fun _ => Iff.rfl

theorem postWhole_ends (hh : h.Has A C P F) {rs : List Reply} (hr : ∀ r ∈ rs, r.Own) (hn : rs ≠ []) :
    (postWhole rs).Ends h fun q h' => ¬ P q ∧ h'.Has A C (fun x => P x ∨ x = q) F := by
  have e : rs.isEmpty = false := by cases rs <;> simp_all
  unfold postWhole
  rw [e]
  refine (asks_end hh hr).bind fun ts h1 ⟨n1, _, q1⟩ => ?_
  refine (create_ends q1 (in_flat fun k hk => Or.inr hk)).bind fun d h2 ⟨k, e, hk, q2⟩ => ?_
  subst e
  have hd : (Dtype.derived k).In fun x => (A x ∨ x ∈ ts.flatMap Dtype.handles) ∨ x = k := fun x hx => Or.inr (List.mem_singleton.1 hx)
  refine (commit_ends q2 hd).bind fun _ h3 q3 => ?_
  refine (post_ends q3 (q3.ready hd fun x hx => Or.inr hx)).bind fun q h4 ⟨hq, q4⟩ => ?_
  refine (freeType_ends q4 (Or.inr rfl)).bind fun _ h5 q5 => ?_
  refine (frees_end q5 (fun x hx => ⟨Or.inl (Or.inr hx), fun e => hk (Or.inr (e ▸ hx))⟩) n1.nodup).bind fun _ h6 q6 => .pure ⟨hq, ?_⟩
  refine (q6.less fun _ => Or.inl).congr (fun x => ?_) (fun _ => Iff.rfl) fun _ => Iff.rfl
  constructor
  · rintro ⟨⟨hx | hx, hx'⟩, hy⟩
    · exact hx.resolve_right hy
    · exact absurd hx hx'
  · intro hx
    exact ⟨⟨Or.inl (Or.inl hx), fun e => hk (Or.inl (e ▸ hx))⟩, fun hy => n1.new x hy hx⟩

theorem postSingles_end {rs : List Reply} (hr : ∀ r ∈ rs, r.Own) : ∀ {P : Nat → Prop} {h : Mpi}, h.Has A C P F →
    (forAll postSingle rs).Ends h fun l h' => (∀ q ∈ l, ¬ P q) ∧ h'.Has A C (fun x => P x ∨ x ∈ l) F := by
  induction rs with
  | nil =>
    intro P h hh
    exact .pure ⟨fun q hq => (by cases hq), hh.congr (fun _ => Iff.rfl) (fun k => ⟨Or.inl, fun h => h.resolve_right fun h => by cases h⟩)
      fun _ => Iff.rfl⟩
  | cons r rs ih =>
    intro P h hh
    refine (postSingle_ends hh (hr r (List.mem_cons_self ..))).bind fun q h1 ⟨hq, q1⟩ => ?_
    refine (ih (fun r' hr' => hr r' (List.mem_cons_of_mem _ hr')) q1).bind fun l h2 ⟨hl, q2⟩ => .pure ⟨?_, ?_⟩
    · intro x hx
      rcases List.mem_cons.1 hx with rfl | hx
      · exact hq
      · exact fun h => hl x hx (Or.inl h)
    · refine q2.congr (fun _ => Iff.rfl) (fun x => ?_) fun _ => Iff.rfl
      rw [List.mem_cons, or_assoc]

/-- Requests of different processes are different. -/
def Apart (q : Nat → List Nat) : Prop := ∀ p p' x, x ∈ q p → x ∈ q p' → p = p'

theorem postTo_ends {single : Bool} {l : List (Nat × List Reply)} (hl : ∀ x ∈ l, (∀ r ∈ x.2, r.Own) ∧ (single = false → x.2 ≠ [])) :
    ∀ {P : Nat → Prop} {h : Mpi} {q : Nat → List Nat}, h.Has A C P F → (∀ p x, x ∈ q p → P x) → Apart q →
    (postTo single l q).Ends h fun q' h' => h'.Has A C (fun x => P x ∨ ∃ p, x ∈ q' p) F ∧ Apart q' ∧
      (∀ p x, x ∈ q p → x ∈ q' p) ∧ (∀ p x, x ∈ q' p → x ∈ q p ∨ (¬ P x ∧ p ∈ l.map Prod.fst)) := by
  induction l with
  | nil =>
    intro P h q hh hq ha
    exact .pure ⟨hh.congr (fun _ => Iff.rfl) (fun k => ⟨Or.inl, fun h => h.elim id fun ⟨p, hp⟩ => hq p k hp⟩) fun _ => Iff.rfl, ha,
      fun _ _ h => h, fun _ _ h => Or.inl h⟩
  | cons a l ih =>
    intro P h q hh hq ha
    obtain ⟨p0, rs⟩ := a
    obtain ⟨h1, h2⟩ := hl (p0, rs) (List.mem_cons_self ..)
    have hnew : (Use.pick single (forAll postSingle rs) (do let r ← postWhole rs; Pure.pure [r])).Ends h
        fun l h' => (∀ q ∈ l, ¬ P q) ∧ h'.Has A C (fun x => P x ∨ x ∈ l) F := by
      cases single with
      | true => exact postSingles_end h1 hh
      | false =>
        refine (postWhole_ends hh h1 (h2 rfl)).bind fun r h3 ⟨hr, q3⟩ => .pure ⟨fun x hx => ?_, ?_⟩
        · rw [List.mem_singleton.1 hx]; exact hr
        · exact q3.congr (fun _ => Iff.rfl) (fun x => or_congr Iff.rfl List.mem_singleton.symm) fun _ => Iff.rfl
    refine hnew.bind fun new h3 ⟨n1, n2⟩ => ?_
    have hm : ∀ p x, x ∈ (if p = p0 then q p ++ new else q p) ↔ x ∈ q p ∨ (p = p0 ∧ x ∈ new) := by
      intro p x
      split
      · rename_i e; rw [List.mem_append]; exact or_congr Iff.rfl ⟨fun h => ⟨e, h⟩, fun h => h.2⟩
      · rename_i e; exact ⟨Or.inl, fun h => h.resolve_right fun h => e h.1⟩
    refine (ih (fun x hx => hl x (List.mem_cons_of_mem _ hx)) n2 (q := fun x => if x = p0 then q x ++ new else q x) (fun p x hx => ?_)
      (fun p p' x hx hx' => ?_)).mono fun q' h4 ⟨r1, r2, r3, r4⟩ => ⟨?_, r2, fun p x hx => r3 p x ((hm p x).2 (Or.inl hx)), fun p x hx => ?_⟩
    · rcases (hm p x).1 hx with h | ⟨-, h⟩
      · exact Or.inl (hq p x h)
      · exact Or.inr h
    · rcases (hm p x).1 hx with h | ⟨e, h⟩ <;> rcases (hm p' x).1 hx' with h' | ⟨e', h'⟩
      · exact ha p p' x h h'
      · exact absurd (hq p x h) (n1 x h')
      · exact absurd (hq p' x h') (n1 x h)
      · rw [e, e']
    · refine r1.congr (fun _ => Iff.rfl) (fun x => ?_) fun _ => Iff.rfl
      constructor
      · rintro ((h | h) | h)
        · exact Or.inl h
        · exact Or.inr ⟨p0, r3 p0 x ((hm p0 x).2 (Or.inr ⟨rfl, h⟩))⟩
        · exact Or.inr h
      · exact fun h => h.imp Or.inl id
    · rcases r4 p x hx with h | ⟨h, h'⟩
      · rcases (hm p x).1 h with h | ⟨e, h⟩
        · exact Or.inl h
        · exact Or.inr ⟨n1 x h, by rw [e]; exact List.mem_cons_self ..⟩
      · exact Or.inr ⟨fun hP => h (Or.inl hP), List.mem_cons_of_mem _ h'⟩

theorem waitFor_ends {q : Nat → List Nat} (ha : Apart q) : ∀ {ps : List Nat} {P : Nat → Prop} {h : Mpi}, ps.Nodup → h.Has A C P F →
    (∀ p ∈ ps, ∀ x ∈ q p, P x) → (waitFor ps q).Ends h fun _ h' => h'.Has A C (fun x => P x ∧ ∀ p ∈ ps, x ∉ q p) F := by
  intro ps
  induction ps with
  | nil =>
    intro P h _ hh _
    exact .pure (hh.congr (fun _ => Iff.rfl) (fun k => ⟨fun h => ⟨h, fun p hp => by cases hp⟩, fun h => h.1⟩) fun _ => Iff.rfl)
  | cons p ps ih =>
    intro P h hn hh hq
    rw [List.nodup_cons] at hn
    refine (waitAll_ends hh (hq p (List.mem_cons_self ..))).bind fun _ h1 q1 => ?_
    refine (ih hn.2 q1 fun p' hp' x hx => ⟨hq p' (List.mem_cons_of_mem _ hp') x hx, fun hx' => ?_⟩).mono fun _ h2 q2 =>
      q2.congr (fun _ => Iff.rfl) (fun x => ?_) fun _ => Iff.rfl
    · exact hn.1 (ha p p' x hx' hx ▸ hp')
    · simp only [List.mem_cons, forall_eq_or_imp, and_assoc]

theorem useHeader_ends (hh : h.Has A C P F) {f : Nat} (hf : F f) {r : Reply} (hr : r.Own) :
    (useHeader f r).Ends h fun _ h' => h'.Has A C P F := by
  refine (ask_ends hh hr).bind fun t h1 ⟨q1, _, _, q2⟩ => ?_
  have ht : t.In fun x => A x ∨ x ∈ t.handles := fun k hk => Or.inr hk
  refine (isNamed_ends q2 ht).bind fun b h2 ⟨e, hb⟩ => ?_
  subst e
  refine (commitDerived_ends q2 ht hb).bind fun _ h3 h4 => ?_
  refine (fileWith_ends h4 hf (h4.ready ht fun k hk => Or.inr hk)).bind fun _ h5 e => ?_
  subst e
  refine (typeSize_ends h4 ht).bind fun _ h6 e => ?_
  subst e
  refine (freeDerived_ends h4 ht).mono fun _ h7 h8 => ?_
  exact (h8.less fun _ => Or.inl).congr (fun k => ⟨fun h => h.1.resolve_right h.2, fun h => ⟨Or.inl h, fun hk => q1 k hk h⟩⟩) (fun _ => Iff.rfl)
    fun _ => Iff.rfl

/-- Datatypes of all cells are the named one in a process without cells. -/
theorem someCells_end (hh : h.Has A C P F) {ts : List Dtype} (ht : ∀ t ∈ ts, t.In A) (b : Bool) :
    (Use.pick b (Pure.pure .named) (cellsType ts)).Ends h fun t h' => (∀ k ∈ t.handles, ¬ A k) ∧
      h'.Has (fun x => A x ∨ x ∈ t.handles) (fun x => C x ∨ x ∈ t.handles) P F := by
  cases b with
  | true =>
    exact .pure ⟨fun k hk => (by cases hk), (hh.less fun k hk => hk.resolve_right fun h => by cases h).congr
      (fun k => ⟨Or.inl, fun h => h.resolve_right fun h => by cases h⟩) (fun _ => Iff.rfl) fun _ => Iff.rfl⟩
  | false =>
    refine (cellsType_ends hh ht).mono fun t h1 ⟨k, e, hk, q⟩ => ?_
    subst e
    exact ⟨fun x hx => (by rw [List.mem_singleton.1 hx]; exact hk), (q.less fun x hx => hx.imp id List.mem_singleton.1).congr
      (fun x => or_congr Iff.rfl List.mem_singleton.symm) (fun _ => Iff.rfl) fun _ => Iff.rfl⟩

theorem saveTypes_ends (hh : h.Has A C P F) {root : Bool} {header : Reply} {cells : List Reply} (h1 : root = true → header.Own)
    (h2 : ∀ r ∈ cells, r.Own) : (saveTypes root header cells).Ends h fun _ h' => h'.Has A C P F := by
  refine (openFile_ends hh).bind fun f g0 ⟨hf, q0⟩ => ?_
  have hroot : (Use.pick root (useHeader f header) (Pure.pure ())).Ends g0 fun _ h' => h'.Has A C P fun x => F x ∨ x = f := by
    cases root with
    | true => exact useHeader_ends q0 (Or.inr rfl) (h1 rfl)
    | false => exact .pure q0
  refine hroot.bind fun _ g1 q1 => ?_
  refine (asks_end q1 h2).bind fun ts g2 ⟨n2, _, q2⟩ => ?_
  refine (someCells_end q2 (in_flat fun k hk => Or.inr hk) cells.isEmpty).bind fun mem g3 ⟨n3, q3⟩ => ?_
  refine (fileTypes_end q3 (ts := ts) (in_flat fun k hk => Or.inl (Or.inr hk))).bind fun fts g4 ⟨n4, _, q4⟩ => ?_
  have hfts : ∀ t ∈ fts, t.In fun x => (((A x ∨ x ∈ ts.flatMap Dtype.handles) ∨ x ∈ mem.handles) ∨ x ∈ fts.flatMap Dtype.handles) :=
    in_flat fun k hk => Or.inr hk
  refine (forAll_same (h := g4) (f := fun t => do typeSize t; isNamed t) (l := fts) fun t ht => ?_).bind fun _ g5 e => ?_
  · refine (typeSize_ends q4 (hfts t ht)).bind fun _ g e => ?_
    subst e
    exact (isNamed_ends q4 (hfts t ht)).mono fun _ _ h => h.1
  subst e
  refine (someCells_end q4 hfts cells.isEmpty).bind fun file g6 ⟨n6, q6⟩ => ?_
  refine (fileWith_ends q6 (f := f) (t := file) (Or.inr rfl) (q6.ready (fun k hk => Or.inr hk) fun k hk => Or.inr hk)).bind fun _ g7 e => ?_
  subst e
  have hmem : mem.In fun x => (((A x ∨ x ∈ ts.flatMap Dtype.handles) ∨ x ∈ mem.handles) ∨ x ∈ fts.flatMap Dtype.handles) ∨ x ∈ file.handles :=
    fun k hk => Or.inl (Or.inl (Or.inr hk))
  refine (fileWith_ends q6 (f := f) (t := mem) (Or.inr rfl) (q6.ready hmem fun k hk => Or.inl (Or.inr hk))).bind fun _ g8 e => ?_
  subst e
  refine (freeDerived_ends q6 hmem).bind fun _ g9 q9 => ?_
  refine (freeDerived_ends q9 (t := file) fun k hk => ⟨Or.inr hk, fun hk' => n6 k hk (Or.inl (Or.inr hk'))⟩).bind fun _ g10 q10 => ?_
  refine (frees_end q10 (ts := ts) (fun k hk => ⟨⟨Or.inl (Or.inl (Or.inl (Or.inr hk))), fun hk' => n3 k hk' (Or.inr hk)⟩,
    fun hk' => n6 k hk' (Or.inl (Or.inl (Or.inr hk)))⟩) n2.nodup).bind fun _ g11 q11 => ?_
  refine (frees_end q11 (ts := fts) (fun k hk => ⟨⟨⟨Or.inl (Or.inr hk), fun hk' => n4.new k hk (Or.inr hk')⟩,
    fun hk' => n6 k hk' (Or.inr hk)⟩, fun hk' => n4.new k hk (Or.inl (Or.inr hk'))⟩) n4.nodup).bind fun _ g12 q12 => ?_
  refine (closeFile_ends q12 (Or.inr rfl)).mono fun _ g13 q13 => ?_
  refine (q13.less fun k hk => Or.inl (Or.inl hk)).congr (fun k => ?_) (fun _ => Iff.rfl) fun k => ?_
  · constructor
    · rintro ⟨⟨⟨⟨hk, h3⟩, h4⟩, h5⟩, h6⟩
      exact (((hk.resolve_right h4).resolve_right h6).resolve_right h3).resolve_right h5
    · exact fun hk => ⟨⟨⟨⟨Or.inl (Or.inl (Or.inl (Or.inl hk))), fun h => n3 k h (Or.inl hk)⟩, fun h => n6 k h (Or.inl (Or.inl (Or.inl hk)))⟩,
        fun h => n2.new k h hk⟩, fun h => n4.new k h (Or.inl (Or.inl hk))⟩
  · exact ⟨fun h => h.1.resolve_right h.2, fun h => ⟨Or.inl h, fun e => hf (e ▸ h)⟩⟩

theorem startLoadingTypes_ends (hh : h.Has A C P F) {header : Reply} (h1 : header.Own) :
    (startLoadingTypes header).Ends h fun f h' => ¬ F f ∧ h'.Has A C P fun x => F x ∨ x = f := by
  refine (openFile_ends hh).bind fun f g0 ⟨hf, q0⟩ => ?_
  refine (useHeader_ends q0 (Or.inr rfl) h1).bind fun _ g1 q1 => ?_
  refine (fileWith_ends q1 (t := .named) (Or.inr rfl) rfl).bind fun _ g2 e => ?_
  subst e
  exact .pure ⟨hf, q1⟩

theorem continueLoadingTypes_ends (hh : h.Has A C P F) {f : Nat} (hf : F f) {cells : List Reply} (h2 : ∀ r ∈ cells, r.Own) :
    (continueLoadingTypes f cells).Ends h fun _ h' => ∃ l : List Nat, l.Nodup ∧ l.length = (cells.map Reply.made).sum ∧ (∀ k ∈ l, ¬ A k) ∧
      h'.Has (fun x => A x ∨ x ∈ l) C P F := by
  refine (asks_end hh h2).bind fun ts g2 ⟨n2, _, q2⟩ => ?_
  have hts : ∀ t ∈ ts, t.In fun x => A x ∨ x ∈ ts.flatMap Dtype.handles := in_flat fun k hk => Or.inr hk
  refine (fileTypes_end q2 hts).bind fun fts g3 ⟨n3, _, q3⟩ => ?_
  refine (forAll_same (h := g3) (f := typeSize) (l := ts) fun t ht => typeSize_ends q3 fun k hk => Or.inl (hts t ht k hk)).bind fun _ g5 e => ?_
  subst e
  refine (cellsType_ends q3 (in_flat fun k hk => Or.inr hk)).bind fun file g6 ⟨kf, e, n6, q6⟩ => ?_
  subst e
  refine (fileWith_ends q6 hf (q6.ready (t := .derived kf) (fun k hk => Or.inr (List.mem_singleton.1 hk)) fun k hk =>
    Or.inr (List.mem_singleton.1 hk))).bind fun _ g7 e => ?_
  subst e
  refine (cellsType_ends q6 (ts := ts) fun t ht k hk => Or.inl (Or.inl (hts t ht k hk))).bind fun mem g8 ⟨km, e, n8, q8⟩ => ?_
  subst e
  refine (fileWith_ends q8 hf (q8.ready (t := .derived km) (fun k hk => Or.inr (List.mem_singleton.1 hk)) fun k hk =>
    Or.inr (List.mem_singleton.1 hk))).bind fun _ g9 e => ?_
  subst e
  refine (freeType_ends q8 (Or.inr rfl)).bind fun _ g10 q10 => ?_
  refine (freeType_ends q10 (k := kf) ⟨Or.inl (Or.inr rfl), fun e => n8 (e ▸ Or.inr rfl)⟩).bind fun _ g11 q11 => ?_
  refine (frees_end q11 (ts := ts) (fun k hk => ⟨⟨Or.inl (Or.inl (Or.inl (Or.inr hk))), fun e => n8 (Or.inl (Or.inl (Or.inr (e ▸ hk))))⟩,
    fun e => n6 (Or.inl (Or.inr (e ▸ hk)))⟩) n2.nodup).bind fun _ g12 q12 => .pure ?_
  refine ⟨fts.flatMap Dtype.handles, n3.nodup, n3.length.trans n2.length, fun k hk hA => n3.new k hk (Or.inl hA), ?_⟩
  refine (q12.less fun k hk => Or.inl (Or.inl hk)).congr (fun k => ?_) (fun _ => Iff.rfl) fun _ => Iff.rfl
  constructor
  · rintro ⟨⟨⟨hk, h3⟩, h4⟩, h5⟩
    rcases (hk.resolve_right h3).resolve_right h4 with (hk | hk) | hk
    · exact Or.inl hk
    · exact absurd hk h5
    · exact Or.inr hk
  · rintro (hk | hk)
    · exact ⟨⟨⟨Or.inl (Or.inl (Or.inl (Or.inl hk))), fun e => n8 (Or.inl (Or.inl (Or.inl (e ▸ hk))))⟩,
        fun e => n6 (Or.inl (Or.inl (e ▸ hk)))⟩, fun h => n2.new k h hk⟩
    · exact ⟨⟨⟨Or.inl (Or.inl (Or.inr hk)), fun e => n8 (Or.inl (Or.inr (e ▸ hk)))⟩,
        fun e => n6 (Or.inr (e ▸ hk))⟩, fun h => n3.new k hk (Or.inr h)⟩

/-! ## Specification -/

/-- Objects of MPI are numbered in the order in which they are made. -/
structure Mpi.Numbered (h : Mpi) : Prop where
  types : ∀ k, h.alive k = true → k < h.types
  reqs : ∀ k, h.pending k = true → k < h.reqs
  files : ∀ k, h.opened k = true → k < h.files

/-- Calls that users may make in a run with `procs` processes, in this order, when a file is being loaded or not: cells return named
datatypes or new ones, and lists of cells in messages are not empty unless there is a message for every cell. -/
def Use.Proper (procs : Nat) : Bool → List Use.Call → Prop
  | _, [] => True
  | b, .start single recv send :: l =>
    (∀ x ∈ recv ++ send, x.1 < procs ∧ (∀ r ∈ x.2, r.Own) ∧ (single = false → x.2 ≠ [])) ∧ Use.Proper procs b l
  | b, .waitReceives :: l => Use.Proper procs b l
  | b, .waitSends :: l => Use.Proper procs b l
  | b, .save root header cells :: l => (root = true → header.Own) ∧ (∀ r ∈ cells, r.Own) ∧ Use.Proper procs b l
  | b, .startLoading header accepted :: l => b = false ∧ header.Own ∧ Use.Proper procs accepted l
  | b, .continueLoading cells :: l => b = true ∧ (∀ r ∈ cells, r.Own) ∧ Use.Proper procs b l
  | b, .finishLoading :: l => b = true ∧ Use.Proper procs false l

/-- How many datatypes a call leaves behind: one for every new datatype of a cell that is loaded. -/
def Use.Call.types : Use.Call → Nat
  | .continueLoading cells => (cells.map Reply.made).sum
  | _ => 0

/-- How many files a call leaves open that are not being loaded. -/
def Use.Call.files : Use.Call → Nat
  | .startLoading _ false => 1
  | _ => 0

/-! ## States between calls -/

structure Handles.Keeps (s : Handles) (A U F : Nat → Prop) : Prop where
  mpi : s.mpi.Has A (fun _ => False) (fun x => U x ∨ (∃ p, x ∈ s.recv p) ∨ ∃ p, x ∈ s.send p) fun x => F x ∨ s.file = some x
  recv : Apart s.recv
  send : Apart s.send
  apart : ∀ p p' x, x ∈ s.recv p → x ∉ s.send p'
  recvU : ∀ p x, x ∈ s.recv p → ¬ U x
  sendU : ∀ p x, x ∈ s.send p → ¬ U x
  recvP : ∀ p x, x ∈ s.recv p → p < s.procs
  sendP : ∀ p x, x ∈ s.send p → p < s.procs
  file : ∀ f, s.file = some f → ¬ F f

theorem Handles.Keeps.start {s : Handles} (hs : s.Keeps A U F) {single : Bool} {recv send : List (Nat × List Reply)}
    (hc : ∀ x ∈ recv ++ send, x.1 < s.procs ∧ (∀ r ∈ x.2, r.Own) ∧ (single = false → x.2 ≠ [])) :
    ∃ s', s.step (.start single recv send) = .ok s' ∧ s'.procs = s.procs ∧ s'.file = s.file ∧ s'.Keeps A U F := by
  obtain ⟨r, h1, e1, q1, q2, q3, q4⟩ := postTo_ends (l := recv) (fun x hx => (hc x (List.mem_append_left _ hx)).2) hs.mpi
    (fun p x hx => Or.inr (Or.inl ⟨p, hx⟩)) hs.recv
  obtain ⟨t, h2, e2, t1, t2, t3, t4⟩ := postTo_ends (l := send) (q := s.send) (fun x hx => (hc x (List.mem_append_right _ hx)).2) q1
    (fun p x hx => Or.inl (Or.inr (Or.inr ⟨p, hx⟩))) hs.send
  refine ⟨{ s with recv := r, send := t, mpi := h2 }, ?_, rfl, rfl, ⟨?_, q2, t2, ?_, ?_, ?_, ?_, ?_, hs.file⟩⟩
  · show (match postTo single recv s.recv s.mpi with
      | .ok (r, h) => match postTo single send s.send h with
        | .ok (t, h') => .ok { s with recv := r, send := t, mpi := h' }
        | .throws => .throws | .hangs => .hangs | .undef => .undef
      | .throws => .throws | .hangs => .hangs | .undef => .undef) = Out.ok _
    rw [e1]
    show (match postTo single send s.send h1 with
        | .ok (t, h') => .ok { s with recv := r, send := t, mpi := h' }
        | .throws => .throws | .hangs => .hangs | .undef => .undef) = Out.ok _
    rw [e2]
  · refine t1.congr (fun _ => Iff.rfl) (fun x => ?_) fun _ => Iff.rfl
    constructor
    · rintro (((h | ⟨p, h⟩ | ⟨p, h⟩) | h) | h)
      · exact Or.inl h
      · exact Or.inr (Or.inl ⟨p, q3 p x h⟩)
      · exact Or.inr (Or.inr ⟨p, t3 p x h⟩)
      · exact Or.inr (Or.inl h)
      · exact Or.inr (Or.inr h)
    · rintro (h | h | h)
      · exact Or.inl (Or.inl (Or.inl h))
      · exact Or.inl (Or.inr h)
      · exact Or.inr h
  · intro p p' x hx hx'
    rcases t4 p' x hx' with h | ⟨h, -⟩
    · rcases q4 p x hx with h' | ⟨h', -⟩
      · exact hs.apart p p' x h' h
      · exact h' (Or.inr (Or.inr ⟨p', h⟩))
    · exact h (Or.inr ⟨p, hx⟩)
  · intro p x hx hU
    rcases q4 p x hx with h | ⟨h, -⟩
    · exact hs.recvU p x h hU
    · exact h (Or.inl hU)
  · intro p x hx hU
    rcases t4 p x hx with h | ⟨h, -⟩
    · exact hs.sendU p x h hU
    · exact h (Or.inl (Or.inl hU))
  · intro p x hx
    rcases q4 p x hx with h | ⟨-, h⟩
    · exact hs.recvP p x h
    · obtain ⟨y, hy, e⟩ := List.mem_map.1 h
      exact e ▸ (hc y (List.mem_append_left _ hy)).1
  · intro p x hx
    rcases t4 p x hx with h | ⟨-, h⟩
    · exact hs.sendP p x h
    · obtain ⟨y, hy, e⟩ := List.mem_map.1 h
      exact e ▸ (hc y (List.mem_append_right _ hy)).1

theorem Handles.Keeps.waitReceives {s : Handles} (hs : s.Keeps A U F) :
    ∃ s', s.step .waitReceives = .ok s' ∧ s'.procs = s.procs ∧ s'.file = s.file ∧ s'.Keeps A U F := by
  obtain ⟨u, h1, e1, q1⟩ := waitFor_ends hs.recv (ps := List.range s.procs) List.nodup_range hs.mpi fun p _ x hx => Or.inr (Or.inl ⟨p, hx⟩)
  refine ⟨{ s with recv := fun _ => [], mpi := h1 }, ?_, rfl, rfl, ⟨q1.congr (fun _ => Iff.rfl) (fun x => ?_) fun _ => Iff.rfl,
    fun p p' x hx => (by cases hx), hs.send, fun p p' x hx => (by cases hx), fun p x hx => (by cases hx), hs.sendU, fun p x hx => (by cases hx), hs.sendP,
    hs.file⟩⟩
  · show (match waitFor (List.range s.procs) s.recv s.mpi with
      | .ok (_, h) => .ok { s with recv := fun _ => [], mpi := h }
      | .throws => .throws | .hangs => .hangs | .undef => .undef) = Out.ok _
    rw [e1]
  · constructor
    · rintro ⟨h | ⟨p, h⟩ | h, h'⟩
      · exact Or.inl h
      · exact absurd h (h' p (List.mem_range.2 (hs.recvP p x h)))
      · exact Or.inr (Or.inr h)
    · rintro (h | ⟨p, h⟩ | ⟨p, h⟩)
      · exact ⟨Or.inl h, fun p _ hx => hs.recvU p x hx h⟩
      · cases h
      · exact ⟨Or.inr (Or.inr ⟨p, h⟩), fun p' _ hx => hs.apart p' p x hx h⟩

theorem Handles.Keeps.waitSends {s : Handles} (hs : s.Keeps A U F) :
    ∃ s', s.step .waitSends = .ok s' ∧ s'.procs = s.procs ∧ s'.file = s.file ∧ s'.Keeps A U F := by
  obtain ⟨u, h1, e1, q1⟩ := waitFor_ends hs.send (ps := List.range s.procs) List.nodup_range hs.mpi fun p _ x hx => Or.inr (Or.inr ⟨p, hx⟩)
  refine ⟨{ s with send := fun _ => [], mpi := h1 }, ?_, rfl, rfl, ⟨q1.congr (fun _ => Iff.rfl) (fun x => ?_) fun _ => Iff.rfl,
    hs.recv, fun p p' x hx => (by cases hx), fun p p' x _ hx => (by cases hx), hs.recvU, fun p x hx => (by cases hx), hs.recvP, fun p x hx => (by cases hx),
    hs.file⟩⟩
  · show (match waitFor (List.range s.procs) s.send s.mpi with
      | .ok (_, h) => .ok { s with send := fun _ => [], mpi := h }
      | .throws => .throws | .hangs => .hangs | .undef => .undef) = Out.ok _
    rw [e1]
  · constructor
    · rintro ⟨h | h | ⟨p, h⟩, h'⟩
      · exact Or.inl h
      · exact Or.inr (Or.inl h)
      · exact absurd h (h' p (List.mem_range.2 (hs.sendP p x h)))
    · rintro (h | ⟨p, h⟩ | ⟨p, h⟩)
      · exact ⟨Or.inl h, fun p _ hx => hs.sendU p x hx h⟩
      · exact ⟨Or.inr (Or.inl ⟨p, h⟩), fun p' _ hx => hs.apart p p' x h hx⟩
      · cases h

theorem Handles.Keeps.withMpi {s : Handles} (hs : s.Keeps A U F) {A' : Nat → Prop}
    (h1 : h.Has A' (fun _ => False) (fun x => U x ∨ (∃ p, x ∈ s.recv p) ∨ ∃ p, x ∈ s.send p) fun x => F x ∨ s.file = some x) :
    ({ s with mpi := h } : Handles).Keeps A' U F :=
  ⟨h1, hs.recv, hs.send, hs.apart, hs.recvU, hs.sendU, hs.recvP, hs.sendP, hs.file⟩

theorem Handles.Keeps.save {s : Handles} (hs : s.Keeps A U F) {root : Bool} {header : Reply} {cells : List Reply}
    (h1 : root = true → header.Own) (h2 : ∀ r ∈ cells, r.Own) :
    ∃ s', s.step (.save root header cells) = .ok s' ∧ s'.procs = s.procs ∧ s'.file = s.file ∧ s'.Keeps A U F := by
  obtain ⟨u, h', e1, q1⟩ := saveTypes_ends hs.mpi h1 h2
  refine ⟨{ s with mpi := h' }, ?_, rfl, rfl, hs.withMpi q1⟩
  show (match saveTypes root header cells s.mpi with
    | .ok (_, h) => .ok { s with mpi := h }
    | .throws => .throws | .hangs => .hangs | .undef => .undef) = Out.ok _
  rw [e1]

theorem Handles.Keeps.startLoading {s : Handles} (hs : s.Keeps A U F) (hf : s.file = none) {header : Reply} (h1 : header.Own) (accepted : Bool) :
    ∃ s', s.step (.startLoading header accepted) = .ok s' ∧ s'.procs = s.procs ∧ s'.file.isSome = accepted ∧
      ∃ l : List Nat, l.Nodup ∧ l.length = (if accepted then 0 else 1) ∧ (∀ f ∈ l, ¬ F f) ∧ s'.Keeps A U fun x => F x ∨ x ∈ l := by
  obtain ⟨f, h', e1, n1, q1⟩ := startLoadingTypes_ends hs.mpi h1
  have e : s.step (.startLoading header accepted) = .ok { s with file := if accepted then some f else none, mpi := h' } := by
    show (match startLoadingTypes header s.mpi with
      | .ok (f, h) => .ok { s with file := if accepted then some f else none, mpi := h }
      | .throws => .throws | .hangs => .hangs | .undef => .undef) = Out.ok _
    rw [e1]
  refine ⟨_, e, rfl, by cases accepted <;> rfl, ?_⟩
  cases accepted with
  | true =>
    refine ⟨[], List.nodup_nil, rfl, fun f hf => (by cases hf), ⟨q1.congr (fun _ => Iff.rfl) (fun _ => Iff.rfl) fun x => ?_, hs.recv, hs.send, hs.apart,
      hs.recvU, hs.sendU, hs.recvP, hs.sendP, ?_⟩⟩
    · show (F x ∨ s.file = some x) ∨ x = f ↔ (F x ∨ x ∈ []) ∨ some f = some x
      rw [hf]
      simp [eq_comm]
    · intro g hg
      cases hg
      exact fun h => n1 (Or.inl (h.resolve_right fun h => by cases h))
  | false =>
    refine ⟨[f], by simp, rfl, fun g hg => (by rw [List.mem_singleton.1 hg]; exact fun h => n1 (Or.inl h)),
      ⟨q1.congr (fun _ => Iff.rfl) (fun _ => Iff.rfl) fun x => ?_, hs.recv, hs.send, hs.apart,
      hs.recvU, hs.sendU, hs.recvP, hs.sendP, fun g hg => by cases hg⟩⟩
    show (F x ∨ s.file = some x) ∨ x = f ↔ (F x ∨ x ∈ [f]) ∨ none = some x
    rw [hf]
    simp

theorem Handles.Keeps.continueLoading {s : Handles} (hs : s.Keeps A U F) (hf : s.file.isSome = true) {cells : List Reply}
    (h2 : ∀ r ∈ cells, r.Own) :
    ∃ s', s.step (.continueLoading cells) = .ok s' ∧ s'.procs = s.procs ∧ s'.file = s.file ∧
      ∃ l : List Nat, l.Nodup ∧ l.length = (cells.map Reply.made).sum ∧ (∀ k ∈ l, ¬ A k) ∧ s'.Keeps (fun x => A x ∨ x ∈ l) U F := by
  obtain ⟨f, hf⟩ := Option.isSome_iff_exists.1 hf
  obtain ⟨u, h', e1, l, n1, n2, n3, q1⟩ := continueLoadingTypes_ends hs.mpi (Or.inr hf) h2
  refine ⟨{ s with mpi := h' }, ?_, rfl, rfl, l, n1, n2, n3, hs.withMpi q1⟩
  show (match s.file with
    | none => .undef
    | some f => match continueLoadingTypes f cells s.mpi with
      | .ok (_, h) => .ok { s with mpi := h }
      | .throws => .throws | .hangs => .hangs | .undef => .undef) = Out.ok _
  split
  · rename_i e; rw [hf] at e; cases e
  · rename_i f' e
    rw [hf] at e
    cases e
    rw [e1]

theorem Handles.Keeps.finishLoading {s : Handles} (hs : s.Keeps A U F) (hf : s.file.isSome = true) :
    ∃ s', s.step .finishLoading = .ok s' ∧ s'.procs = s.procs ∧ s'.file = none ∧ s'.Keeps A U F := by
  obtain ⟨f, hf⟩ := Option.isSome_iff_exists.1 hf
  obtain ⟨u, h', e1, q1⟩ := closeFile_ends hs.mpi (Or.inr hf)
  refine ⟨{ s with file := none, mpi := h' }, ?_, rfl, rfl, ⟨q1.congr (fun _ => Iff.rfl) (fun _ => Iff.rfl) fun x => ?_, hs.recv, hs.send, hs.apart,
      hs.recvU, hs.sendU, hs.recvP, hs.sendP, fun g hg => by cases hg⟩⟩
  · show (match s.file with
      | none => .undef
      | some f => match closeFile f s.mpi with
        | .ok (_, h) => .ok { s with file := none, mpi := h }
        | .throws => .throws | .hangs => .hangs | .undef => .undef) = Out.ok _
    rw [hf]
    show (match closeFile f s.mpi with
        | .ok (_, h) => .ok { s with file := none, mpi := h }
        | .throws => .throws | .hangs => .hangs | .undef => .undef) = Out.ok _
    rw [e1]
  · show (F x ∨ s.file = some x) ∧ x ≠ f ↔ F x ∨ none = some x
    rw [hf]
    constructor
    · rintro ⟨h | h, h'⟩
      · exact Or.inl h
      · cases h; exact absurd rfl h'
    · rintro (h | h)
      · exact ⟨Or.inl h, fun e => hs.file f hf (e ▸ h)⟩
      · cases h

/-- New numbers. -/
structure Adds (A : Nat → Prop) (l : List Nat) (n : Nat) : Prop where
  nodup : l.Nodup
  length : l.length = n
  new : ∀ k ∈ l, ¬ A k

theorem Adds.nil : Adds A [] 0 := ⟨List.nodup_nil, rfl, fun k hk => by cases hk⟩

theorem Adds.append {l l' : List Nat} {n n' : Nat} (h : Adds A l n) (h' : Adds (fun x => A x ∨ x ∈ l) l' n') : Adds A (l ++ l') (n + n') := by
  refine ⟨List.nodup_append.2 ⟨h.nodup, h'.nodup, fun a ha b hb e => h'.new b hb (Or.inr (e ▸ ha))⟩, ?_, fun k hk => ?_⟩
  · rw [List.length_append, h.length, h'.length]
  · rcases List.mem_append.1 hk with hk | hk
    · exact h.new k hk
    · exact fun hA => h'.new k hk (Or.inl hA)

theorem Handles.Keeps.congr {s : Handles} {A' F' : Nat → Prop} (hs : s.Keeps A U F) (h1 : ∀ k, A k ↔ A' k) (h2 : ∀ k, F k ↔ F' k) : s.Keeps A' U F' :=
  ⟨hs.mpi.congr h1 (fun _ => Iff.rfl) fun k => or_congr (h2 k) Iff.rfl, hs.recv, hs.send, hs.apart, hs.recvU, hs.sendU, hs.recvP, hs.sendP,
    fun f hf => fun h => hs.file f hf ((h2 f).2 h)⟩

/-- One call. -/
theorem Handles.Keeps.step {s : Handles} (hs : s.Keeps A U F) {c : Use.Call} {rest : List Use.Call} {b : Bool} (hb : s.file.isSome = b)
    (hp : Use.Proper s.procs b (c :: rest)) :
    ∃ s' ts fs, s.step c = .ok s' ∧ s'.procs = s.procs ∧ Use.Proper s'.procs s'.file.isSome rest ∧ Adds A ts c.types ∧ Adds F fs c.files ∧
      s'.Keeps (fun x => A x ∨ x ∈ ts) U fun x => F x ∨ x ∈ fs := by
  have plain : (∃ s', s.step c = .ok s' ∧ s'.procs = s.procs ∧ s'.file = s.file ∧ s'.Keeps A U F) → c.types = 0 → c.files = 0 →
      Use.Proper s.procs b rest → ∃ s' ts fs, s.step c = .ok s' ∧ s'.procs = s.procs ∧ Use.Proper s'.procs s'.file.isSome rest ∧
        Adds A ts c.types ∧ Adds F fs c.files ∧ s'.Keeps (fun x => A x ∨ x ∈ ts) U fun x => F x ∨ x ∈ fs := by
    rintro ⟨s', e, e1, e2, h⟩ h1 h2 h3
    refine ⟨s', [], [], e, e1, by rw [e1, e2, hb]; exact h3, by rw [h1]; exact .nil, by rw [h2]; exact .nil, h.congr ?_ ?_⟩ <;>
      exact fun k => ⟨Or.inl, fun h => h.resolve_right fun h => by cases h⟩
  cases c with
  | start single recv send => exact plain (hs.start hp.1) rfl rfl hp.2
  | waitReceives => exact plain hs.waitReceives rfl rfl hp
  | waitSends => exact plain hs.waitSends rfl rfl hp
  | save root header cells => exact plain (hs.save hp.1 hp.2.1) rfl rfl hp.2.2
  | startLoading header accepted =>
    obtain ⟨h1, h2, h3⟩ := hp
    rw [h1] at hb
    obtain ⟨s', e, e1, e2, l, n1, n2, n3, h⟩ := hs.startLoading (by cases hf : s.file <;> simp_all) h2 accepted
    refine ⟨s', [], l, e, e1, by rw [e1, e2]; exact h3, .nil, ⟨n1, by rw [n2]; cases accepted <;> rfl, n3⟩, h.congr ?_ fun _ => Iff.rfl⟩
    exact fun k => ⟨Or.inl, fun h => h.resolve_right fun h => by cases h⟩
  | continueLoading cells =>
    obtain ⟨h1, h2, h3⟩ := hp
    obtain ⟨s', e, e1, e2, l, n1, n2, n3, h⟩ := hs.continueLoading (hb.trans h1) h2
    refine ⟨s', l, [], e, e1, by rw [e1, e2, hb]; exact h3, ⟨n1, n2, n3⟩, .nil, h.congr (fun _ => Iff.rfl) ?_⟩
    exact fun k => ⟨Or.inl, fun h => h.resolve_right fun h => by cases h⟩
  | finishLoading =>
    obtain ⟨h1, h3⟩ := hp
    obtain ⟨s', e, e1, e2, h⟩ := hs.finishLoading (hb.trans h1)
    refine ⟨s', [], [], e, e1, by rw [e1, e2]; exact h3, .nil, .nil, h.congr ?_ ?_⟩ <;>
      exact fun k => ⟨Or.inl, fun h => h.resolve_right fun h => by cases h⟩

theorem Handles.Keeps.run {calls : List Use.Call} : ∀ {s : Handles} {A F : Nat → Prop}, s.Keeps A U F → Use.Proper s.procs s.file.isSome calls →
    ∃ s' ts fs, s.run calls = .ok s' ∧ Adds A ts (calls.map Use.Call.types).sum ∧ Adds F fs (calls.map Use.Call.files).sum ∧
      s'.Keeps (fun x => A x ∨ x ∈ ts) U fun x => F x ∨ x ∈ fs := by
  induction calls with
  | nil =>
    intro s A F hs _
    refine ⟨s, [], [], rfl, .nil, .nil, hs.congr ?_ ?_⟩ <;>
      exact fun k => ⟨Or.inl, fun h => h.resolve_right fun h => by cases h⟩
  | cons c calls ih =>
    intro s A F hs hp
    obtain ⟨s1, ts, fs, e, -, hp', a1, a2, h1⟩ := hs.step rfl hp
    obtain ⟨s2, ts', fs', e', b1, b2, h2⟩ := ih h1 hp'
    refine ⟨s2, ts ++ ts', fs ++ fs', ?_, by rw [List.map_cons, List.sum_cons]; exact a1.append b1,
      by rw [List.map_cons, List.sum_cons]; exact a2.append b2, h2.congr (fun k => ?_) fun k => ?_⟩
    · show (match s.step c with
        | .ok s' => s'.run calls
        | .throws => .throws | .hangs => .hangs | .undef => .undef) = _
      rw [e]
      exact e'
    · rw [List.mem_append, or_assoc]
    · rw [List.mem_append, or_assoc]

/-- A grid that has not started transfers or loading keeps nothing. -/
theorem Mpi.Numbered.keeps {s : Handles} (h0 : s.mpi.Numbered) (h1 : ∀ p, s.recv p = [] ∧ s.send p = []) (h2 : s.file = none) :
    s.Keeps (s.mpi.alive · = true) (s.mpi.pending · = true) (s.mpi.opened · = true) := by
  have r : ∀ p x, x ∉ s.recv p := fun p x hx => by rw [(h1 p).1] at hx; cases hx
  have t : ∀ p x, x ∉ s.send p := fun p x hx => by rw [(h1 p).2] at hx; cases hx
  refine ⟨⟨fun _ => Iff.rfl, h0.types, fun _ h => h.elim, fun k => ?_, ?_, fun k => ?_, ?_⟩, fun p _ x hx => absurd hx (r p x),
    fun p _ x hx => absurd hx (t p x), fun p _ x hx => absurd hx (r p x), fun p x hx => absurd hx (r p x), fun p x hx => absurd hx (t p x),
    fun p x hx => absurd hx (r p x), fun p x hx => absurd hx (t p x), fun f hf => by rw [h2] at hf; cases hf⟩
  · refine ⟨Or.inl, ?_⟩
    rintro (h | ⟨p, h⟩ | ⟨p, h⟩)
    · exact h
    · exact absurd h (r p k)
    · exact absurd h (t p k)
  · rintro k (h | ⟨p, h⟩ | ⟨p, h⟩)
    · exact h0.reqs k h
    · exact absurd h (r p k)
    · exact absurd h (t p k)
  · rw [h2]
    exact ⟨Or.inl, fun h => h.resolve_right fun h => by cases h⟩
  · rintro k (h | h)
    · exact h0.files k h
    · rw [h2] at h; cases h

/-! ## Theorems -/

/-- C110, as far as it holds. Let a grid have no transfers that aren't finished and no file that is being loaded. Every sequence of
calls returns: no call uses a datatype, a request or a file that doesn't exist any more or a datatype for communication that has not
been committed. Afterwards the datatypes of users and others are as they were before and nothing is left of those of cells and of
dccrg, except one for every new datatype of a cell that has been loaded. Requests that aren't finished are those of others and those
that are stored. Open files are those of others, the one that is being loaded and one for every file that has been refused. -/
theorem C110_calls_partial (s : Handles) (h0 : s.mpi.Numbered) (h1 : ∀ p, s.recv p = [] ∧ s.send p = []) (h2 : s.file = none)
    (calls : List Use.Call) (hc : Use.Proper s.procs false calls) :
    ∃ (s' : Handles) (types files : List Nat), s.run calls = .ok s' ∧
      types.Nodup ∧ types.length = (calls.map Use.Call.types).sum ∧ (∀ k ∈ types, s.mpi.alive k = false) ∧
      (∀ k, s'.mpi.alive k = true ↔ s.mpi.alive k = true ∨ k ∈ types) ∧
      (∀ k, s'.mpi.pending k = true ↔ s.mpi.pending k = true ∨ (∃ p, k ∈ s'.recv p) ∨ ∃ p, k ∈ s'.send p) ∧
      files.Nodup ∧ files.length = (calls.map Use.Call.files).sum ∧ (∀ k ∈ files, s.mpi.opened k = false) ∧
      (∀ k, s'.mpi.opened k = true ↔ (s.mpi.opened k = true ∨ k ∈ files) ∨ s'.file = some k) := by
  obtain ⟨s', ts, fs, e, a1, a2, h⟩ := (h0.keeps h1 h2).run (calls := calls) (by rw [h2]; exact hc)
  exact ⟨s', ts, fs, e, a1.nodup, a1.length, fun k hk => Bool.eq_false_iff.2 (a1.new k hk), h.mpi.alive, h.mpi.pending, a2.nodup, a2.length,
    fun k hk => Bool.eq_false_iff.2 (a2.new k hk), h.mpi.opened⟩

/-- Waiting for receives and sends after any calls. -/
theorem C110_waited (s : Handles) (h0 : s.mpi.Numbered) (h1 : ∀ p, s.recv p = [] ∧ s.send p = []) (h2 : s.file = none)
    (calls : List Use.Call) (hc : Use.Proper s.procs false (calls ++ [.waitReceives, .waitSends])) :
    ∃ s', s.run (calls ++ [.waitReceives, .waitSends]) = .ok s' ∧ ∀ k, s'.mpi.pending k = s.mpi.pending k := by
  obtain ⟨s', ts, fs, e, -, -, -, -, hp, -⟩ := C110_calls_partial s h0 h1 h2 _ hc
  refine ⟨s', e, fun k => Bool.eq_iff_iff.2 ((hp k).trans ⟨?_, Or.inl⟩)⟩
  have last : ∀ (l : List Use.Call) (t : Handles), t.run (l ++ [.waitReceives, .waitSends]) = .ok s' → (∀ p, s'.recv p = [] ∧ s'.send p = []) := by
    intro l
    induction l with
    | nil =>
      intro t ht
      have ht : (match t.step Use.Call.waitReceives with
        | .ok s' => s'.run [Use.Call.waitSends]
        | .throws => .throws | .hangs => .hangs | .undef => .undef) = .ok s' := ht
      match e1 : t.step .waitReceives, ht with
      | .ok t1, ht =>
        have ht : (match t1.step Use.Call.waitSends with
          | .ok s' => s'.run []
          | .throws => .throws | .hangs => .hangs | .undef => .undef) = .ok s' := ht
        match e2 : t1.step .waitSends, ht with
        | .ok t2, ht =>
          have e3 : t2 = s' := Out.ok.inj ht
          subst e3
          have e1 : (match waitFor (List.range t.procs) t.recv t.mpi with
            | .ok (_, h) => .ok { t with recv := fun _ => [], mpi := h }
            | .throws => .throws | .hangs => .hangs | .undef => .undef) = Out.ok t1 := e1
          have e2 : (match waitFor (List.range t1.procs) t1.send t1.mpi with
            | .ok (_, h) => .ok { t1 with send := fun _ => [], mpi := h }
            | .throws => .throws | .hangs => .hangs | .undef => .undef) = Out.ok t2 := e2
          match hw : waitFor (List.range t.procs) t.recv t.mpi, e1 with
          | .ok (_, g), e1 =>
            match hw' : waitFor (List.range t1.procs) t1.send t1.mpi, e2 with
            | .ok (_, g'), e2 =>
              have e1 := Out.ok.inj e1
              have e2 := Out.ok.inj e2
              subst e2
              subst e1
              exact fun p => ⟨rfl, rfl⟩
    | cons c l ih =>
      intro t ht
      have ht : (match t.step c with
        | .ok s' => s'.run (l ++ [Use.Call.waitReceives, Use.Call.waitSends])
        | .throws => .throws | .hangs => .hangs | .undef => .undef) = .ok s' := ht
      match e1 : t.step c, ht with
      | .ok t1, ht => exact ih t1 ht
  rintro (h | ⟨p, h⟩ | ⟨p, h⟩)
  · exact h
  · rw [(last calls s e p).1] at h; cases h
  · rw [(last calls s e p).2] at h; cases h

/-- Calls other than those that load files leave datatypes and open files as they were. -/
theorem C110_unchanged (s : Handles) (h0 : s.mpi.Numbered) (h1 : ∀ p, s.recv p = [] ∧ s.send p = []) (h2 : s.file = none)
    (calls : List Use.Call) (hc : Use.Proper s.procs false calls) (hl : ∀ c ∈ calls, c.types = 0 ∧ c.files = 0) :
    ∃ s', s.run calls = .ok s' ∧ (∀ k, s'.mpi.alive k = s.mpi.alive k) ∧ (∀ k, s'.mpi.opened k = true ↔ s.mpi.opened k = true ∨ s'.file = some k) := by
  obtain ⟨s', ts, fs, e, -, l1, -, a1, -, -, l2, -, a2⟩ := C110_calls_partial s h0 h1 h2 calls hc
  have z : ∀ f : Use.Call → Nat, (∀ c ∈ calls, f c = 0) → (calls.map f).sum = 0 := by
    intro f hf
    clear hc hl e l1 l2
    induction calls with
    | nil => rfl
    | cons c calls ih =>
      rw [List.map_cons, List.sum_cons, hf c (List.mem_cons_self ..), ih fun c hc => hf c (List.mem_cons_of_mem _ hc)]
  rw [z _ fun c hc => (hl c hc).1] at l1
  rw [z _ fun c hc => (hl c hc).2] at l2
  have t1 := List.eq_nil_of_length_eq_zero l1
  have t2 := List.eq_nil_of_length_eq_zero l2
  subst t1
  subst t2
  refine ⟨s', e, fun k => Bool.eq_iff_iff.2 ((a1 k).trans ⟨fun h => h.resolve_right fun h => (by cases h), Or.inl⟩), fun k => (a2 k).trans ?_⟩
  exact or_congr ⟨fun h => h.resolve_right fun h => (by cases h), Or.inl⟩ Iff.rfl

/-! ## Witnesses -/

/-- A process of two in which a user has made one datatype. -/
def tiny_handles : Handles :=
  { procs := 2, recv := fun _ => [], send := fun _ => [], file := none
    mpi := { types := 1, alive := (· == 0), committed := (· == 0), reqs := 0, pending := fun _ => false, files := 0, opened := fun _ => false } }

theorem tiny_handles_numbered : tiny_handles.mpi.Numbered :=
  ⟨fun k hk => by have := beq_iff_eq.1 hk; rw [this]; decide, fun k hk => (by cases hk), fun k hk => (by cases hk)⟩

/-- Two updates of which the second is in one message, a save and a load of two cells. -/
def tiny_uses : List Use.Call :=
  [.start true [(1, [.fresh false, .named])] [(1, [.fresh true])], .waitReceives, .start false [(1, [.named, .fresh false])] [], .waitReceives, .waitSends,
    .save true (.fresh false) [.fresh true, .named], .save false .named [], .startLoading .named false, .startLoading (.fresh false) true,
    .continueLoading [.fresh false, .named], .finishLoading]

theorem tiny_uses_proper : Use.Proper tiny_handles.procs false tiny_uses := by
  simp [tiny_uses, Use.Proper, Reply.Own, tiny_handles]

example : tiny_handles.mpi.Numbered ∧ (∀ p, tiny_handles.recv p = [] ∧ tiny_handles.send p = []) ∧ tiny_handles.file = none ∧
    Use.Proper tiny_handles.procs false tiny_uses ∧ (tiny_uses.map Use.Call.types).sum = 1 ∧ (tiny_uses.map Use.Call.files).sum = 1 :=
  ⟨tiny_handles_numbered, fun _ => ⟨rfl, rfl⟩, rfl, tiny_uses_proper, by decide +kernel, by decide +kernel⟩

/-- Checks the state after calls. -/
def Handles.after (o : Out Handles) (P : Handles → Bool) : Bool :=
  match o with
  | .ok s => P s
  | _ => false

def Handles.undefined (o : Out Handles) : Bool :=
  match o with
  | .undef => true
  | _ => false

theorem Handles.undefined_eq {o : Out Handles} (h : Handles.undefined o = true) : o = .undef := by
  cases o with
  | undef => rfl
  | ok _ => cases h
  | throws => cases h
  | hangs => cases h

/-- C110 is false of the code: a cell whose datatype is new leaves a datatype behind when it has been loaded, and a file that has been
refused stays open. -/
theorem C110_false : ∃ (s s' : Handles) (calls : List Use.Call), s.mpi.Numbered ∧ (∀ p, s.recv p = [] ∧ s.send p = []) ∧ s.file = none ∧
    Use.Proper s.procs false calls ∧ s.run calls = .ok s' ∧ s'.file = none ∧ (∃ k, s.mpi.alive k = false ∧ s'.mpi.alive k = true) ∧
    ∃ k, s.mpi.opened k = false ∧ s'.mpi.opened k = true := by
  have hp : Use.Proper tiny_handles.procs false
      [.startLoading .named false, .startLoading .named true, .continueLoading [.fresh false], .finishLoading] :=
    ⟨rfl, trivial, rfl, trivial, rfl, fun r hr => (by rw [List.mem_singleton.1 hr]; trivial), rfl, trivial⟩
  have h : Handles.after (tiny_handles.run [.startLoading .named false, .startLoading .named true, .continueLoading [.fresh false], .finishLoading])
      (fun s => s.file.isNone && (s.mpi.alive 2 && s.mpi.opened 0)) = true := by decide +kernel
  match e : tiny_handles.run [.startLoading .named false, .startLoading .named true, .continueLoading [.fresh false], .finishLoading] with
  | .ok s' =>
    rw [e] at h
    have h : (s'.file.isNone && (s'.mpi.alive 2 && s'.mpi.opened 0)) = true := h
    rw [Bool.and_eq_true, Bool.and_eq_true] at h
    exact ⟨tiny_handles, s', _, tiny_handles_numbered, fun _ => ⟨rfl, rfl⟩, rfl, hp, e, Option.isNone_iff_eq_none.1 h.1, ⟨2, rfl, h.2.1⟩, 0, rfl, h.2.2⟩
  | .throws => rw [e] at h; cases h
  | .hangs => rw [e] at h; cases h
  | .undef => rw [e] at h; cases h

/-- A class whose cells return a datatype that has been made once, as is common for classes whose data has the same layout in all
cells: the datatype is freed after the first use and the second cell uses it although it doesn't exist. -/
theorem C110_kept_false : tiny_handles.run [.start true [(1, [.kept 0, .kept 0])] []] = .undef ∧
    tiny_handles.run [.start false [(1, [.kept 0, .kept 0])] []] = .undef ∧ tiny_handles.run [.save false .named [.kept 0, .kept 0]] = .undef :=
  ⟨Handles.undefined_eq (by decide +kernel), Handles.undefined_eq (by decide +kernel), Handles.undefined_eq (by decide +kernel)⟩

end Dccrg
