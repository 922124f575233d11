import Verif.VarData
import Verif.DebugExec
import Verif.Props.Phases
import Verif.Props.Iter
import Verif.Props.Advect
/-!
# C123: transferring data of variable size
-/
namespace Dccrg
open Cfg
variable {n : Nat} {W X : Type} {g : Cfg} {w : Owner n} {s t : Sys n (VarCell X) W} {dflt : VarCell X} {maxTag : Nat}
  {z : Fin n → Moves n} {e : X}

/-! ## Specification -/

/-- In data of every cell the number of items is the number of items that the cell has, and that many coordinates can be
given to MPI as an `int`. -/
def Counted (s : Sys n (VarCell X) W) : Prop :=
  ∀ i c x, (s i).owner c = some i → access (s i) c = some x → x.count = x.items.length ∧ 3 * x.items.length < 2147483648

/-! ## Proofs -/

theorem resize_length (a : VarCell X) : (a.resize e).items.length = a.count := by
  unfold VarCell.resize
  simp only [List.length_append, List.length_take, List.length_replicate]
  omega

theorem resizeFold {p : Proc n (VarCell X) W} {l : List CellItem} (hn : (l.map (·.id)).Nodup)
    (hl : ∀ x ∈ l, p.data x.id = none ∧ (p.remote x.id).isSome = true) :
    Out.fold (fun x => resizeCell e x.id) l p = .ok { p with
        remote := fun c => if c ∈ l.map (·.id) then (p.remote c).map (VarCell.resize e) else p.remote c } := by
  induction l generalizing p with
  | nil => simp [Out.fold]
  | cons x l ih =>
    rw [List.map_cons, List.nodup_cons] at hn
    obtain ⟨h1, h2⟩ := hl x (List.mem_cons_self ..)
    obtain ⟨a, ha⟩ := Option.isSome_iff_exists.1 h2
    have hs : resizeCell e x.id p = .ok { p with remote := fun c => if c = x.id then some (a.resize e) else p.remote c } := by
      have hac : access p x.id = some a := by unfold access; rw [h1, ha]
      have hwr : write p x.id (a.resize e) =
          { p with remote := fun c => if c = x.id then some (a.resize e) else p.remote c } := by
        unfold write
        rw [if_neg (by rw [h1]; simp), if_pos h2]
      unfold resizeCell
      rw [hac, ← hwr]
    unfold Out.fold
    rw [hs]
    show Out.fold _ l _ = _
    rw [ih hn.2 (by
      intro y hy
      refine ⟨(hl y (List.mem_cons_of_mem _ hy)).1, ?_⟩
      show (if _ then _ else _ : Option (VarCell X)).isSome = true
      split
      · rfl
      · exact (hl y (List.mem_cons_of_mem _ hy)).2)]
    congr 1
    congr 1
    funext c
    show (if c ∈ l.map (·.id) then (if c = x.id then some (a.resize e) else p.remote c).map (VarCell.resize e) else
      (if c = x.id then some (a.resize e) else p.remote c)) = _
    by_cases hc : c = x.id
    · subst hc
      rw [if_neg hn.1, if_pos rfl, if_pos (by simp), ha]; rfl
    · rw [if_neg hc]
      by_cases hy : c ∈ l.map (·.id)
      · rw [if_pos hy, if_pos (by rw [List.map_cons]; exact List.mem_cons_of_mem _ hy)]
      · rw [if_neg hy, if_neg]
        rw [List.map_cons, List.mem_cons]
        rintro (h | h)
        · exact hc h
        · exact hy h

/-- An update of one part of data. -/
theorem updateVar_spec (hw : g.WF) (hn : 0 < n) (h : Reachable g dflt maxTag s) (hi : Inv g w s) {moving : Bool}
    (hf : ∀ i j b x y, w b = some j → j ≠ i → (∃ c, w c = some i ∧ Linked g (hoodOf g) c b) → (s j).data b = some x →
      (s i).remote b = some y → x.fits moving y = true) :
    ∃ t, updateVar g maxTag moving s = .ok t ∧ Reachable g dflt maxTag t ∧ ∀ i,
      t i = { s i with remote := (t i).remote } ∧
      (∀ b j, w b = some j → j ≠ i → (∃ c, w c = some i ∧ Linked g (hoodOf g) c b) → ∃ x y,
        (s j).data b = some x ∧ (s i).remote b = some y ∧ (t i).remote b = some (x.receive moving y)) ∧
      ∀ b, ((t i).remote b).isSome = ((s i).remote b).isSome := by
  obtain ⟨h1, h2⟩ := C67_history hw hn h (id := defaultId) fun _ _ _ => VarCell.receive (X := X) moving
  obtain ⟨r, hr⟩ := h1 fun i => by rw [show hoodFor g (s i) defaultId = some (hoodOf g) from if_pos rfl]; rfl
  have hm : ∀ i p b, b ∈ recvList g (hoodOf g) i (s i).owner (fun c => ((s i).data c).isSome) p ↔
      p ≠ i ∧ w b = some p ∧ ∃ c, w c = some i ∧ Linked g (hoodOf g) c b := by
    intro i p b
    rw [hi.sys.owner]
    exact mem_recvList hw hi.sys.tiled hi.sys.balanced (fun _ h => h) (hi.sys.placed i)
  refine ⟨fun i => (r i).2, ?_, h2 r hr, fun i => ?_⟩
  · unfold updateVar
    rw [if_pos, hr]
    · rfl
    rw [List.all_eq_true]
    intro q _
    rw [List.all_eq_true]
    intro p _
    rw [List.all_eq_true]
    intro c hc
    obtain ⟨c1, c2, c3⟩ := (hm q p c).1 hc
    unfold fitsOpt
    split
    · rename_i x y ex ey
      exact hf q p c x y c2 c1 c3 ex ey
    · rfl
  · obtain ⟨H, hH, -, a1, a2, a3⟩ := updateParts_inv hw h hi hr i
    have eH : H = hoodOf g := by
      rw [show hoodFor g (s i) defaultId = some (hoodOf g) from if_pos rfl] at hH
      injection hH with hH; exact hH.symm
    subst eH
    refine ⟨a1, a2, fun b => ?_⟩
    show ((r i).2.remote b).isSome = _
    cases hx : w b with
    | none => rw [a3 b (.inr (.inr hx))]
    | some j =>
      by_cases hj : j = i
      · rw [a3 b (.inr (.inl (by rw [hx, hj])))]
      · by_cases hl : ∃ c, w c = some i ∧ Linked g (hoodOf g) c b
        · obtain ⟨x, y, -, e2, e3⟩ := a2 b j hx hj hl
          rw [e2, e3]; rfl
        · rw [a3 b (.inl hl)]

/-- C123: after transferring the numbers of items, making room for items and transferring items the copies of remote
neighbors are the same as data of those cells on their processes, whatever were the numbers of items in copies. Nothing
else changes. -/
theorem C123_copies (hw : g.WF) (hn : 0 < n) (h : Reachable g dflt maxTag s) (hc : Counted s) (e : X) :
    ∃ t, exchangeVar g maxTag e s = .ok t ∧ Reachable g dflt maxTag t ∧
      (∀ i, t i = { s i with remote := (t i).remote }) ∧
      ∀ i j c b, (s i).owner c = some i → NbrOf g (s i) defaultId c b → (s i).owner b = some j → j ≠ i →
        ∃ x, access (s j) b = some x ∧ access (t i) b = some x := by
  obtain ⟨w, hi⟩ := h.inv hw hn
  have hdata : ∀ i c x, w c = some i → (s i).data c = some x → x.count = x.items.length ∧ 3 * x.items.length < 2147483648 := by
    intro i c x hwc hx
    refine hc i c x (by rw [hi.sys.owner]; exact hwc) ?_
    unfold access; rw [hx]
  -- numbers of items
  obtain ⟨s1, u1, u2, u3⟩ := updateVar_spec (moving := false) hw hn h hi (by intros; rfl)
  have o1 : ∀ i, (s1 i).owner = w := fun i => by rw [(u3 i).1]; exact hi.sys.owner i
  have d1 : ∀ i, (s1 i).data = (s i).data := fun i => by rw [(u3 i).1]
  -- room for items
  have hres : ∀ i, ∃ q, resizeCopies g e i (s1 i) = .ok q ∧
      q = { s1 i with remote := q.remote } ∧
      (∀ b j, w b = some j → j ≠ i → (∃ c, w c = some i ∧ Linked g (hoodOf g) c b) →
        q.remote b = ((s1 i).remote b).map (VarCell.resize e)) ∧
      (∀ b, q.remote b ≠ (s1 i).remote b → (s1 i).data b = none ∧ b ≤ g.last) ∧
      ∀ b, (q.remote b).isSome = ((s1 i).remote b).isSome := by
    intro i
    obtain ⟨w1, hi1⟩ := u2.inv hw hn
    have ew : w1 = w := (hi1.sys.owner i).symm.trans (o1 i)
    subst ew
    have hH : hoodFor g (s1 i) defaultId = some (hoodOf g) := if_pos rfl
    obtain ⟨k, k1, -, -, -, k2, -, k3⟩ := C38_ranges (id := defaultId) hw u2 i (by rw [hH]; rfl)
    have hmem : ∀ x ∈ range k.cells k.remote, (s1 i).data x.id = none ∧ ((s1 i).remote x.id).isSome = true := by
      intro x hx
      obtain ⟨⟨j, hj, hji⟩, c, hcc, hcb⟩ := (k2.2 x.id).1 (List.mem_map_of_mem hx)
      have hd : (s1 i).data x.id = none := by
        apply Option.not_isSome_iff_eq_none.1
        rw [hi1.sys.placed i, ← hi1.sys.owner i, hj]
        intro e; injection e with e; exact hji e
      refine ⟨hd, ?_⟩
      refine (u2.fresh hw i).copies x.id ?_
      rw [hi1.sys.owner] at hj hcc
      rw [remoteBoundary_eq, hi1.sys.owner, mem_remoteBoundaryH hw hi1.sys.tiled hi1.sys.balanced (fun _ h => h)
        (hi1.sys.placed i)]
      refine ⟨⟨j, hj, hji⟩, c, hcc, ?_⟩
      rcases hcb with hcb | hcb
      · exact .inl ((hi1.nbrOf_iff hw hH (exist_of hcc)).1 hcb).2
      · exact .inr ((hi1.nbrTo_iff hw hH (exist_of hcc)).1 hcb).2
    refine ⟨_, by unfold resizeCopies; rw [k1, Out.bind_ok]; exact resizeFold k2.1 hmem, rfl, ?_, ?_, ?_⟩
    · rintro b j hb hji ⟨c, hcc, hl⟩
      refine if_pos ?_
      rw [k2.2]
      exact ⟨⟨j, by rw [o1]; exact hb, hji⟩, c, by rw [o1]; exact hcc,
        .inl ((hi1.nbrOf_iff hw hH (exist_of hcc)).2 ⟨exist_of hb, hl⟩)⟩
    · intro b hb
      have hb : (if b ∈ (range k.cells k.remote).map (·.id) then ((s1 i).remote b).map (VarCell.resize e) else
        (s1 i).remote b) ≠ (s1 i).remote b := hb
      by_cases hm : b ∈ (range k.cells k.remote).map (·.id)
      · obtain ⟨x, hx, rfl⟩ := List.mem_map.1 hm
        refine ⟨(hmem x hx).1, ?_⟩
        obtain ⟨⟨j, hj, hji⟩, -⟩ := (k2.2 x.id).1 hm
        rw [o1] at hj
        exact (hi1.sys.tiled.valid _ (exist_of hj)).2
      · rw [if_neg hm] at hb; exact absurd rfl hb
    · intro b
      show (if _ then _ else _ : Option (VarCell X)).isSome = _
      split
      · simp
      · rfl
  obtain ⟨s2, v1, v2⟩ := Out.collect_all (P := fun i q =>
      q = { s1 i with remote := q.remote } ∧
      (∀ b j, w b = some j → j ≠ i → (∃ c, w c = some i ∧ Linked g (hoodOf g) c b) →
        q.remote b = ((s1 i).remote b).map (VarCell.resize e)) ∧
      (∀ b, q.remote b ≠ (s1 i).remote b → (s1 i).data b = none ∧ b ≤ g.last) ∧
      ∀ b, (q.remote b).isSome = ((s1 i).remote b).isSome) (f := fun i => resizeCopies g e i (s1 i)) (fun i => by
    exact hres i)
  have r2 : Reachable g dflt maxTag s2 := by
    refine reachable_remote u2 (fun i => (v2 i).1) fun i c hne => ?_
    obtain ⟨a1, a2⟩ := (v2 i).2.2.1 c hne
    have a3 := (v2 i).2.2.2 c
    refine ⟨a1, a2, ?_, ?_⟩
    · cases hx : (s1 i).remote c with
      | some y => rfl
      | none =>
        rw [hx] at a3 hne
        exact absurd (Option.not_isSome_iff_eq_none.1 (by rw [a3]; simp)) hne
    · cases hx : (s2 i).remote c with
      | some y => rfl
      | none =>
        rw [hx] at a3 hne
        exact absurd (Option.not_isSome_iff_eq_none.1 (by rw [← a3]; simp)).symm hne
  have d2 : ∀ i, (s2 i).data = (s i).data := fun i => by rw [(v2 i).1]; exact d1 i
  obtain ⟨w2, hi2⟩ := r2.inv hw hn
  have ew : w2 = w := by
    have := hi2.sys.owner ⟨0, hn⟩
    rw [(v2 _).1] at this
    exact this.symm.trans (o1 _)
  subst ew
  -- items
  have hcopy : ∀ i j b, w2 b = some j → j ≠ i → (∃ c, w2 c = some i ∧ Linked g (hoodOf g) c b) → ∃ x y,
      (s j).data b = some x ∧ (s2 i).remote b = some ((VarCell.receive false x y).resize e) := by
    intro i j b hb hji hl
    obtain ⟨x, y, x1, x2, x3⟩ := (u3 i).2.1 b j hb hji hl
    exact ⟨x, y, x1, by rw [(v2 i).2.1 b j hb hji hl, x3]; rfl⟩
  obtain ⟨t, t1, t2, t3⟩ := updateVar_spec (moving := true) hw hn r2 hi2 (by
    intro i j b x y hb hji hl hx hy
    obtain ⟨x', y', e1, e2⟩ := hcopy i j b hb hji hl
    rw [d2, e1] at hx
    injection hx with hx
    subst hx
    rw [e2] at hy
    injection hy with hy
    subst hy
    obtain ⟨f1, f2⟩ := hdata j b x' hb e1
    unfold VarCell.fits VarCell.described
    rw [resize_length]
    show (decide (3 * x'.items.length = 3 * x'.count) && decide (3 * x'.items.length < 2 ^ 31)) = true
    rw [f1]
    simp only [decide_true, Bool.true_and, decide_eq_true_eq]
    exact f2)
  refine ⟨t, ?_, t2, fun i => ?_, fun i j c b hcc hcb hb hji => ?_⟩
  · unfold exchangeVar
    rw [u1, Out.bind_ok, v1, Out.bind_ok]
    exact t1
  · rw [(t3 i).1, (v2 i).1, (u3 i).1]
  · rw [hi.sys.owner] at hcc hb
    have hl : ∃ c, w2 c = some i ∧ Linked g (hoodOf g) c b :=
      ⟨c, hcc, ((hi.nbrOf_iff hw (show hoodFor g (s i) defaultId = some (hoodOf g) from if_pos rfl) (exist_of hcc)).1 hcb).2⟩
    obtain ⟨x, y, x1, x2, x3⟩ := (t3 i).2.1 b j hb hji hl
    obtain ⟨x', y', e1, e2⟩ := hcopy i j b hb hji hl
    rw [d2, e1] at x1
    injection x1 with x1
    subst x1
    rw [e2] at x2
    injection x2 with x2
    subst x2
    refine ⟨x', by unfold access; rw [e1], ?_⟩
    have hd : (t i).data b = none := by
      rw [(t3 i).1]
      show (s2 i).data b = none
      apply Option.not_isSome_iff_eq_none.1
      rw [hi2.sys.placed i, hb]
      intro e; injection e with e; exact hji e
    unfold access
    rw [hd, x3]
    rfl

/-! ## Load balancing -/

theorem resize_resize (a : VarCell X) : (a.resize e).resize e = a.resize e := by
  have h := resize_length (e := e) a
  show VarCell.mk _ _ = VarCell.mk _ _
  congr 1
  have hc : (a.resize e).count = a.count := rfl
  show (a.resize e).items.take (a.resize e).count ++
    List.replicate ((a.resize e).count - (a.resize e).items.length) e = (a.resize e).items
  rw [hc, h, Nat.sub_self, List.take_of_length_le (by omega)]
  simp

theorem foldBind {α β : Type} (f : α → β → Out β) (a : α) (l : List α) (b : β) :
    Out.fold f (a :: l) b = (f a b).bind (Out.fold f l) := by
  rw [Out.fold]
  cases f a b <;> rfl

theorem fold_flat {α β γ : Type} (f : β → γ → Out γ) (L : α → List β) (qs : List α) (p : γ) :
    Out.fold (fun q p => Out.fold f (L q) p) qs p = Out.fold f (qs.flatMap L) p := by
  induction qs generalizing p with
  | nil => rfl
  | cons q qs ih =>
    rw [List.flatMap_cons, Out.fold_append, foldBind]
    cases Out.fold f (L q) p with
    | ok b => rw [Out.bind_ok, Out.bind_ok]; exact ih b
    | throws => rfl
    | hangs => rfl
    | undef => rfl

theorem resizeData {p : Proc n (VarCell X) W} {l : List Nat} (hl : ∀ c ∈ l, (p.data c).isSome = true) :
    Out.fold (resizeCell e) l p = .ok { p with
        data := fun c => if c ∈ l then (p.data c).map (VarCell.resize e) else p.data c } := by
  induction l generalizing p with
  | nil => simp [Out.fold]
  | cons x l ih =>
    have h2 := hl x (List.mem_cons_self ..)
    obtain ⟨a, ha⟩ := Option.isSome_iff_exists.1 h2
    have hs : resizeCell e x p = .ok { p with data := fun c => if c = x then some (a.resize e) else p.data c } := by
      have hac : access p x = some a := by unfold access; rw [ha]
      have hwr : write p x (a.resize e) = { p with data := fun c => if c = x then some (a.resize e) else p.data c } := by
        unfold write
        rw [if_pos h2]
      unfold resizeCell
      rw [hac, ← hwr]
    unfold Out.fold
    rw [hs]
    show Out.fold _ l _ = _
    rw [ih (by
      intro y hy
      show (if _ then _ else _ : Option (VarCell X)).isSome = true
      split
      · rfl
      · exact hl y (List.mem_cons_of_mem _ hy))]
    congr 1
    congr 1
    funext c
    show (if c ∈ l then (if c = x then some (a.resize e) else p.data c).map (VarCell.resize e) else
      (if c = x then some (a.resize e) else p.data c)) = _
    by_cases hc : c = x
    · subst hc
      rw [if_pos rfl, if_pos (List.mem_cons_self ..), ha]
      split
      · show some _ = some _
        rw [resize_resize]
      · rfl
    · rw [if_neg hc]
      by_cases hy : c ∈ l
      · rw [if_pos hy, if_pos (List.mem_cons_of_mem _ hy)]
      · rw [if_neg hy, if_neg]
        rw [List.mem_cons]
        rintro (h | h)
        · exact hc h
        · exact hy h

theorem inMove_write {D : Type} {p q : Fin n} {c : Nat} (x y : D) (k : Fin n) (d : Nat) (u : D) :
    inMove p q c (x, y) (.write k d u) = if d = c then (if k = p then u else x, if k = q then u else y) else (x, y) := rfl

theorem inMove_writes {D : Type} {p q : Fin n} {c : Nat} {v : D} {l : List (Phase n D)}
    (hl : ∀ ph ∈ l, ∃ k d u, ph = .write k d u ∧ (d = c → k ≠ p ∧ (k = q → u = v))) (x y : D) :
    l.foldl (inMove p q c) (x, y) = (x, y) ∨ l.foldl (inMove p q c) (x, y) = (x, v) := by
  induction l generalizing y with
  | nil => exact .inl rfl
  | cons ph l ih =>
    obtain ⟨k, d, u, rfl, h1⟩ := hl ph (List.mem_cons_self ..)
    have hl' := fun ph h => hl ph (List.mem_cons_of_mem _ h)
    have e1 : inMove p q c (x, y) (.write k d u) = (x, y) ∨ inMove p q c (x, y) (.write k d u) = (x, v) := by
      rw [inMove_write]
      by_cases hd : d = c
      · obtain ⟨h2, h3⟩ := h1 hd
        rw [if_pos hd, if_neg h2]
        by_cases hk : k = q
        · rw [if_pos hk, h3 hk]; exact .inr rfl
        · rw [if_neg hk]; exact .inl rfl
      · rw [if_neg hd]; exact .inl rfl
    rw [List.foldl_cons]
    rcases e1 with e1 | e1
    · rw [e1]; exact ih hl' y
    · rw [e1]
      rcases ih hl' v with h | h
      · exact .inr h
      · exact .inr h

theorem inMove_written {D : Type} {p q : Fin n} {c : Nat} {v : D} {l : List (Phase n D)}
    (hl : ∀ ph ∈ l, ∃ k d u, ph = .write k d u ∧ (d = c → k ≠ p ∧ (k = q → u = v))) (hm : Phase.write q c v ∈ l)
    (x y : D) : l.foldl (inMove p q c) (x, y) = (x, v) := by
  induction l generalizing y with
  | nil => cases hm
  | cons ph l ih =>
    have hl' := fun ph h => hl ph (List.mem_cons_of_mem _ h)
    obtain ⟨k, d, u, hk, h1⟩ := hl ph (List.mem_cons_self ..)
    rw [List.foldl_cons]
    rcases List.mem_cons.1 hm with e | hm
    · subst e
      injection hk with k1 k2 k3
      subst k1 k2 k3
      have e1 : inMove p q c (x, y) (.write q c v) = (x, v) := by
        rw [inMove_write]
        rw [if_pos rfl, if_pos rfl, if_neg (h1 rfl).1]
      rw [e1]
      rcases inMove_writes hl' x v with h | h <;> exact h
    · have : ∃ y', inMove p q c (x, y) ph = (x, y') := by
        subst hk
        rw [inMove_write]
        by_cases hd : d = c
        · rw [if_pos hd, if_neg (h1 hd).1]; exact ⟨_, rfl⟩
        · rw [if_neg hd]; exact ⟨_, rfl⟩
      obtain ⟨y', hy⟩ := this
      rw [hy]
      exact ih hl' hm y'

theorem atHome_writes {D : Type} {p : Fin n} {c : Nat} {l : List (Phase n D)}
    (hl : ∀ ph ∈ l, ∃ k d u, ph = .write k d u ∧ ¬ (d = c ∧ k = p)) (x : D) : l.foldl (atHome p c) x = x := by
  induction l with
  | nil => rfl
  | cons ph l ih =>
    obtain ⟨k, d, u, rfl, h1⟩ := hl ph (List.mem_cons_self ..)
    rw [List.foldl_cons, show atHome p c x (.write k d u) = x from if_neg h1]
    exact ih fun ph h => hl ph (List.mem_cons_of_mem _ h)

/-- Phases that in the end give every cell the data it had give the same result as `balance_load`. -/
theorem phases_same {D : Type} {s t : Sys n D W} {dflt : D} {ps : List (Phase n D)} (hw : g.WF) (hn : 0 < n)
    (h : Reachable g dflt maxTag s) (ho : (Op.balance z : Op n D W).Ok s)
    (hb : balancePhases g dflt maxTag z ps s = .ok t)
    (h1 : ∀ p c x, (s p).owner c = some p → (t p).owner c = some p → (s p).data c = some x → ps.foldl (atHome p c) x = x)
    (h2 : ∀ p q c x, (s p).owner c = some p → (t q).owner c = some q → p ≠ q → (s p).data c = some x →
      (ps.foldl (inMove p q c) (x, dflt)).2 = x) : step g dflt maxTag s (.balance z) = .ok t := by
  obtain ⟨-, t0, a1, a2, a3⟩ := C66_same_grid hw hn h ho hb
  rw [a1]
  congr 1
  funext i
  rw [a2 i]
  have hd : (t0 i).data = (t i).data := by
    funext c
    have e := a3 i c
    cases ht : (t i).data c with
    | none =>
      rw [ht] at e
      exact Option.not_isSome_iff_eq_none.1 (by rw [← e]; simp)
    | some y =>
      have hr := h.step (.balance z) ho a1
      obtain ⟨w, hi⟩ := h.inv hw hn
      obtain ⟨w', hi'⟩ := hr.inv hw hn
      have hq : (t0 i).owner c = some i := by
        rw [hi'.sys.owner]
        exact (hi'.sys.placed i c).1 (by rw [← e, ht]; rfl)
      have he := (C30_cells_and_data hw h ho a1 i i c).1
      rw [exist_of hq] at he
      obtain ⟨p, hp⟩ := exist_iff.1 he.symm
      have hpp : (s p).owner c = some p := by rw [hi.sys.owner, ← hi.sys.owner i]; exact hp
      have hd := ((C30_cells_and_data hw h ho a1 i i c).2.2 p i hp hq).1
      rw [hd]
      have hs := (hi.sys.placed p c).2 (by rw [← hi.sys.owner p]; exact hpp)
      obtain ⟨x, hx⟩ := Option.isSome_iff_exists.1 hs
      have hti : (t i).owner c = some i := by rw [a2 i]; exact hq
      have := C66_data hw h ho hb hpp hx hti
      rw [ht] at this
      rw [hx, this]
      congr 1
      by_cases hpi : p = i
      · subst hpi
        rw [if_pos rfl, h1 p c x hpp hti hx]
      · rw [if_neg hpi, h2 p i c x hpp hti hpi hx]
  show t0 i = { t0 i with data := (t i).data }
  rw [← hd]

theorem runPhases_append {D : Type} (maxTag : Nat) (l m : List (Phase n D)) (b : Fin n → Balancing n D W) :
    runPhases maxTag (l ++ m) b = (runPhases maxTag l b).bind (runPhases maxTag m) := by
  induction l generalizing b with
  | nil => rfl
  | cons ph l ih =>
    show (runPhase maxTag b ph).bind _ = ((runPhase maxTag b ph).bind _).bind _
    cases runPhase maxTag b ph with
    | ok b1 => rw [Out.bind_ok, Out.bind_ok]; exact ih b1
    | throws => rfl
    | hangs => rfl
    | undef => rfl

/-- C123: load balancing in which first the numbers of items are transferred, then room is made for items and then items
are transferred, gives the same result as `balance_load` of data with a fixed size. -/
theorem C123_balance (hw : g.WF) (hn : 0 < n) (h : Reachable g dflt maxTag s) (hc : Counted s)
    (ho : (Op.balance z : Op n (VarCell X) W).Ok s) (hm : g.last ≤ maxTag) (e : X) :
    ∃ t, balanceVar g dflt maxTag e z s = .ok t ∧ step g dflt maxTag s (.balance z) = .ok t := by
  obtain ⟨w, hi⟩ := h.inv hw hn
  have hz : MovesOk w z := by have := ho ⟨0, hn⟩; rwa [hi.sys.owner] at this
  have hdata : ∀ i c x, (s i).data c = some x → x.count = x.items.length ∧ 3 * x.items.length < 2147483648 := by
    intro i c x hx
    refine hc i c x ?_ ?_
    · rw [hi.sys.owner]; exact (hi.sys.placed i c).1 (by rw [hx]; rfl)
    · unfold access; rw [hx]
  obtain ⟨tz, hz0⟩ := C66_returns hw hn h ho hm []
  obtain ⟨b, -, -, st1, st2, st3, -⟩ := phases_inv hz hi.sys hz0
  have hg := st2.going hz hi.sys
  have hsrc : ∀ p q c, Goes w (pinned w s) z p q c → ∃ x, (s p).data c = some x ∧ (b p).proc.data c = some x := by
    intro p q c hgo
    obtain ⟨x, hx⟩ := Option.isSome_iff_exists.1 ((hi.sys.placed p c).2 hgo.2.1)
    exact ⟨x, hx, by rw [st2.keeps p c hgo.2.1]; exact hx⟩
  -- numbers of items
  obtain ⟨b1, p1, p2, p3, p4⟩ := runPhase_spec hg st3 (.move fun _ _ _ => VarCell.receive (X := X) false)
  have c1 : continueVar maxTag false b = .ok b1 := by
    unfold continueVar
    rw [if_pos]
    · exact p1
    rw [List.all_eq_true]; intro q _
    rw [List.all_eq_true]; intro p _
    rw [List.all_eq_true]; intro c _
    unfold fitsOpt
    split <;> rfl
  have hg1 := hg.shape p2
  have ht1 := tagsOver_shape p2 st3
  have hb1 : ∀ p q c, Goes w (pinned w s) z p q c → ∃ x, (s p).data c = some x ∧ (b1 p).proc.data c = some x ∧
      (b1 q).proc.data c = some (VarCell.receive false x dflt) := by
    intro p q c hgo
    obtain ⟨x, x1, x2⟩ := hsrc p q c hgo
    obtain ⟨y1, y2⟩ := p3 p q c x dflt hgo x2 (st2.gets p q c hgo)
    exact ⟨x, x1, y1, y2⟩
  -- room for items
  let L : Fin n → List Nat := fun i => (List.finRange n).flatMap fun q => (b1 i).recv q
  have hL : ∀ i c, c ∈ L i ↔ ∃ p, Goes w (pinned w s) z p i c := by
    intro i c
    rw [List.mem_flatMap]
    constructor
    · rintro ⟨q, -, h⟩; exact ⟨q, (hg1.recv q i c).1 h⟩
    · rintro ⟨q, h⟩; exact ⟨q, List.mem_finRange q, (hg1.recv q i c).2 h⟩
  let b2 : Fin n → Balancing n (VarCell X) W := fun i => { b1 i with proc := { (b1 i).proc with
      data := fun c => if c ∈ L i then ((b1 i).proc.data c).map (VarCell.resize e) else (b1 i).proc.data c } }
  have c2 : (Out.collect fun i => resizeReceived e (b1 i)) = .ok b2 := by
    refine Out.collect_ok fun i => ?_
    unfold resizeReceived
    rw [fold_flat, resizeData, Out.bind_ok]
    intro c hcl
    obtain ⟨p, hp⟩ := (hL i c).1 hcl
    obtain ⟨x, -, -, x3⟩ := hb1 p i c hp
    rw [x3]; rfl
  let v : Fin n → Nat → VarCell X := fun i c => (((b1 i).proc.data c).map (VarCell.resize e)).getD dflt
  let ws : List (Phase n (VarCell X)) := (List.finRange n).flatMap fun i => (L i).map fun c => .write i c (v i c)
  have hws : ∀ ph ∈ ws, ∃ k d, ph = .write k d (v k d) ∧ ∃ p, Goes w (pinned w s) z p k d := by
    intro ph hph
    obtain ⟨k, -, hk⟩ := List.mem_flatMap.1 hph
    obtain ⟨d, hd, rfl⟩ := List.mem_map.1 hk
    exact ⟨k, d, rfl, (hL k d).1 hd⟩
  have hwm : ∀ p q c, Goes w (pinned w s) z p q c → Phase.write q c (v q c) ∈ ws := fun p q c hgo =>
    List.mem_flatMap.2 ⟨q, List.mem_finRange q, List.mem_map.2 ⟨c, (hL q c).2 ⟨p, hgo⟩, rfl⟩⟩
  have hwv : ∀ p q c, Goes w (pinned w s) z p q c → ∀ ph ∈ ws, ∃ k d u, ph = .write k d u ∧
      (d = c → k ≠ p ∧ (k = q → u = v q c)) := by
    intro p q c hgo ph hph
    obtain ⟨k, d, rfl, r, hr⟩ := hws ph hph
    refine ⟨k, d, _, rfl, fun hd => ⟨?_, fun hk => by rw [hk, hd]⟩⟩
    subst hd
    rintro rfl
    exact hgo.1 ((hg.uniq _ _ _ _ _ hr hgo).2)
  have hwh : ∀ p c, (∀ r, ¬ Goes w (pinned w s) z r p c) → ∀ ph ∈ ws, ∃ k d u, ph = .write k d u ∧ ¬ (d = c ∧ k = p) := by
    intro p c hno ph hph
    obtain ⟨k, d, rfl, r, hr⟩ := hws ph hph
    refine ⟨k, d, _, rfl, ?_⟩
    rintro ⟨rfl, rfl⟩
    exact hno r hr
  have c2' : runPhases maxTag ws b1 = .ok b2 := by
    obtain ⟨b', q1, q2, q3, q4⟩ := runPhases_spec hg1 ht1 ws
    rw [q1]
    congr 1
    funext i
    rw [q2.eq i]
    have : (b' i).proc.data = (b2 i).proc.data := by
      funext c
      show _ = if c ∈ L i then ((b1 i).proc.data c).map (VarCell.resize e) else (b1 i).proc.data c
      by_cases hci : c ∈ L i
      · rw [if_pos hci]
        obtain ⟨p, hp⟩ := (hL i c).1 hci
        obtain ⟨x, -, x2, x3⟩ := hb1 p i c hp
        rw [q3 p i c _ _ hp x2 x3, inMove_written (hwv p i c hp) (hwm p i c hp), x3]
        show some (v i c) = _
        show some ((((b1 i).proc.data c).map (VarCell.resize e)).getD dflt) = _
        rw [x3]; rfl
      · rw [if_neg hci]
        have hno : ∀ r, ¬ Goes w (pinned w s) z r i c := fun r hr => hci ((hL i c).2 ⟨r, hr⟩)
        cases hx : (b1 i).proc.data c with
        | none => exact Option.not_isSome_iff_eq_none.1 (by rw [q2.some, hx]; simp)
        | some x => rw [q4 i c x hno hx, atHome_writes (hwh i c hno)]
    rw [this]
  -- items
  have hg2 : Going (Goes w (pinned w s) z) b2 ∧ ¬ tagsOver maxTag b2 := by
    obtain ⟨b', q1, q2, -⟩ := runPhases_spec hg1 ht1 ws
    rw [c2'] at q1
    injection q1 with q1
    subst q1
    exact ⟨hg1.shape q2, tagsOver_shape q2 ht1⟩
  obtain ⟨b3, r1, -⟩ := runPhase_spec hg2.1 hg2.2 (.move fun _ _ _ => VarCell.receive (X := X) true)
  have c3 : continueVar maxTag true b2 = .ok b3 := by
    unfold continueVar
    rw [if_pos]
    · exact r1
    rw [List.all_eq_true]; intro q _
    rw [List.all_eq_true]; intro p _
    rw [List.all_eq_true]; intro c hcc
    have hgo := (hg2.1.recv p q c).1 hcc
    obtain ⟨x, x1, x2, x3⟩ := hb1 p q c hgo
    have e1 : (b2 p).proc.data c = some x := by
      show (if _ then _ else _ : Option (VarCell X)) = _
      rw [if_neg, x2]
      intro hcl
      obtain ⟨r, hr⟩ := (hL p c).1 hcl
      exact hgo.1 ((hg.uniq _ _ _ _ _ hr hgo).2)
    have e2 : (b2 q).proc.data c = some ((VarCell.receive false x dflt).resize e) := by
      show (if _ then _ else _ : Option (VarCell X)) = _
      rw [if_pos ((hL q c).2 ⟨p, hgo⟩), x3]; rfl
    rw [e1, e2]
    obtain ⟨f1, f2⟩ := hdata p c x x1
    show (decide (3 * x.items.length = 3 * ((VarCell.receive false x dflt).resize e).items.length) &&
      decide (3 * x.items.length < 2 ^ 31)) = true
    rw [resize_length]
    show (decide (3 * x.items.length = 3 * x.count) && decide (3 * x.items.length < 2 ^ 31)) = true
    rw [f1]
    simp only [decide_true, Bool.true_and, decide_eq_true_eq]
    exact f2
  -- together
  let ps : List (Phase n (VarCell X)) := (.move fun _ _ _ => VarCell.receive false) ::
    (ws ++ [.move fun _ _ _ => VarCell.receive true])
  have hrun : runPhases maxTag ps b = .ok b3 := by
    show (runPhase maxTag b _).bind _ = _
    rw [p1, Out.bind_ok, runPhases_append, c2', Out.bind_ok]
    show (runPhase maxTag b2 _).bind _ = _
    rw [r1]; rfl
  obtain ⟨t, ht⟩ := C66_returns hw hn h ho hm ps
  have hbv : balanceVar g dflt maxTag e z s = .ok t := by
    rw [← ht]
    unfold balanceVar balancePhases
    rw [st1, Out.bind_ok, Out.bind_ok, hrun, Out.bind_ok, c1, Out.bind_ok, c2, Out.bind_ok, c3, Out.bind_ok]
  have hgo : ∀ p q c, (s p).owner c = some p → (t q).owner c = some q → (p ≠ q → Goes w (pinned w s) z p q c) ∧
      (p = q → ∀ r, ¬ Goes w (pinned w s) z r p c) := by
    intro p q c hp hq
    obtain ⟨b0, b0', t0, -, -, -, -, t1, t2, -⟩ := phases_inv hz hi.sys ht
    have hre := balanceLoad_sound hw hz hi.sys t1
    rw [hi.sys.owner] at hp
    have hq' : newHome w (pinned w s) z c = some q := by
      rw [t2] at hq
      rw [← (hre q).owner]; exact hq
    refine ⟨fun hpq => (Goes.iff_newHome hz).2 ⟨hp, hq', hpq⟩, fun hpq r hr => ?_⟩
    have := hr.2.1
    rw [hp] at this
    injection this with this
    exact hr.1 this.symm
  refine ⟨t, hbv, phases_same hw hn h ho ht (fun p c x hp hq hx => ?_) fun p q c x hp hq hpq hx => ?_⟩
  · show (ws ++ [Phase.move _]).foldl (atHome p c) x = x
    rw [List.foldl_append, atHome_writes (hwh p c ((hgo p p c hp hq).2 rfl))]
    rfl
  · have hgo := (hgo p q c hp hq).1 hpq
    show ((ws ++ [Phase.move _]).foldl (inMove p q c) (x, VarCell.receive false x dflt)).2 = x
    rw [List.foldl_append, inMove_written (hwv p q c hgo) (hwm p q c hgo)]
    show VarCell.receive true x (v q c) = x
    obtain ⟨x', x1, -, x3⟩ := hb1 p q c hgo
    rw [hx] at x1
    injection x1 with x1
    subst x1
    show VarCell.receive true x ((((b1 q).proc.data c).map (VarCell.resize e)).getD dflt) = x
    rw [x3]
    rfl

/-! ## Demo -/

theorem varDemo_start : ∃ (s : Sys 2 (VarCell Nat) Nat) (L : Ledger 2 Nat), Booked tinyG ⟨0, []⟩ 146 L s ∧ L.pin 1 = none ∧ Counted s ∧
    (∀ i, (s i).owner = (createLevel0 2 2).2) ∧ access (s 0) 1 = some ⟨3, [7, 8, 9]⟩ ∧ access (s 1) 1 = some ⟨0, []⟩ := by
  obtain ⟨s, h1, hx, hy⟩ := createGrid_spec (n := 2) (W := Nat) (maxTag := 146) tiny_wf (by omega) (⟨0, []⟩ : VarCell Nat)
    (fitsTags_mono (by rw [tiny_last]; exact Nat.le_refl _)
      (fitsTags_last (createLevel0_tiled tiny_wf (by omega)).valid))
  have htot : tinyG.total = 2 := by decide
  rw [htot] at hx hy
  have e1 : step tinyG ⟨0, []⟩ 146 s (.write 0 1 ⟨3, [7, 8, 9]⟩) = .ok (s.set 0 (write (s 0) 1 ⟨3, [7, 8, 9]⟩)) := rfl
  have d0 : (s 0).data 1 = some ⟨0, []⟩ := by rw [(hy 0).2.2.1]; exact if_pos (by decide)
  have r0 : (s 1).data 1 = none := by rw [(hy 1).2.2.1]; exact if_neg (by decide)
  have hr : (s 1).remote 1 = some ⟨0, []⟩ := by
    have := ((Reachable.init h1).fresh tiny_wf 1).copies 1 (by
      rw [remoteBoundary_eq, hx.owner, mem_remoteBoundaryH tiny_wf hx.tiled hx.balanced (fun _ h => h) (hx.placed 1)]
      exact ⟨⟨0, by decide, by decide⟩, 2, by decide, .inl tiny_linked.2⟩)
    rw [(hy 1).2.2.2.1] at this ⊢
    split at this
    · rename_i h; rw [if_pos h]
    · cases this
  have hw0 : write (s 0) 1 (⟨3, [7, 8, 9]⟩ : VarCell Nat) =
      { s 0 with data := fun c => if c = 1 then some ⟨3, [7, 8, 9]⟩ else (s 0).data c } := by
    unfold write
    rw [if_pos (by rw [d0]; rfl)]
  have ho : ∀ i, ((s.set 0 (write (s 0) 1 ⟨3, [7, 8, 9]⟩)) i).owner = (createLevel0 2 2).2 := by
    intro i
    unfold Sys.set
    split
    · rw [hw0]; exact hx.owner 0
    · exact hx.owner i
  refine ⟨_, _, Booked.step (.write 0 1 ⟨3, [7, 8, 9]⟩) (.init h1) trivial e1, rfl, fun i c x hc hxx => ?_, ho, ?_, ?_⟩
  · rw [ho] at hc
    unfold Sys.set at hxx
    by_cases hi : i = 0
    · subst hi
      rw [if_pos rfl, hw0] at hxx
      unfold access at hxx
      by_cases hc1 : c = 1
      · subst hc1
        replace hxx : some (⟨3, [7, 8, 9]⟩ : VarCell Nat) = some x := hxx
        injection hxx with hxx
        subst hxx
        decide
      · have : (if c = 1 then some (⟨3, [7, 8, 9]⟩ : VarCell Nat) else (s 0).data c) = some ⟨0, []⟩ := by
          rw [if_neg hc1, (hy 0).2.2.1, if_pos hc]
        simp only [this] at hxx
        injection hxx with hxx
        subst hxx
        decide
    · rw [if_neg hi] at hxx
      unfold access at hxx
      rw [(hy i).2.2.1, if_pos hc] at hxx
      injection hxx with hxx
      subst hxx
      decide
  · unfold Sys.set
    rw [if_pos rfl, hw0]; rfl
  · unfold Sys.set
    rw [if_neg (by decide)]
    unfold access
    rw [r0, hr]

/-- The demo meets hypotheses of both theorems: cell 1 on process 0 has three items and its copy on process 1 has none.
When items are transferred without making room for them behavior is undefined. -/
example : ∃ s t : Sys 2 (VarCell Nat) Nat, tinyG.WF ∧ Reachable tinyG ⟨0, []⟩ 146 s ∧ Counted s ∧
    (Op.balance move1 : Op 2 (VarCell Nat) Nat).Ok s ∧ access (s 1) 1 = some ⟨0, []⟩ ∧
    exchangeVar tinyG 146 0 s = .ok t ∧ access (t 1) 1 = some ⟨3, [7, 8, 9]⟩ ∧
    updateVar tinyG 146 true s = .undef ∧
    ∃ t', balanceVar tinyG ⟨0, []⟩ 146 0 move1 s = .ok t' ∧ access (t' 1) 1 = some ⟨3, [7, 8, 9]⟩ := by
  obtain ⟨s, L, h0, hL, h2, h3, h4, h5⟩ := varDemo_start
  have h1 := h0.reachable
  obtain ⟨w, hi⟩ := h1.inv tiny_wf (by decide)
  have hwo : w = (createLevel0 2 2).2 := (hi.sys.owner 0).symm.trans (h3 0)
  subst hwo
  have hb : (Op.balance move1 : Op 2 (VarCell Nat) Nat).Ok s := fun i => by
    refine move1_ok (?_ : (s i).owner 1 = some 0)
    rw [h3]; decide
  have d0 : (s 0).data 1 = some ⟨3, [7, 8, 9]⟩ := by
    rw [← (hi.access_own (i := 0) (by decide)).1]; exact h4
  obtain ⟨t, e1, -, -, e2⟩ := C123_copies tiny_wf (by decide) h1 h2 0
  have hnb : NbrOf tinyG (s 1) defaultId 2 1 :=
    (hi.nbrOf_iff tiny_wf (if_pos rfl) (exist_of (i := 1) (by decide))).2 ⟨exist_of (i := 0) (by decide), tiny_linked.2⟩
  obtain ⟨x, f1, f2⟩ := e2 1 0 2 1 (by rw [h3]; decide) hnb (by rw [h3]; decide) (by decide)
  rw [h4] at f1
  injection f1 with f1
  subst f1
  obtain ⟨t', g1, g2⟩ := C123_balance tiny_wf (by decide) h1 h2 hb (by rw [tiny_last]; exact Nat.le_refl _) 0
  refine ⟨s, t, tiny_wf, h1, h2, hb, h5, e1, f2, ?_, t', g1, ?_⟩
  · unfold updateVar
    rw [if_neg]
    intro ha
    rw [List.all_eq_true] at ha
    have ha := ha 1 (List.mem_finRange _)
    rw [List.all_eq_true] at ha
    have ha := ha 0 (List.mem_finRange _)
    rw [List.all_eq_true] at ha
    have ha := ha 1 (by
      rw [hi.sys.owner]
      exact (mem_recvList tiny_wf hi.sys.tiled hi.sys.balanced (fun _ h => h) (hi.sys.placed 1)).2
        ⟨by decide, by decide, 2, by decide, tiny_linked.2⟩)
    have hn : (s 1).data 1 = none := by
      apply Option.not_isSome_iff_eq_none.1
      rw [hi.sys.placed 1]; decide
    have hr : (s 1).remote 1 = some ⟨0, []⟩ := by
      unfold access at h5
      rw [hn] at h5
      cases hx : (s 1).remote 1 with
      | some y => simp only [hx] at h5; exact h5
      | none =>
        have := (h1.fresh tiny_wf 1).copies 1 (by
          rw [remoteBoundary_eq, hi.sys.owner, mem_remoteBoundaryH tiny_wf hi.sys.tiled hi.sys.balanced (fun _ h => h)
            (hi.sys.placed 1)]
          exact ⟨⟨0, by decide, by decide⟩, 2, by decide, .inl tiny_linked.2⟩)
        rw [hx] at this; cases this
    rw [d0, hr] at ha
    cases ha
  · have ho : (t' 1).owner 1 = some 1 :=
      (C31_owners tiny_wf h0 hb g2 1 0 (p := 0) (by rw [h3]; decide)).2.1 hL 1 (by simp [move1])
    have := ((C30_cells_and_data tiny_wf h1 hb g2 1 1 1).2.2 0 1 (by rw [h3]; decide) ho).1
    unfold access
    rw [this, d0]

end Dccrg
