import Verif.Hist
/-!
# Copies of remote neighbors are always allocated

In every reachable state all remote cells on process boundaries have a copy and all lists of cells to send and
receive fit into message tags, because both are ensured whenever the grid, its partition or neighborhoods change.
-/
namespace Dccrg
open Cfg
variable {n : Nat} {D W : Type} {g : Cfg} {w : Owner n} {s : Sys n D W} {dflt : D} {maxTag : Nat}

/-- Copies of all remote neighbors exist and tags are possible. -/
structure Fresh (g : Cfg) (maxTag : Nat) (i : Fin n) (p : Proc n D W) : Prop where
  tags : tagsFit g maxTag i p = true
  copies : ∀ c ∈ remoteBoundary g i p.owner (fun c => (p.data c).isSome), (p.remote c).isSome = true

theorem fresh_rebuild {i : Fin n} {p p' : Proc n D W} (h : rebuild g dflt maxTag i p = .ok p') :
    Fresh g maxTag i p' := by
  unfold rebuild at h
  split at h
  · cases h
  · split at h
    · cases h
    · rename_i h1
      injection h with h
      subst h
      refine ⟨by simpa [tagsFit] using h1, fun c hc => ?_⟩
      show (if c ∈ _ then _ else _ : Option D).isSome = true
      rw [if_pos hc]; rfl

theorem Fresh.same {i : Fin n} {p p' : Proc n D W} (h : Fresh g maxTag i p) (h1 : p'.owner = p.owner)
    (h2 : ∀ c, (p'.data c).isSome = (p.data c).isSome) (h3 : ∀ x ∈ p'.hoods, x ∈ p.hoods)
    (h4 : ∀ c, (p.remote c).isSome = true → (p'.remote c).isSome = true) : Fresh g maxTag i p' := by
  have e : (fun c => (p'.data c).isSome) = fun c => (p.data c).isSome := funext h2
  refine ⟨?_, ?_⟩
  · have := h.tags
    unfold tagsFit at this ⊢
    rw [h1, e]
    rw [List.all_eq_true] at this ⊢
    intro H hH
    apply this H
    rcases List.mem_cons.1 hH with rfl | hH
    · exact List.mem_cons_self
    · obtain ⟨x, hx, rfl⟩ := List.mem_map.1 hH
      exact List.mem_cons_of_mem _ (List.mem_map.2 ⟨x, h3 x hx, rfl⟩)
  · rw [h1, e]
    exact fun c hc => h4 c (h.copies c hc)

theorem Fresh.copied {D0 : Type} {i : Fin n} {p : Proc n D0 W} (h : Fresh g maxTag i p) (dflt : D) :
    Fresh g maxTag i (copyProc g dflt i p) := by
  have e : (fun c => ((copyProc g dflt i p).data c).isSome) = fun c => (p.data c).isSome := by
    funext c
    show ((p.data c).map fun _ => dflt).isSome = _
    rw [Option.isSome_map]
  refine ⟨?_, ?_⟩
  · have := h.tags
    unfold tagsFit at this ⊢
    rw [e]
    exact this
  · rw [e]
    intro c hc
    have hc : c ∈ remoteBoundary g i p.owner (fun c => (p.data c).isSome) := hc
    show (if c ∈ _ then some dflt else none : Option D).isSome = true
    rw [if_pos hc]; rfl

theorem Fresh.local {i : Fin n} {p' : Proc n D W} (h : Fresh g maxTag i (s i)) (hi : Inv g w s)
    (hl : LocalOk g w i (s i) p') (h4 : ∀ c, ((s i).remote c).isSome = true → (p'.remote c).isSome = true) :
    Fresh g maxTag i p' := by
  refine h.same (hl.owner.trans (hi.sys.owner i).symm) (fun c => ?_) (fun x hx => by rw [hl.hoods] at hx; exact hx) h4
  rw [Bool.eq_iff_iff, hl.placed, hi.sys.placed i]

theorem write_remote (p : Proc n D W) (c x : Nat) (v : D) (h : (p.remote x).isSome = true) :
    ((write p c v).remote x).isSome = true := by
  unfold write
  split
  · exact h
  · split
    · show (if x = c then some v else p.remote x).isSome = true
      split
      · rfl
      · exact h
    · split
      · exact h
      · split <;> exact h

theorem pin_remote (g : Cfg) (i : Fin n) (p : Proc n D W) (c : Nat) (q : Int) : (pin g i p c q).2.remote = p.remote := by
  unfold pin
  split
  · rfl
  · split
    · split <;> rfl
    · rfl

theorem unpin_remote (g : Cfg) (i : Fin n) (p : Proc n D W) (c : Nat) : (unpin g i p c).2.remote = p.remote := by
  unfold unpin
  split
  · rfl
  · split <;> rfl

theorem unpinLocal_remote (g : Cfg) (i : Fin n) (p : Proc n D W) : (unpinLocal g i p).2.remote = p.remote := by
  unfold unpinLocal
  generalize (ids g).filter _ = l
  suffices ∀ b (p : Proc n D W),
      (l.foldl (fun s c => let r := unpin g i s.2 c; (s.1 && r.1, r.2)) (b, p)).2.remote = p.remote from this true p
  induction l with
  | nil => exact fun _ _ => rfl
  | cons a l ih => exact fun b p => (ih _ _).trans (unpin_remote g i p a)

theorem setWeight_remote (g : Cfg) (i : Fin n) (p : Proc n D W) (c : Nat) (x : W) :
    (setWeight g i p c x).2.remote = p.remote := by
  unfold setWeight
  split <;> rfl

theorem inv_fresh (hw : g.WF) (hi : Inv g w s) (ih : ∀ i, Fresh g maxTag i (s i)) {op : Op n D W} {s' : Sys n D W}
    (hs : step g dflt maxTag s op = .ok s') (i : Fin n) : Fresh g maxTag i (s' i) := by
  have hset : ∀ (j : Fin n) (p' : Proc n D W), LocalOk g w j (s j) p' →
      (∀ c, ((s j).remote c).isSome = true → (p'.remote c).isSome = true) → Fresh g maxTag i (s.set j p' i) := by
    intro j p' h1 h2
    unfold Sys.set
    split
    · subst i; exact (ih j).local hi h1 h2
    · exact ih i
  have hask : ∀ (j : Fin n) (o : Out (Bool × Req)), s.ask j o = .ok s' → Fresh g maxTag i (s' i) := by
    intro j o h
    obtain ⟨⟨b, r⟩, h1, h2⟩ := Out.bind_inv h
    injection h2 with h2
    subst h2
    unfold Sys.set
    split
    · subst i; exact (ih j).same rfl (fun _ => rfl) (fun _ h => h) (fun _ h => h)
    · exact ih i
  cases op with
  | refine j c => exact hask j _ hs
  | unrefine j c => exact hask j _ hs
  | dontRefine j c => exact hask j _ hs
  | dontUnrefine j c => exact hask j _ hs
  | pin j c q => injection hs with hs; subst hs; exact hset j _ ((hi.local j).pin c q) (fun x hx => by rw [pin_remote]; exact hx)
  | unpin j c => injection hs with hs; subst hs; exact hset j _ ((hi.local j).unpin c) (fun x hx => by rw [unpin_remote]; exact hx)
  | unpinLocal j => injection hs with hs; subst hs; exact hset j _ (hi.local j).unpinLocal (fun x hx => by rw [unpinLocal_remote]; exact hx)
  | setWeight j c x => injection hs with hs; subst hs; exact hset j _ ((hi.local j).setWeight c x) (fun x hx => by rw [setWeight_remote]; exact hx)
  | write j c v => injection hs with hs; subst hs; exact hset j _ ((hi.local j).write c v) (fun x hx => write_remote _ _ _ _ hx)
  | clearRefined j => injection hs with hs; subst hs; exact hset j _ (hi.local j).clearRefined (fun x hx => hx)
  | unpinAll => injection hs with hs; subst hs; exact (ih i).same rfl (fun _ => rfl) (fun _ h => h) (fun _ h => h)
  | update id =>
    obtain ⟨r, h1, h2⟩ := Out.bind_inv hs
    injection h2 with h2; subst h2
    obtain ⟨-, h3, h4, h5, h6⟩ := updateRemote_sound hw hi h1
    show Fresh g maxTag i (r i).2
    refine (ih i).same ?_ (fun c => ?_) (fun x hx => ?_) (fun c hc => ?_)
    · rw [h3 i]
    · rw [h3 i]
    · rw [h3 i] at hx; exact hx
    · obtain ⟨H, hH⟩ := h6 i
      by_cases hl : ∃ x, w x = some i ∧ Linked g H x c
      · cases hx : w c with
        | none => rw [h5 i H c hH (Or.inr (Or.inr hx))]; exact hc
        | some j =>
          by_cases hj : j = i
          · subst hj; rw [h5 j H c hH (Or.inr (Or.inl hx))]; exact hc
          · rw [h4 i H j c hH hj hx hl]; exact (hi.sys.placed j c).2 hx
      · rw [h5 i H c hH (Or.inl hl)]; exact hc
  | addHood id items =>
    obtain ⟨r, h1, h2⟩ := Out.bind_inv hs
    injection h2 with h2; subst h2
    have h3 := Out.collect_inv h1 i
    show Fresh g maxTag i (r i).2
    unfold addHood at h3
    split at h3
    · injection h3 with h3; rw [← h3]; exact ih i
    · split at h3
      · injection h3 with h3; rw [← h3]; exact ih i
      · split at h3
        · injection h3 with h3; rw [← h3]; exact ih i
        · split at h3
          · cases h3
          · split at h3
            · cases h3
            · rename_i h4
              injection h3 with h3; rw [← h3]
              have h5 : tagsFit g maxTag i { s i with hoods := [(id, items)] } = true := by simpa using h4
              refine ⟨?_, fun c hc => ?_⟩
              · have h6 := (ih i).tags
                unfold tagsFit at h5 h6 ⊢
                rw [List.all_eq_true] at h5 h6 ⊢
                intro H hH
                rcases List.mem_cons.1 hH with rfl | hH
                · exact h6 _ List.mem_cons_self
                · obtain ⟨x, hx, rfl⟩ := List.mem_map.1 hH
                  rcases List.mem_cons.1 hx with rfl | hx
                  · exact h5 _ (List.mem_cons_of_mem _ (List.mem_map.2 ⟨_, List.mem_cons_self, rfl⟩))
                  · exact h6 _ (List.mem_cons_of_mem _ (List.mem_map.2 ⟨x, hx, rfl⟩))
              · show (if c ∈ _ then _ else _ : Option D).isSome = true
                rw [if_pos hc]; rfl
  | removeHood id =>
    injection hs with hs; subst hs
    show Fresh g maxTag i (removeHood (s i) id)
    unfold removeHood
    split
    · exact ih i
    · exact (ih i).same rfl (fun _ => rfl) (fun x hx => (List.mem_filter.1 hx).1) (fun _ h => h)
  | stop sorted =>
    obtain ⟨r, h1, h2⟩ := Out.bind_inv hs
    injection h2 with h2; subst h2
    unfold stopRefining at h1
    split at h1
    · cases h1
    · obtain ⟨refs, -, h1⟩ := Out.bind_inv h1
      obtain ⟨unrefs, -, h1⟩ := Out.bind_inv h1
      obtain ⟨res, h3, h1⟩ := Out.bind_inv h1
      injection h1 with h1
      subst h1
      show Fresh g maxTag i (res i).1
      unfold executeRefines at h3
      obtain ⟨m, -, h3⟩ := Out.bind_inv h3
      obtain ⟨un, -, h3⟩ := Out.bind_inv h3
      have h4 := Out.collect_inv h3 i
      obtain ⟨p, -, h5⟩ := Out.bind_inv h4
      obtain ⟨p', h6, h7⟩ := Out.bind_inv h5
      injection h7 with h7
      rw [← h7]
      exact fresh_rebuild h6
  | balance z =>
    obtain ⟨b, -, h1⟩ := Out.bind_inv hs
    obtain ⟨b', -, h2⟩ := Out.bind_inv h1
    have h3 := Out.collect_inv h2 i
    split at h3
    · cases h3
    · exact fresh_rebuild h3

theorem Reachable.fresh (hw : g.WF) (h : Reachable g dflt maxTag s) (i : Fin n) : Fresh g maxTag i (s i) := by
  have hn : 0 < n := by have := i.2; omega
  induction h generalizing i with
  | init hs => exact fresh_rebuild (Out.collect_inv hs i)
  | copy hr ih => exact (ih i).copied _
  | @step D dflt maxTag s s' op hr ho hs ih =>
    obtain ⟨w, hi⟩ := hr.inv hw hn
    exact inv_fresh hw hi ih hs i

theorem hoodFor_tags {i : Fin n} {p : Proc n D W} (h : Fresh g maxTag i p) {id : Int} {H : List (V3 Int)}
    (hH : hoodFor g p id = some H) (q : Fin n) :
    (sendList g H i p.owner (fun c => (p.data c).isSome) q).length ≤ maxTag := by
  have h1 := h.tags
  unfold tagsFit at h1
  rw [List.all_eq_true] at h1
  have h2 := h1 H (by
    unfold hoodFor at hH
    split at hH
    · injection hH with hH; subst hH; exact List.mem_cons_self
    · refine List.mem_cons_of_mem _ (List.mem_map.2 ⟨(id, H), ?_, rfl⟩)
      have : ∀ l : List (Int × List (V3 Int)), l.lookup id = some H → (id, H) ∈ l := by
        intro l hl
        induction l with
        | nil => cases hl
        | cons a l ih =>
          rw [List.lookup_cons] at hl
          split at hl
          · rename_i e
            injection hl with hl
            have : id = a.1 := by simpa using e
            rw [this, ← hl]; exact List.mem_cons_self
          · exact List.mem_cons_of_mem _ (ih hl)
      exact this _ hH)
  rw [List.all_eq_true] at h2
  have h3 := h2 q (List.mem_finRange q)
  simp only [Bool.and_eq_true, decide_eq_true_eq] at h3
  exact h3.1

/-- In a reachable state updates of remote neighbors always succeed if the neighborhood exists. -/
theorem Reachable.update_ok (hw : g.WF) (hn : 0 < n) (h : Reachable g dflt maxTag s) {id : Int}
    (hk : ∀ i, (hoodFor g (s i) id).isSome = true) : ∃ res, updateRemote g maxTag id s = .ok res := by
  obtain ⟨w, hi⟩ := h.inv hw (by omega)
  obtain ⟨H, hH⟩ := Option.isSome_iff_exists.1 (hk ⟨0, by omega⟩)
  have hH' : ∀ i, hoodFor g (s i) id = some H := fun i => (hoodFor_agree hi i _ id).trans hH
  have hsub := hoodFor_sub hi hH
  obtain ⟨res, h1, -⟩ := transfer_spec (dest := fun p => (s p).remote) (maxTag := maxTag)
    (lists_match (H := H) hw hi.sys.tiled hi.sys.balanced hsub (has := fun i c => ((s i).data c).isSome) hi.sys.placed)
    (data := fun p => (s p).data)
    (fun p q => by
      have := hoodFor_tags (h.fresh hw p) (hH' p) q
      rwa [hi.sys.owner] at this)
    (fun p q c hc => (hi.sys.placed p c).2 ((mem_sendList hw hi.sys.tiled hi.sys.balanced hsub (hi.sys.placed p)).1 hc).2.1)
  unfold updateRemote
  rw [if_neg (by rintro ⟨i, hi⟩; rw [hH'] at hi; cases hi)]
  simp only [hH', hi.sys.owner, Option.getD_some]
  rw [h1, Out.bind_ok]
  exact ⟨_, rfl⟩

end Dccrg
