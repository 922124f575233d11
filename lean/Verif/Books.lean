import Verif.Props.RefineData
/-!
# Recorded requests of pins and weights

A record of what users have asked by `pin`, `unpin` and `set_cell_weight`, kept next to the grid, and
what the grid knows about it.
-/
namespace Dccrg
open Cfg
variable {n : Nat} {D W : Type} {g : Cfg} {w : Owner n} {s s' : Sys n D W} {dflt : D} {maxTag : Nat}

/-- Pins that were requested before last load balancing and now, weights set since last load balancing. -/
structure Ledger (n : Nat) (W : Type) where
  eff : Nat → Option (Fin n)
  pin : Nat → Option (Fin n)
  weight : Nat → Option W

/-- Nothing has been requested. -/
def Ledger.empty : Ledger n W := ⟨fun _ => none, fun _ => none, fun _ => none⟩

/-- Process given to `pin`. -/
def rank (n : Nat) (q : Int) : Option (Fin n) := if h : 0 ≤ q ∧ q.toNat < n then some ⟨q.toNat, h.2⟩ else none

open Classical in
/-- Children of cells which existed get what their parent had, parents of cells that existed get
nothing. -/
noncomputable def inheritFrom {α : Type} (g : Cfg) (E : Nat → Prop) (f : Nat → Option α) (c : Nat) : Option α :=
  if E c then f c else if E (g.parent c) then f (g.parent c) else none

open Classical in
/-- Change of the record in an operation. A pin to a process to which the cell was already pinned in last load
balancing is not recorded (dccrg.hpp:6031-6034). -/
noncomputable def Ledger.after (g : Cfg) (L : Ledger n W) (s : Sys n D W) : Op n D W → Ledger n W
  | .pin i c q => { L with
      pin := fun x => if x = c ∧ (Dccrg.pin g i (s i) c q).1 = true ∧ L.eff c ≠ rank n q then rank n q
        else L.pin x }
  | .unpin i c => { L with
      pin := fun x => if x = c ∧ (Dccrg.unpin g i (s i) c).1 = true then none else L.pin x }
  | .unpinLocal i => { L with pin := fun x => if (s i).owner x = some i then none else L.pin x }
  | .unpinAll => { L with
      eff := fun _ => none
      pin := fun _ => none }
  | .setWeight i c v => { L with
      weight := fun x => if x = c ∧ (Dccrg.setWeight g i (s i) c v).1 = true then some v else L.weight x }
  | .stop _ =>
      let E := fun c => ∃ i, exist (s i).owner c = true
      ⟨inheritFrom g E L.eff, inheritFrom g E L.pin, inheritFrom g E L.weight⟩
  | .balance _ => ⟨L.pin, L.pin, fun _ => none⟩
  | _ => L

/-- All histories of operations with the record of what was requested. -/
inductive Booked {n : Nat} {W : Type} (g : Cfg) : {D : Type} → D → Nat → Ledger n W → Sys n D W → Prop
  | init {D : Type} {dflt : D} {maxTag : Nat} {s : Sys n D W} :
      createGrid g n dflt maxTag = .ok s → Booked g dflt maxTag Ledger.empty s
  | step {D : Type} {dflt : D} {maxTag : Nat} {L : Ledger n W} {s s' : Sys n D W} (op : Op n D W) :
      Booked g dflt maxTag L s → op.Ok s →
      Dccrg.step g dflt maxTag s op = .ok s' → Booked g dflt maxTag (L.after g s op) s'
  | copy {D D0 : Type} {dflt : D} {dflt0 : D0} {maxTag : Nat} {L : Ledger n W} {s : Sys n D0 W} :
      Booked g dflt0 maxTag L s → Booked g dflt maxTag L (copyGrid g dflt s)

variable {L : Ledger n W}

theorem Booked.reachable (h : Booked g dflt maxTag L s) : Reachable g dflt maxTag s := by
  induction h with
  | init h => exact .init h
  | step op _ ho hs ih => exact .step op ih ho hs
  | copy _ ih => exact .copy ih

theorem Reachable.booked (h : Reachable g dflt maxTag s) : ∃ L, Booked g dflt maxTag L s := by
  induction h with
  | init h => exact ⟨_, .init h⟩
  | step op _ ho hs ih => obtain ⟨L, hL⟩ := ih; exact ⟨_, .step op hL ho hs⟩
  | copy _ ih => obtain ⟨L, hL⟩ := ih; exact ⟨_, .copy hL⟩

/-- The grid knows what is in the record. -/
structure Books (w : Owner n) (L : Ledger n W) (s : Sys n D W) : Prop where
  eff : ∀ i c, exist w c = true → (s i).pins c = L.eff c
  pin : ∀ i c, w c = some i → ((s i).newPins c).getD ((s i).pins c) = L.pin c
  weight : ∀ i c, w c = some i → (s i).weights c = L.weight c

theorem ownLeaf_iff (hw : g.WF) (hi : Inv g w s) (i : Fin n) (c : Nat) :
    ownLeaf g i (s i) c = true ↔ w c = some i := by
  unfold ownLeaf
  rw [hi.sys.owner]
  simp only [Bool.and_eq_true, decide_eq_true_eq, beq_iff_eq]
  refine ⟨fun h => h.1, fun h => ⟨h, ?_⟩⟩
  have he := exist_of h
  exact ((hi.sys.tiled.getChild_eq_iff hw (valid_pos (hi.sys.tiled.valid c he))).2 he).symm

theorem Books.set (h : Books w L s) (i : Fin n) {p : Proc n D W}
    (h1 : p.pins = (s i).pins) (h2 : p.newPins = (s i).newPins) (h3 : p.weights = (s i).weights) :
    Books w L (s.set i p) := by
  refine ⟨fun j c hc => ?_, fun j c hc => ?_, fun j c hc => ?_⟩ <;> unfold Sys.set <;> split
  · rename_i e; subst e; rw [h1]; exact h.eff _ c hc
  · exact h.eff _ c hc
  · rename_i e; subst e; rw [h1, h2]; exact h.pin _ c hc
  · exact h.pin _ c hc
  · rename_i e; subst e; rw [h3]; exact h.weight _ c hc
  · exact h.weight _ c hc

theorem Books.same (h : Books w L s) (h1 : ∀ i, (s' i).pins = (s i).pins)
    (h2 : ∀ i, (s' i).newPins = (s i).newPins) (h3 : ∀ i, (s' i).weights = (s i).weights) : Books w L s' := by
  refine ⟨fun i c hc => ?_, fun i c hc => ?_, fun i c hc => ?_⟩
  · rw [h1]; exact h.eff i c hc
  · rw [h1, h2]; exact h.pin i c hc
  · rw [h3]; exact h.weight i c hc

/-- Effect of `unpin` on pins and weights. -/
theorem unpin_books (i : Fin n) (p : Proc n D W) (c : Nat) :
    (unpin g i p c).2.pins = p.pins ∧ (unpin g i p c).2.weights = p.weights ∧
    (unpin g i p c).2.owner = p.owner ∧
    (∀ x, ¬ (x = c ∧ ownLeaf g i p c = true) → (unpin g i p c).2.newPins x = p.newPins x) ∧
    (ownLeaf g i p c = true → ((unpin g i p c).2.newPins c).getD (p.pins c) = none) ∧
    (unpin g i p c).1 = ownLeaf g i p c := by
  unfold unpin
  split
  · rename_i h
    refine ⟨rfl, rfl, rfl, fun _ _ => rfl, fun h' => ?_, ?_⟩
    · rw [h] at h'; cases h'
    · rw [h]
  · rename_i h
    have h' : ownLeaf g i p c = true := by simpa using h
    split
    · refine ⟨rfl, rfl, rfl, fun x hx => if_neg fun e => hx ⟨e, h'⟩, fun _ => ?_, h'.symm⟩
      show (if c = c then some none else p.newPins c : Option (Option (Fin n))).getD _ = _
      rw [if_pos rfl]; rfl
    · rename_i h2
      refine ⟨rfl, rfl, rfl, fun x hx => if_neg fun e => hx ⟨e, h'⟩, fun _ => ?_, h'.symm⟩
      show (if c = c then none else p.newPins c : Option (Option (Fin n))).getD _ = _
      rw [if_pos rfl]
      exact Option.not_isSome_iff_eq_none.1 h2

theorem unpinLocal_books (i : Fin n) (p : Proc n D W) :
    (unpinLocal g i p).2.pins = p.pins ∧ (unpinLocal g i p).2.weights = p.weights ∧
    ∀ x, x ∈ ids g → (p.data x).isSome = true → ownLeaf g i p x = true →
      ((unpinLocal g i p).2.newPins x).getD (p.pins x) = none := by
  unfold unpinLocal
  let l := (ids g).filter fun c => (p.data c).isSome
  suffices ∀ (l : List Nat) b (q : Proc n D W), q.pins = p.pins → q.weights = p.weights → q.owner = p.owner →
      let r := (l.foldl (fun s c => let r := Dccrg.unpin g i s.2 c; (s.1 && r.1, r.2)) (b, q)).2
      r.pins = p.pins ∧ r.weights = p.weights ∧
        ∀ x, ownLeaf g i p x = true → x ∈ l ∨ (q.newPins x).getD (p.pins x) = none →
          (r.newPins x).getD (p.pins x) = none by
    obtain ⟨h1, h2, h3⟩ := this l true p rfl rfl rfl
    exact ⟨h1, h2, fun x hx hd ho => h3 x ho (Or.inl (List.mem_filter.2 ⟨hx, hd⟩))⟩
  intro l
  induction l with
  | nil =>
    intro b q h1 h2 h3
    refine ⟨h1, h2, fun x ho hx => ?_⟩
    rcases hx with hx | hx
    · cases hx
    · exact hx
  | cons a l ih =>
    intro b q h1 h2 h3
    obtain ⟨e1, e2, e3, e4, e5, e6⟩ := unpin_books (g := g) i q a
    obtain ⟨f1, f2, f3⟩ := ih (b && (Dccrg.unpin g i q a).1) (Dccrg.unpin g i q a).2 (e1.trans h1) (e2.trans h2)
      (e3.trans h3)
    have hown : ∀ x, ownLeaf g i q x = ownLeaf g i p x := by intro x; unfold ownLeaf; rw [h3]
    refine ⟨f1, f2, fun x ho hx => f3 x ho ?_⟩
    by_cases hxa : x = a
    · subst hxa
      refine Or.inr ?_
      rw [← h1]; exact e5 (by rw [hown]; exact ho)
    · rcases hx with hx | hx
      · rcases List.mem_cons.1 hx with hx | hx
        · exact absurd hx hxa
        · exact Or.inl hx
      · refine Or.inr ?_
        rw [e4 x (fun e => hxa e.1)]; exact hx

theorem unpinLocal_other (i : Fin n) (p : Proc n D W) (x : Nat) (hx : p.owner x ≠ some i) :
    (unpinLocal g i p).2.newPins x = p.newPins x := by
  unfold unpinLocal
  generalize (ids g).filter _ = l
  suffices ∀ b (q : Proc n D W), q.owner = p.owner → q.newPins x = p.newPins x →
      ((l.foldl (fun s c => let r := Dccrg.unpin g i s.2 c; (s.1 && r.1, r.2)) (b, q)).2).newPins x =
        p.newPins x from this true p rfl rfl
  induction l with
  | nil => exact fun _ _ _ h => h
  | cons a l ih =>
    intro b q h1 h2
    obtain ⟨-, -, e3, e4, -, -⟩ := unpin_books (g := g) i q a
    refine ih _ _ (e3.trans h1) ((e4 x ?_).trans h2)
    rintro ⟨rfl, e⟩
    refine hx ?_
    rw [← h1]
    exact ownLeaf_owner (by rw [e]; decide)

theorem Plan.par_parent (hw : g.WF) (ht : Tiled g (exist w)) {R U : Nat → Prop} (hp : Plan g (exist w) R U) {x : Nat}
    (h : Par g U x) : exist w (g.parent x) = false := by
  cases he : exist w (g.parent x) with
  | false => rfl
  | true =>
    obtain ⟨u, hu, rfl⟩ := h
    obtain ⟨h1, h2, -⟩ := hp.unE u hu
    have hv := ht.valid u h1
    have hv' := parent_valid hw hv
    have := ht.unique (g.idx u) u _ h1 he (mem_self u) (mem_parent hw hv' (mem_parent hw hv (mem_self u)))
    have hl := lvl_parent hw hv
    have hl' := lvl_parent hw hv'
    rw [← this] at hl'
    omega

theorem Booked.books (hw : g.WF) (hn : 0 < n) (h : Booked g dflt maxTag L s) : ∃ w, Inv g w s ∧ Books w L s := by
  induction h with
  | @init D dflt maxTag s h =>
    obtain ⟨w, hi⟩ := (Reachable.init h).inv hw hn
    have hM : maxTag ≤ max maxTag g.last := Nat.le_max_left _ _
    have hM' : g.last ≤ max maxTag g.last := Nat.le_max_right _ _
    obtain ⟨s', h1, h2, h3⟩ := createGrid_spec (W := W) hw hn dflt
      (fitsTags_mono hM' (fitsTags_last (createLevel0_tiled hw hn).valid))
    rw [createGrid_mono hM h] at h1
    injection h1 with h1
    subst h1
    have e := fun i c => ((h3 i).2.2.2.2 c).2.2
    refine ⟨w, hi, fun i c _ => (e i c).1, fun i c _ => ?_, fun i c _ => (e i c).2.2⟩
    rw [(e i c).1, (e i c).2.1]; rfl
  | copy _ ih =>
    obtain ⟨w, hi, hk⟩ := ih
    exact ⟨w, hi.copy _, hk.eff, hk.pin, hk.weight⟩
  | @step D dflt maxTag L s s' op hb ho hs ih =>
    obtain ⟨w, hi, hk⟩ := ih
    have key : (∀ z, op ≠ .balance z) → (∀ sorted, op ≠ .stop sorted) → ∃ w', Inv g w' s' ∧ w' = w := by
      intro h1 h2
      obtain ⟨w', hi'⟩ := (Reachable.step op hb.reachable ho hs).inv hw hn
      refine ⟨w', hi', ?_⟩
      rw [← hi'.sys.owner ⟨0, hn⟩, ← hi.sys.owner ⟨0, hn⟩]
      exact (step_quiet op (by cases op <;> first | trivial | exact absurd rfl (h1 _) | exact absurd rfl (h2 _)) hs _).1
    cases op with
    | refine i c =>
      obtain ⟨_, hi', rfl⟩ := key (by intro _ h; cases h) (by intro _ h; cases h)
      obtain ⟨b, r, -, rfl⟩ := ask_inv hs
      exact ⟨_, hi', hk.set i rfl rfl rfl⟩
    | unrefine i c =>
      obtain ⟨_, hi', rfl⟩ := key (by intro _ h; cases h) (by intro _ h; cases h)
      obtain ⟨b, r, -, rfl⟩ := ask_inv hs
      exact ⟨_, hi', hk.set i rfl rfl rfl⟩
    | dontRefine i c =>
      obtain ⟨_, hi', rfl⟩ := key (by intro _ h; cases h) (by intro _ h; cases h)
      obtain ⟨b, r, -, rfl⟩ := ask_inv hs
      exact ⟨_, hi', hk.set i rfl rfl rfl⟩
    | dontUnrefine i c =>
      obtain ⟨_, hi', rfl⟩ := key (by intro _ h; cases h) (by intro _ h; cases h)
      obtain ⟨b, r, -, rfl⟩ := ask_inv hs
      exact ⟨_, hi', hk.set i rfl rfl rfl⟩
    | pin i c q =>
      obtain ⟨_, hi', rfl⟩ := key (by intro _ h; cases h) (by intro _ h; cases h)
      refine ⟨_, hi', ?_⟩
      injection hs with hs
      subst hs
      refine ⟨fun j x hx => ?_, fun j x hx => ?_, fun j x hx => ?_⟩
      · show _ = L.eff x
        rw [← hk.eff j x hx]
        unfold Sys.set
        split
        · rename_i e; subst e
          unfold Dccrg.pin
          split
          · rfl
          · split
            · split <;> rfl
            · rfl
        · rfl
      · show _ = if _ then _ else _
        rw [← hk.pin j x hx]
        by_cases hj : j = i
        · subst hj
          rw [Sys.set_same]
          by_cases hxc : x = c
          · subst hxc
            have hl := (ownLeaf_iff hw hi j x).2 hx
            have he := hk.eff j x (exist_of hx)
            unfold Dccrg.pin rank
            rw [if_neg (by rw [hl]; decide), ← he]
            split
            · split
              · rename_i h3
                rw [if_neg]
                rintro ⟨-, -, h4⟩; exact h4 h3
              · rename_i h3
                rw [if_pos ⟨rfl, rfl, h3⟩]
                show (if x = x then _ else _ : Option (Option (Fin n))).getD _ = _
                rw [if_pos rfl]; rfl
            · rw [if_neg]
              rintro ⟨-, h4, -⟩; cases h4
          · rw [if_neg (fun e => hxc e.1)]
            unfold Dccrg.pin
            split
            · rfl
            · split
              · split
                · rfl
                · show (if x = c then _ else _ : Option (Option (Fin n))).getD _ = _
                  rw [if_neg hxc]
              · rfl
        · rw [Sys.set_other _ hj, if_neg]
          rintro ⟨rfl, h4, -⟩
          have : ownLeaf g i (s i) x = true := by
            cases h5 : ownLeaf g i (s i) x with
            | true => rfl
            | false => unfold Dccrg.pin at h4; rw [if_pos h5] at h4; cases h4
          rw [ownLeaf_iff hw hi, hx] at this
          injection this with this
          exact hj this
      · show _ = L.weight x
        rw [← hk.weight j x hx]
        unfold Sys.set
        split
        · rename_i e; subst e
          unfold Dccrg.pin
          split
          · rfl
          · split
            · split <;> rfl
            · rfl
        · rfl
    | unpin i c =>
      obtain ⟨_, hi', rfl⟩ := key (by intro _ h; cases h) (by intro _ h; cases h)
      refine ⟨_, hi', ?_⟩
      injection hs with hs
      subst hs
      obtain ⟨e1, e2, -, e4, e5, e6⟩ := unpin_books (g := g) i (s i) c
      refine ⟨fun j x hx => ?_, fun j x hx => ?_, fun j x hx => ?_⟩
      · show _ = L.eff x
        rw [← hk.eff j x hx]
        unfold Sys.set
        split
        · rename_i e; subst e; rw [e1]
        · rfl
      · show _ = if _ then _ else _
        rw [← hk.pin j x hx, e6]
        by_cases hj : j = i
        · subst hj
          rw [Sys.set_same]
          by_cases hxc : x = c ∧ ownLeaf g j (s j) c = true
          · rw [if_pos hxc, e1, hxc.1]; exact e5 hxc.2
          · rw [if_neg hxc, e4 x hxc, e1]
        · rw [Sys.set_other _ hj, if_neg]
          rintro ⟨rfl, h4⟩
          rw [ownLeaf_iff hw hi, hx] at h4
          injection h4 with h4
          exact hj h4
      · show _ = L.weight x
        rw [← hk.weight j x hx]
        unfold Sys.set
        split
        · rename_i e; subst e; rw [e2]
        · rfl
    | unpinLocal i =>
      obtain ⟨_, hi', rfl⟩ := key (by intro _ h; cases h) (by intro _ h; cases h)
      refine ⟨_, hi', ?_⟩
      injection hs with hs
      subst hs
      obtain ⟨e1, e2, e3⟩ := unpinLocal_books (g := g) i (s i)
      refine ⟨fun j x hx => ?_, fun j x hx => ?_, fun j x hx => ?_⟩
      · show _ = L.eff x
        rw [← hk.eff j x hx]
        unfold Sys.set
        split
        · rename_i e; subst e; rw [e1]
        · rfl
      · show _ = if _ then _ else _
        rw [hi.sys.owner, hx]
        by_cases hj : j = i
        · subst hj
          rw [Sys.set_same, if_pos rfl, e1]
          refine e3 x ?_ ((hi.sys.placed j x).2 hx) ((ownLeaf_iff hw hi j x).2 hx)
          exact mem_ids.2 (hi.sys.tiled.valid x (exist_of hx)).2
        · rw [Sys.set_other _ hj, if_neg (by intro e; injection e with e; exact hj e)]
          exact hk.pin j x hx
      · show _ = L.weight x
        rw [← hk.weight j x hx]
        unfold Sys.set
        split
        · rename_i e; subst e; rw [e2]
        · rfl
    | setWeight i c v =>
      obtain ⟨_, hi', rfl⟩ := key (by intro _ h; cases h) (by intro _ h; cases h)
      refine ⟨_, hi', ?_⟩
      injection hs with hs
      subst hs
      have e1 : ∀ c, (Dccrg.setWeight g i (s i) c v).2.pins = (s i).pins ∧
          (Dccrg.setWeight g i (s i) c v).2.newPins = (s i).newPins := by
        intro c; unfold Dccrg.setWeight; split <;> exact ⟨rfl, rfl⟩
      refine ⟨fun j x hx => ?_, fun j x hx => ?_, fun j x hx => ?_⟩
      · show _ = L.eff x
        rw [← hk.eff j x hx]
        unfold Sys.set
        split
        · rename_i e; subst e; rw [(e1 c).1]
        · rfl
      · show _ = L.pin x
        rw [← hk.pin j x hx]
        unfold Sys.set
        split
        · rename_i e; subst e; rw [(e1 c).1, (e1 c).2]
        · rfl
      · show _ = if _ then _ else _
        rw [← hk.weight j x hx]
        by_cases hj : j = i
        · subst hj
          rw [Sys.set_same]
          by_cases hxc : x = c
          · subst hxc
            have hl := (ownLeaf_iff hw hi j x).2 hx
            unfold Dccrg.setWeight
            rw [if_neg (by rw [hl]; decide), if_pos ⟨rfl, rfl⟩]
            exact if_pos rfl
          · rw [if_neg (fun e => hxc e.1)]
            unfold Dccrg.setWeight
            split
            · rfl
            · exact if_neg hxc
        · rw [Sys.set_other _ hj, if_neg]
          rintro ⟨rfl, h4⟩
          have : ownLeaf g i (s i) x = true := by
            cases h5 : ownLeaf g i (s i) x with
            | true => rfl
            | false => unfold Dccrg.setWeight at h4; rw [if_pos h5] at h4; cases h4
          rw [ownLeaf_iff hw hi, hx] at this
          injection this with this
          exact hj this
    | write i c v =>
      obtain ⟨_, hi', rfl⟩ := key (by intro _ h; cases h) (by intro _ h; cases h)
      injection hs with hs
      subst hs
      have e : (Dccrg.write (s i) c v).pins = (s i).pins ∧ (Dccrg.write (s i) c v).newPins = (s i).newPins ∧
          (Dccrg.write (s i) c v).weights = (s i).weights := by
        unfold Dccrg.write
        split
        · exact ⟨rfl, rfl, rfl⟩
        · split
          · exact ⟨rfl, rfl, rfl⟩
          · split
            · exact ⟨rfl, rfl, rfl⟩
            · split <;> exact ⟨rfl, rfl, rfl⟩
      exact ⟨_, hi', hk.set i e.1 e.2.1 e.2.2⟩
    | clearRefined i =>
      obtain ⟨_, hi', rfl⟩ := key (by intro _ h; cases h) (by intro _ h; cases h)
      injection hs with hs
      subst hs
      exact ⟨_, hi', hk.set i rfl rfl rfl⟩
    | unpinAll =>
      obtain ⟨_, hi', rfl⟩ := key (by intro _ h; cases h) (by intro _ h; cases h)
      injection hs with hs
      subst hs
      exact ⟨_, hi', fun _ _ _ => rfl, fun _ _ _ => rfl, hk.weight⟩
    | update id =>
      obtain ⟨_, hi', rfl⟩ := key (by intro _ h; cases h) (by intro _ h; cases h)
      obtain ⟨r, h1, h2⟩ := Out.bind_inv hs
      injection h2 with h2
      subst h2
      obtain ⟨-, e2, -⟩ := updateRemote_sound hw hi h1
      exact ⟨_, hi', hk.same (fun i => by rw [e2 i]) (fun i => by rw [e2 i]) (fun i => by rw [e2 i])⟩
    | addHood id items =>
      obtain ⟨_, hi', rfl⟩ := key (by intro _ h; cases h) (by intro _ h; cases h)
      obtain ⟨r, h1, h2⟩ := Out.bind_inv hs
      injection h2 with h2
      subst h2
      have e : ∀ i, (r i).2.pins = (s i).pins ∧ (r i).2.newPins = (s i).newPins ∧
          (r i).2.weights = (s i).weights := by
        intro i
        have h3 := addHood_inv (b := (r i).1) (p' := (r i).2) (Out.collect_inv h1 i)
        cases hb : (r i).1 with
        | false => rw [h3.2.1 hb]; exact ⟨rfl, rfl, rfl⟩
        | true => rw [h3.2.2 hb]; exact ⟨rfl, rfl, rfl⟩
      exact ⟨_, hi', hk.same (fun i => (e i).1) (fun i => (e i).2.1) (fun i => (e i).2.2)⟩
    | removeHood id =>
      obtain ⟨_, hi', rfl⟩ := key (by intro _ h; cases h) (by intro _ h; cases h)
      injection hs with hs
      subst hs
      have e : ∀ i, (Dccrg.removeHood (s i) id).pins = (s i).pins ∧
          (Dccrg.removeHood (s i) id).newPins = (s i).newPins ∧
          (Dccrg.removeHood (s i) id).weights = (s i).weights := by
        intro i
        unfold Dccrg.removeHood
        split <;> exact ⟨rfl, rfl, rfl⟩
      exact ⟨_, hi', hk.same (fun i => (e i).1) (fun i => (e i).2.1) (fun i => (e i).2.2)⟩
    | stop sorted =>
      obtain ⟨w', hi'⟩ := (Reachable.step (.stop sorted) hb.reachable ho hs).inv hw hn
      obtain ⟨res, h1, h2⟩ := Out.bind_inv hs
      injection h2 with h2
      subst h2
      obtain ⟨w0, R, U, hi0, hp, hx, -⟩ := hb.reachable.stopped hw h1 ⟨0, hn⟩
      have e0 : w0 = w := by rw [← hi.sys.owner ⟨0, hn⟩, ← hi0.sys.owner ⟨0, hn⟩]
      subst e0
      have e1 : w' = newOwner g w0 R U := by rw [← hi'.sys.owner ⟨0, hn⟩]; exact (hx _).owner
      have ht := hi.sys.tiled
      have hE : ∀ c, (∃ i : Fin n, exist (s i).owner c = true) ↔ exist w0 c = true := by
        intro c
        constructor
        · rintro ⟨i, h⟩; rwa [hi.sys.owner] at h
        · intro h; exact ⟨⟨0, hn⟩, by rwa [hi.sys.owner]⟩
      have hall : ∀ c, exist w' c = true →
          (exist w0 c = true ∧ ¬ R c ∧ ¬ Fam g U c) ∨
          (New g R c ∧ exist w0 c = false ∧ exist w0 (g.parent c) = true ∧ w' c = w0 (g.parent c)) ∨
          (Par g U c ∧ exist w0 c = false ∧ exist w0 (g.parent c) = false) := by
        intro c hc
        rw [e1] at hc ⊢
        rcases (newOwner_exist hw ht hp c).1 hc with h | h | h
        · exact Or.inl h
        · refine Or.inr (Or.inl ⟨h, hp.new_not_exist hw ht h, ?_, newOwner_new hw ht hp h⟩)
          obtain ⟨r, hr, hrc⟩ := h
          obtain ⟨a1, a2⟩ := hp.refE r hr
          rw [((children_spec hw (ht.valid r a1) a2).1 hrc).2.2]; exact a1
        · obtain ⟨u, hu, rfl⟩ := h
          exact Or.inr (Or.inr ⟨⟨u, hu, rfl⟩, hp.par_not_exist hw ht ⟨u, hu, rfl⟩, hp.par_parent hw ht ⟨u, hu, rfl⟩⟩)
      have hinh : ∀ {α : Type} (f : Nat → Option α) c,
          (exist w0 c = true → inheritFrom g (fun c => ∃ i : Fin n, exist (s i).owner c = true) f c = f c) ∧
          (exist w0 c = false → exist w0 (g.parent c) = true →
            inheritFrom g (fun c => ∃ i : Fin n, exist (s i).owner c = true) f c = f (g.parent c)) ∧
          (exist w0 c = false → exist w0 (g.parent c) = false →
            inheritFrom g (fun c => ∃ i : Fin n, exist (s i).owner c = true) f c = none) := by
        intro α f c
        unfold inheritFrom
        simp only [hE]
        refine ⟨fun h => if_pos h, fun h h' => ?_, fun h h' => ?_⟩
        · rw [if_neg (by rw [h]; decide), if_pos h']
        · rw [if_neg (by rw [h]; decide), if_neg (by rw [h']; decide)]
      have hother : ∀ i c, Par g U c → exist w0 c = false →
          (res i).1.pins c = none ∧ (res i).1.newPins c = none := by
        intro i c hP hne
        refine (hx i).pinsOther c ?_ (fun h => by rw [h.1] at hne; cases hne)
        intro hN
        obtain ⟨r, hr, hrc⟩ := hN
        obtain ⟨a1, a2⟩ := hp.refE r hr
        have := hp.par_parent hw ht hP
        rw [((children_spec hw (ht.valid r a1) a2).1 hrc).2.2, a1] at this
        cases this
      refine ⟨w', hi', fun i c hc => ?_, fun i c hc => ?_, fun i c hc => ?_⟩
      · show _ = inheritFrom g (fun c => ∃ i : Fin n, exist (s i).owner c = true) L.eff c
        rcases hall c hc with ⟨a1, a2, a3⟩ | ⟨a1, a2, a3, -⟩ | ⟨a1, a2, a3⟩
        · rw [((hx i).pinsSame c a1 a2 a3).1, (hinh _ c).1 a1]; exact hk.eff i c a1
        · rw [((hx i).pinsNew c a1).1, (hinh _ c).2.1 a2 a3]; exact hk.eff i _ a3
        · rw [(hother i c a1 a2).1, (hinh _ c).2.2 a2 a3]
      · show _ = inheritFrom g (fun c => ∃ i : Fin n, exist (s i).owner c = true) L.pin c
        rcases hall c (exist_of hc) with ⟨a1, a2, a3⟩ | ⟨a1, a2, a3, a4⟩ | ⟨a1, a2, a3⟩
        · obtain ⟨b1, b2⟩ := (hx i).pinsSame c a1 a2 a3
          rw [b1, b2, (hinh _ c).1 a1]
          rw [e1, newOwner_same hw ht hp a1 a2 a3] at hc
          exact hk.pin i c hc
        · obtain ⟨b1, b2⟩ := (hx i).pinsNew c a1
          rw [b1, b2, (hinh _ c).2.1 a2 a3]
          exact hk.pin i _ (a4.symm.trans hc)
        · rw [(hother i c a1 a2).1, (hother i c a1 a2).2, (hinh _ c).2.2 a2 a3]; rfl
      · show _ = inheritFrom g (fun c => ∃ i : Fin n, exist (s i).owner c = true) L.weight c
        rcases hall c (exist_of hc) with ⟨a1, a2, a3⟩ | ⟨a1, a2, a3, a4⟩ | ⟨a1, a2, a3⟩
        · rw [(hx i).weightsSame c a1 a2 a3, (hinh _ c).1 a1]
          rw [e1, newOwner_same hw ht hp a1 a2 a3] at hc
          exact hk.weight i c hc
        · rw [(hx i).weightsNew (hi.sys.weights i) c a1 (by rw [← e1]; exact hc), (hinh _ c).2.1 a2 a3]
          exact hk.weight i _ (a4.symm.trans hc)
        · rw [(hx i).weightsOther (hi.sys.weights i) c (Or.inr a1), (hinh _ c).2.2 a2 a3]
    | balance z =>
      obtain ⟨w', hi'⟩ := (Reachable.step (.balance z) hb.reachable ho hs).inv hw hn
      have hz : MovesOk w z := by have := ho ⟨0, hn⟩; rwa [hi.sys.owner] at this
      have hx := fun i => balanceLoad_sound hw hz hi.sys (show balanceLoad g dflt maxTag z s = .ok s' from hs) i
      have e1 : w' = newHome w (pinned w s) z := by rw [← hi'.sys.owner ⟨0, hn⟩]; exact (hx _).owner
      have hpin : ∀ c, exist w c = true → pinned w s c = L.pin c := by
        intro c hc
        unfold exist at hc
        unfold pinned
        cases hwc : w c with
        | none => rw [hwc] at hc; cases hc
        | some p => exact hk.pin p c hwc
      refine ⟨w', hi', fun i c hc => ?_, fun i c hc => ?_, fun i c hc => ?_⟩
      · rw [(hx i).pins]
        rw [e1, exist_newHome] at hc
        exact hpin c hc
      · rw [(hx i).pins, (hx i).newPins]
        have := exist_of hc
        rw [e1, exist_newHome] at this
        exact hpin c this
      · exact (hx i).weights c

end Dccrg
