import Verif.AdvectCheck
import Verif.Props.AdvectAdapt
/-!
# C122: results of the advection test do not depend on processes
-/
namespace Dccrg
open Cfg
variable {n : Nat} {W : Type} {g : Cfg} {maxTag : Nat} {dflt : AdvCell} {s t : Sys n AdvCell W}

/-! ## Differences -/

/-- Cell `b` touches a face of cell `c` and lower corners of the cells are at the same place in the other two dimensions. -/
def Beside (g : Cfg) (c b : Nat) : Prop := ∃ d pos off, Touch g c d pos b off ∧ ∀ e, e ≠ d → off e = 0

theorem Beside.symm {c b : Nat} (h : Beside g c b) : Beside g b c := by
  obtain ⟨d, pos, off, h1, h2⟩ := h
  exact ⟨d, !pos, _, h1.symm, fun e he => by rw [h2 e he]; rfl⟩

/-- Difference of densities `a` and `b` relative to the smaller of them plus a threshold. -/
def densityDiff (threshold a b : Rat) : Rat := max (a - b) (b - a) / (min a b + threshold)

theorem relativeDiff_eq (x a b : Rat) : relativeDiff x a b = densityDiff x a b := by
  unfold relativeDiff densityDiff
  congr 1
  grind

theorem densityDiff_symm (x a b : Rat) : densityDiff x a b = densityDiff x b a := by
  unfold densityDiff
  rw [rat_min_comm a b]
  congr 1
  grind

theorem isFaceNeighbor_iff {cl nl : Int} {off : V3 Int} :
    isFaceNeighbor cl nl off = true ↔ ∃ (d : Fin 3) (pos : Bool), (off d = if pos then cl else -nl) ∧ ∀ e, e ≠ d → off e = 0 := by
  have exb : ∀ P : Bool → Prop, (∃ x, P x) ↔ P false ∨ P true := fun P =>
    ⟨fun ⟨x, h⟩ => by cases x <;> simp [h], fun h => h.elim (fun h => ⟨_, h⟩) (fun h => ⟨_, h⟩)⟩
  unfold isFaceNeighbor
  simp only [exists_fin3, forall_fin3, exb, decide_eq_true_eq]
  simp
  grind

/-- Items of a list of neighbors that are used. -/
theorem beside_item {E : Nat → Bool} (hw : g.WF) (ht : Tiled g E) {c : Nat} (hc : E c = true) {H : List (V3 Int)}
    (hH : ∀ o ∈ H, o ∈ hoodOf g) (hF : ∀ o ∈ faces, o ∈ H) {f : V3 Int → List (Nat × V3 Int)}
    (hf : ∀ o ∈ H, IsItem g E c o (f o)) (b : Nat) :
    (∃ off, (b, off) ∈ H.flatMap f ∧ isFaceNeighbor (g.side c) (g.side b) off = true) ↔ E b = true ∧ Beside g c b := by
  have hs := side_pos (g := g) c
  have hb := side_pos (g := g) b
  obtain ⟨-, g2⟩ := fluxDir_item hw ht hc hH hF hf
  constructor
  · rintro ⟨off, h1, h2⟩
    obtain ⟨d, pos, h3, h4⟩ := isFaceNeighbor_iff.1 h2
    have := (g2 b off d pos).1 ⟨h1, ((fluxDir_spec (by omega) (by omega) off).2.1 _).2
      ⟨d, pos, rfl, fun e he => by rw [h4 e he]; exact ⟨by omega, by omega⟩, h3⟩⟩
    exact ⟨this.1, d, pos, off, this.2, h4⟩
  · rintro ⟨h1, d, pos, off, h2, h3⟩
    have := (g2 b off d pos).2 ⟨h1, h2⟩
    exact ⟨off, this.1, isFaceNeighbor_iff.2 ⟨d, pos, h2.next, h3⟩⟩

/-- The largest relative difference between densities `U` of cell `c` and of cells beside it is `x`, and at least zero. -/
structure DiffOf (g : Cfg) (E : Nat → Bool) (threshold : Rat) (U : Nat → Rat) (c : Nat) (x : Rat) : Prop where
  some : x = 0 ∨ ∃ b, E b = true ∧ Beside g c b ∧ x = densityDiff threshold (U c) (U b)
  nonneg : 0 ≤ x
  all : ∀ b, E b = true → Beside g c b → densityDiff threshold (U c) (U b) ≤ x

theorem DiffOf.unique {E : Nat → Bool} {threshold : Rat} {U : Nat → Rat} {c : Nat} {x y : Rat} (h : DiffOf g E threshold U c x)
    (h' : DiffOf g E threshold U c y) : x = y := by
  have key : ∀ {x y : Rat}, DiffOf g E threshold U c x → DiffOf g E threshold U c y → x ≤ y := by
    intro x y h h'
    rcases h.some with e | ⟨b, b1, b2, e⟩
    · rw [e]; exact h'.nonneg
    · rw [e]; exact h'.all b b1 b2
  exact Rat.le_antisymm (key h h') (key h' h)

/-- A loop that raises values. -/
theorem fold_raise {α : Type} {f : α → (Nat → Rat) → Out (Nat → Rat)} {P : (Nat → Rat) → Prop} {Q : α → (Nat → Rat) → Prop}
    (hQ : ∀ a m m', Q a m → (∀ c, m c ≤ m' c) → Q a m') {l : List α}
    (hf : ∀ a ∈ l, ∀ m, P m → ∃ m', f a m = .ok m' ∧ P m' ∧ Q a m' ∧ ∀ c, m c ≤ m' c) {m : Nat → Rat} (hm : P m) :
    ∃ m', Out.fold f l m = .ok m' ∧ P m' ∧ (∀ a ∈ l, Q a m') ∧ ∀ c, m c ≤ m' c := by
  induction l generalizing m with
  | nil => exact ⟨m, rfl, hm, fun a h => (by cases h), fun c => Rat.le_refl⟩
  | cons a l ih =>
    obtain ⟨m1, e1, e2, e3, e4⟩ := hf a (List.mem_cons_self ..) m hm
    obtain ⟨m2, f1, f2, f3, f4⟩ := ih (fun b hb => hf b (List.mem_cons_of_mem _ hb)) e2
    refine ⟨m2, ?_, f2, fun b hb => ?_, fun c => Rat.le_trans (e4 c) (f4 c)⟩
    · unfold Out.fold
      simp only [e1]
      exact f1
    · rcases List.mem_cons.1 hb with rfl | hb
      · exact hQ _ _ _ e3 f4
      · exact f3 b hb

theorem raiseDiff_le (m : Nat → Rat) (c : Nat) (x : Rat) (b : Nat) : m b ≤ raiseDiff m c x b := by
  unfold raiseDiff
  split
  · rename_i h; subst h; grind
  · exact Rat.le_refl

/-- Differences of local cells of a process that has densities `U` of local cells and their neighbors. -/
theorem maxDiffs_spec (hw : g.WF) (h : Reachable g dflt maxTag s) (i : Fin n) {id : Int} {H : List (V3 Int)}
    (hH : hoodFor g (s i) id = some H) (hF : ∀ o ∈ faces, o ∈ H) (threshold : Rat) {U : Nat → Rat}
    (hU : ∀ c, (s i).owner c = some i → ∀ b, b = c ∨ NbrOf g (s i) id c b → ∃ a, access (s i) b = some a ∧ a.density = U b) :
    ∃ m, maxDiffs g threshold i (s i) id = .ok m ∧
      ∀ c, (s i).owner c = some i → DiffOf g (exist (s i).owner) threshold U c (m c) := by
  obtain ⟨w, hi⟩ := h.inv hw (by have := i.2; omega)
  have ht := hi.sys.tiled
  obtain ⟨k, e1, -, -, e2, -, -, e7⟩ := C38_ranges (id := id) hw h i (by rw [hH]; rfl)
  have ho := hi.sys.owner i
  -- items of a local cell
  have items : ∀ x ∈ range k.cells k.loc, (s i).owner x.id = some i ∧
      (∀ y ∈ range k.nbrs x.of, NbrOf g (s i) id x.id y.1) ∧
      ∀ b, (∃ off, (b, off) ∈ range k.nbrs x.of ∧ isFaceNeighbor (g.side x.id) (g.side b) off = true) ↔
        exist w b = true ∧ Beside g x.id b := by
    intro x hx
    have hl := (e2.2 x.id).1 (List.mem_map.2 ⟨x, hx, rfl⟩)
    have hc : exist w x.id = true := by rw [ho] at hl; exact exist_of hl
    obtain ⟨f, f1, f2, -⟩ := hi.neighborsOf hw hH hc
    have e8 := (e7 x ((pointers_in_all e1 x).2.2 hx)).1
    have hmem : ∀ y, y ∈ range k.nbrs x.of ↔ y ∈ H.flatMap f := by
      intro y
      rw [e8.of.2 y, f1]
      constructor
      · rintro ⟨l, e, h⟩; injection e with e; rw [e]; exact h
      · intro h; exact ⟨_, rfl, h⟩
    refine ⟨hl, fun y hy => ?_, fun b => ?_⟩
    · obtain ⟨l, l1, l2⟩ := (e8.of.2 y).1 hy
      exact ⟨l, y.2, l1, l2⟩
    · rw [← beside_item hw ht hc (hoodFor_sub hi hH) hF f2 b]
      exact exists_congr fun off => and_congr_left fun _ => hmem _
  let P : (Nat → Rat) → Prop := fun m => ∀ c, (s i).owner c = some i → 0 ≤ m c ∧
    (m c = 0 ∨ ∃ b, exist w b = true ∧ Beside g c b ∧ m c = densityDiff threshold (U c) (U b))
  have raise : ∀ m c b, P m → (s i).owner c = some i → exist w b = true → Beside g c b →
      P (raiseDiff m c (densityDiff threshold (U c) (U b))) := by
    intro m c b hm hc hb hbs x hx
    unfold raiseDiff
    split
    · rename_i e
      subst e
      obtain ⟨h1, h2⟩ := hm x hx
      have : max (densityDiff threshold (U x) (U b)) (m x) = m x ∨
          max (densityDiff threshold (U x) (U b)) (m x) = densityDiff threshold (U x) (U b) ∧ m x ≤ densityDiff threshold (U x) (U b) := by
        grind
      rcases this with e | ⟨e, e'⟩
      · rw [e]; exact ⟨h1, h2⟩
      · rw [e]; exact ⟨Rat.le_trans h1 e', Or.inr ⟨b, hb, hbs, rfl⟩⟩
    · exact hm x hx
  have inner : ∀ x ∈ range k.cells k.loc, ∀ m, P m →
      ∃ m', Out.fold (diffNeighbor g threshold i (s i) x.id) (range k.nbrs x.of) m = .ok m' ∧ P m' ∧
        (∀ y ∈ range k.nbrs x.of, isFaceNeighbor (g.side x.id) (g.side y.1) y.2 = true →
          densityDiff threshold (U x.id) (U y.1) ≤ m' x.id) ∧ ∀ c, m c ≤ m' c := by
    intro x hx m hm
    obtain ⟨i1, i2, i3⟩ := items x hx
    refine fold_raise (Q := fun (y : Nat × V3 Int) m' => isFaceNeighbor (g.side x.id) (g.side y.1) y.2 = true →
          densityDiff threshold (U x.id) (U y.1) ≤ m' x.id) (fun y m m' h1 h2 h3 => Rat.le_trans (h1 h3) (h2 _)) (fun y hy m hm => ?_) hm
    unfold diffNeighbor
    split
    · rename_i hfn
      obtain ⟨b1, b2⟩ := (i3 y.1).1 ⟨y.2, hy, hfn⟩
      obtain ⟨a, ha, ha'⟩ := hU x.id i1 x.id (Or.inl rfl)
      obtain ⟨b, hb, hb'⟩ := hU x.id i1 y.1 (Or.inr (i2 y hy))
      simp only [ha, hb, ha', hb', relativeDiff_eq]
      refine ⟨_, rfl, ?_, fun _ => ?_, fun c => ?_⟩
      · split
        · rename_i hl
          rw [densityDiff_symm]
          refine raise _ _ _ ?_ hl ?_ b2.symm
          · rw [densityDiff_symm]
            exact raise m x.id y.1 hm i1 b1 b2
          · rw [ho] at i1; exact exist_of i1
        · exact raise m x.id y.1 hm i1 b1 b2
      · have h1 : densityDiff threshold (U x.id) (U y.1) ≤ raiseDiff m x.id (densityDiff threshold (U x.id) (U y.1)) x.id := by
          unfold raiseDiff
          rw [if_pos rfl]
          grind
        split
        · exact Rat.le_trans h1 (raiseDiff_le ..)
        · exact h1
      · split
        · exact Rat.le_trans (raiseDiff_le ..) (raiseDiff_le ..)
        · exact raiseDiff_le ..
    · rename_i hfn
      exact ⟨m, rfl, hm, fun h => absurd h hfn, fun c => Rat.le_refl⟩
  obtain ⟨m, a1, a2, a3, -⟩ := fold_raise (f := fun (x : CellItem) m => Out.fold (diffNeighbor g threshold i (s i) x.id) (range k.nbrs x.of) m)
    (P := P) (Q := fun (x : CellItem) m' => ∀ y ∈ range k.nbrs x.of, isFaceNeighbor (g.side x.id) (g.side y.1) y.2 = true →
          densityDiff threshold (U x.id) (U y.1) ≤ m' x.id) (fun x m m' h1 h2 y hy h3 => Rat.le_trans (h1 y hy h3) (h2 _))
    inner (m := fun _ => 0) (fun c _ => ⟨Rat.le_refl, Or.inl rfl⟩)
  refine ⟨m, ?_, fun c hc => ⟨?_, (a2 c hc).1, fun b hb hbs => ?_⟩⟩
  · unfold maxDiffs
    rw [e1, Out.bind_ok]
    exact a1
  · rw [ho]; exact (a2 c hc).2
  · rw [ho] at hb
    obtain ⟨x, hx, rfl⟩ := List.mem_map.1 ((e2.2 c).2 hc)
    obtain ⟨-, -, i3⟩ := items x hx
    obtain ⟨off, o1, o2⟩ := (i3 b).2 ⟨hb, hbs⟩
    exact a3 x hx (b, off) o1 o2

/-! ## Decisions -/

/-- Requests of cells with existing cells `E` and densities `U`. -/
def checkCalls (g : Cfg) (a : CheckParams) (E : Nat → Bool) (U : Nat → Rat) : Calls where
  refine c := E c = true ∧ ∃ x, DiffOf g E a.threshold U c x ∧ x > (g.lvl c + 1) * a.increase
  dontUnrefine c := E c = true ∧ ∃ x, DiffOf g E a.threshold U c x ∧ x ≤ (g.lvl c + 1) * a.increase ∧
    x ≥ a.sensitivity * ((g.lvl c + 1) * a.increase)
  unrefine c := E c = true ∧ ∃ x, DiffOf g E a.threshold U c x ∧ x ≤ (g.lvl c + 1) * a.increase ∧
    x < a.sensitivity * ((g.lvl c + 1) * a.increase)
  dontRefine _ := False

/-- What is known of the sets when cells of list `l` have been handled. -/
structure Checked (g : Cfg) (R K V : Nat → Prop) (l : List Nat) (z : CheckSets) : Prop where
  refine : ∀ b, b ∈ z.refine ↔ b ∈ l ∧ R b
  keep : ∀ b, b ∈ z.keep → b ∈ l ∧ K b ∧ 0 < g.lvl b
  unrefine : ∀ b, b ∈ z.unrefine → b ∈ l ∧ V b ∧ 0 < g.lvl b
  kept : ∀ b, b ∈ l → K b → 0 < g.lvl b → (∀ x ∈ g.children (g.parent b), ¬ R x) → ∃ x ∈ g.children (g.parent b), x ∈ z.keep
  unrefined : ∀ b, b ∈ l → V b → 0 < g.lvl b → (∀ x ∈ g.children (g.parent b), ¬ R x ∧ ¬ K x) → b ∈ z.unrefine

theorem checkCell_checked {a : CheckParams} {R K V : Nat → Prop} {l : List Nat} {z : CheckSets} (hw : g.WF)
    (hl : ∀ b ∈ l, g.Valid b) (h : Checked g R K V l z) {c : Nat} {x : Rat} (hc : g.Valid c)
    (hR : R c ↔ x > a.refineDiff (g.lvl c)) (hK : K c ↔ x ≤ a.refineDiff (g.lvl c) ∧ x ≥ a.unrefineDiff (g.lvl c))
    (hV : V c ↔ x ≤ a.refineDiff (g.lvl c) ∧ x < a.unrefineDiff (g.lvl c)) :
    Checked g R K V (l ++ [c]) (checkCell g a c x z) := by
  -- a valid sibling is in the same family
  have sib : ∀ b y, g.Valid b → 0 < g.lvl b → y ∈ g.children (g.parent b) → y ∈ g.siblings c → c ∈ g.children (g.parent b) := by
    intro b y hb hb0 hy hyc
    have hyb := (children_spec hw (parent_valid hw hb) (lvl_parent_lt hw hb hb0)).1 hy
    unfold siblings at hyc
    split at hyc
    · rcases List.mem_cons.1 hyc with e | e
      · rw [← e]; exact hy
      · have := (List.mem_replicate.1 e).2
        rw [this] at hyb
        exact absurd hyb.1.1 (by omega)
    · rename_i h0
      have hyc := (children_spec hw (parent_valid hw hc) (lvl_parent_lt hw hc (by omega))).1 hyc
      rw [← hyb.2.2, hyc.2.2]
      exact mem_children_parent hw hc (by omega)
  have self : ∀ b, g.Valid b → 0 < g.lvl b → b ∈ g.children (g.parent b) := fun b hb h0 => mem_children_parent hw hb h0
  have sibl : 0 < g.lvl c → g.siblings c = g.children (g.parent c) := fun h0 => by
    unfold siblings; rw [if_neg (by omega)]
  have mem : ∀ b, b ∈ l ++ [c] ↔ b ∈ l ∨ b = c := fun b => by rw [List.mem_append, List.mem_singleton]
  unfold checkCell
  dsimp only
  split
  · rename_i hx
    have rc := hR.2 hx
    have kc : ¬ K c := fun h => absurd (hK.1 h).1 (by grind)
    have vc : ¬ V c := fun h => absurd (hV.1 h).1 (by grind)
    refine ⟨fun b => ?_, fun b hb => ?_, fun b hb => ?_, fun b hb hk h0 hr => ?_, fun b hb hv h0 hr => ?_⟩
    · rw [List.mem_cons, h.refine, mem]
      constructor
      · rintro (rfl | h)
        · exact ⟨Or.inr rfl, rc⟩
        · exact ⟨Or.inl h.1, h.2⟩
      · rintro ⟨h | rfl, h'⟩
        · exact Or.inr ⟨h, h'⟩
        · exact Or.inl rfl
    · have := h.keep b (List.mem_filter.1 hb).1
      exact ⟨(mem b).2 (Or.inl this.1), this.2⟩
    · have := h.unrefine b (List.mem_filter.1 hb).1
      exact ⟨(mem b).2 (Or.inl this.1), this.2⟩
    · rcases (mem b).1 hb with hb | rfl
      · obtain ⟨y, y1, y2⟩ := h.kept b hb hk h0 hr
        refine ⟨y, y1, List.mem_filter.2 ⟨y2, ?_⟩⟩
        cases e : (g.siblings c).contains y with
        | false => rfl
        | true => exact absurd rc (hr c (sib b y (hl b hb) h0 y1 (List.contains_iff_mem.1 e)))
      · exact absurd hk kc
    · rcases (mem b).1 hb with hb | rfl
      · refine List.mem_filter.2 ⟨h.unrefined b hb hv h0 hr, ?_⟩
        cases e : (g.siblings c).contains b with
        | false => rfl
        | true => exact absurd rc (hr c (sib b b (hl b hb) h0 (self b (hl b hb) h0) (List.contains_iff_mem.1 e))).1
      · exact absurd hv vc
  rename_i hx
  have rc : ¬ R c := fun h => hx (hR.1 h)
  have href : ∀ b, b ∈ z.refine ↔ b ∈ l ++ [c] ∧ R b := by
    intro b
    rw [h.refine, mem]
    constructor
    · rintro ⟨h, h'⟩; exact ⟨Or.inl h, h'⟩
    · rintro ⟨h | rfl, h'⟩
      · exact ⟨h, h'⟩
      · exact absurd h' rc
  -- some sibling is in a set
  have some : 0 < g.lvl c → ¬ ((g.siblings c).all (fun b => !z.refine.contains b && !z.keep.contains b) = true ∧ 0 < g.lvl c) →
      ∃ y ∈ g.children (g.parent c), R y ∨ (K y ∧ y ∈ z.keep) := by
    intro h0 hh
    have hh : ¬ (g.siblings c).all (fun b => !z.refine.contains b && !z.keep.contains b) = true := fun e => hh ⟨e, h0⟩
    rw [sibl h0, List.all_eq_true] at hh
    apply Classical.byContradiction
    intro hne
    apply hh
    intro y hy
    have h1 : z.refine.contains y = false := by
      cases e : z.refine.contains y with
      | false => rfl
      | true => exact absurd ⟨y, hy, Or.inl ((h.refine y).1 (List.contains_iff_mem.1 e)).2⟩ hne
    have h2 : z.keep.contains y = false := by
      cases e : z.keep.contains y with
      | false => rfl
      | true => exact absurd ⟨y, hy, Or.inr ⟨(h.keep y (List.contains_iff_mem.1 e)).2.1, List.contains_iff_mem.1 e⟩⟩ hne
    rw [h1, h2]; rfl
  split
  · rename_i hx2
    have kc := hK.2 ⟨by grind, hx2⟩
    have vc : ¬ V c := fun h => absurd (hV.1 h).2 (by grind)
    split
    · rename_i hall
      refine ⟨href, fun b hb => ?_, fun b hb => ?_, fun b hb hk h0 hr => ?_, fun b hb hv h0 hr => ?_⟩
      · rcases List.mem_cons.1 hb with rfl | hb
        · exact ⟨(mem b).2 (Or.inr rfl), kc, hall.2⟩
        · have := h.keep b hb
          exact ⟨(mem b).2 (Or.inl this.1), this.2⟩
      · have := h.unrefine b (List.mem_filter.1 hb).1
        exact ⟨(mem b).2 (Or.inl this.1), this.2⟩
      · rcases (mem b).1 hb with hb | rfl
        · obtain ⟨y, y1, y2⟩ := h.kept b hb hk h0 hr
          exact ⟨y, y1, List.mem_cons_of_mem _ y2⟩
        · exact ⟨b, self b hc h0, List.mem_cons_self ..⟩
      · rcases (mem b).1 hb with hb | rfl
        · refine List.mem_filter.2 ⟨h.unrefined b hb hv h0 hr, ?_⟩
          cases e : (g.siblings c).contains b with
          | false => rfl
          | true => exact absurd kc (hr c (sib b b (hl b hb) h0 (self b (hl b hb) h0) (List.contains_iff_mem.1 e))).2
        · exact absurd hv vc
    · rename_i hall
      refine ⟨href, fun b hb => ?_, fun b hb => ?_, fun b hb hk h0 hr => ?_, fun b hb hv h0 hr => ?_⟩
      · have := h.keep b hb
        exact ⟨(mem b).2 (Or.inl this.1), this.2⟩
      · have := h.unrefine b hb
        exact ⟨(mem b).2 (Or.inl this.1), this.2⟩
      · rcases (mem b).1 hb with hb | rfl
        · exact h.kept b hb hk h0 hr
        · obtain ⟨y, y1, y2⟩ := some h0 hall
          rcases y2 with y2 | y2
          · exact absurd y2 (hr y y1)
          · exact ⟨y, y1, y2.2⟩
      · rcases (mem b).1 hb with hb | rfl
        · exact h.unrefined b hb hv h0 hr
        · exact absurd hv vc
  · rename_i hx2
    have kc : ¬ K c := fun h => hx2 (hK.1 h).2
    have vc := hV.2 ⟨by grind, by grind⟩
    split
    · rename_i hall
      refine ⟨href, fun b hb => ?_, fun b hb => ?_, fun b hb hk h0 hr => ?_, fun b hb hv h0 hr => ?_⟩
      · have := h.keep b hb
        exact ⟨(mem b).2 (Or.inl this.1), this.2⟩
      · rcases List.mem_cons.1 hb with rfl | hb
        · exact ⟨(mem b).2 (Or.inr rfl), vc, hall.2⟩
        · have := h.unrefine b hb
          exact ⟨(mem b).2 (Or.inl this.1), this.2⟩
      · rcases (mem b).1 hb with hb | rfl
        · exact h.kept b hb hk h0 hr
        · exact absurd hk kc
      · rcases (mem b).1 hb with hb | rfl
        · exact List.mem_cons_of_mem _ (h.unrefined b hb hv h0 hr)
        · exact List.mem_cons_self ..
    · rename_i hall
      refine ⟨href, fun b hb => ?_, fun b hb => ?_, fun b hb hk h0 hr => ?_, fun b hb hv h0 hr => ?_⟩
      · have := h.keep b hb
        exact ⟨(mem b).2 (Or.inl this.1), this.2⟩
      · have := h.unrefine b hb
        exact ⟨(mem b).2 (Or.inl this.1), this.2⟩
      · rcases (mem b).1 hb with hb | rfl
        · exact h.kept b hb hk h0 hr
        · exact absurd hk kc
      · rcases (mem b).1 hb with hb | rfl
        · exact h.unrefined b hb hv h0 hr
        · obtain ⟨y, y1, y2⟩ := some h0 hall
          rcases y2 with y2 | y2
          · exact absurd y2 (hr y y1).1
          · exact absurd y2.1 (hr y y1).2

theorem checkCells_checked {a : CheckParams} {R K V : Nat → Prop} {l l' : List Nat} {z : CheckSets} {m : Nat → Rat} (hw : g.WF)
    (hl : ∀ b ∈ l, g.Valid b) (hl' : ∀ b ∈ l', g.Valid b) (h : Checked g R K V l z)
    (hR : ∀ c ∈ l', (R c ↔ m c > a.refineDiff (g.lvl c)) ∧ (K c ↔ m c ≤ a.refineDiff (g.lvl c) ∧ m c ≥ a.unrefineDiff (g.lvl c)) ∧
      (V c ↔ m c ≤ a.refineDiff (g.lvl c) ∧ m c < a.unrefineDiff (g.lvl c))) :
    Checked g R K V (l ++ l') (l'.foldl (fun z c => checkCell g a c (m c) z) z) := by
  induction l' generalizing l z with
  | nil => rw [List.append_nil]; exact h
  | cons c l' ih =>
    have hc := hl' c (List.mem_cons_self ..)
    obtain ⟨h1, h2, h3⟩ := hR c (List.mem_cons_self ..)
    have := ih (l := l ++ [c]) (by
      intro b hb
      rcases List.mem_append.1 hb with hb | hb
      · exact hl b hb
      · rw [List.mem_singleton.1 hb]; exact hc) (fun b hb => hl' b (List.mem_cons_of_mem _ hb))
      (checkCell_checked hw hl h hc h1 h2 h3) (fun b hb => hR b (List.mem_cons_of_mem _ hb))
    rw [List.append_assoc] at this
    exact this

/-- Decisions of a process that has densities `U` of local cells and their neighbors. -/
theorem check_spec (hw : g.WF) (h : Reachable g dflt maxTag s) (i : Fin n) {id : Int} {H : List (V3 Int)} (h0 : g.maxLvl ≠ 0)
    (hH : hoodFor g (s i) id = some H) (hF : ∀ o ∈ faces, o ∈ H) (a : CheckParams) {U : Nat → Rat}
    (hU : ∀ c, (s i).owner c = some i → ∀ b, b = c ∨ NbrOf g (s i) id c b → ∃ a, access (s i) b = some a ∧ a.density = U b) :
    ∃ z l, checkForAdaptation g a i (s i) id = .ok z ∧ (∀ c, c ∈ l ↔ (s i).owner c = some i) ∧
      Checked g (checkCalls g a (exist (s i).owner) U).refine (checkCalls g a (exist (s i).owner) U).dontUnrefine
        (checkCalls g a (exist (s i).owner) U).unrefine l z := by
  obtain ⟨w, hi⟩ := h.inv hw (by have := i.2; omega)
  obtain ⟨m, m1, m2⟩ := maxDiffs_spec hw h i hH hF a.threshold hU
  obtain ⟨k, e1, -, -, e2, -, -, e7⟩ := C38_ranges (id := id) hw h i (by rw [hH]; rfl)
  let l := (range k.cells k.loc).map (·.id)
  have hl : ∀ c, c ∈ l ↔ (s i).owner c = some i := fun c => e2.2 c
  have hv : ∀ b ∈ l, g.Valid b := fun b hb => by
    have := (hl b).1 hb
    rw [hi.sys.owner] at this
    exact hi.sys.tiled.valid b (exist_of this)
  have base : Checked g (checkCalls g a (exist (s i).owner) U).refine (checkCalls g a (exist (s i).owner) U).dontUnrefine
        (checkCalls g a (exist (s i).owner) U).unrefine [] ⟨[], [], []⟩ :=
    ⟨fun b => ⟨fun h => absurd h List.not_mem_nil, fun h => absurd h.1 List.not_mem_nil⟩, fun b h => absurd h List.not_mem_nil,
      fun b h => absurd h List.not_mem_nil, fun b h => absurd h List.not_mem_nil, fun b h => absurd h List.not_mem_nil⟩
  have := checkCells_checked (a := a) (m := m) hw (fun b h => absurd h List.not_mem_nil) hv base (by
    intro c hc
    have hc := (hl c).1 hc
    have hd := m2 c hc
    have hx : exist (s i).owner c = true := exist_of hc
    refine ⟨⟨?_, fun h => ⟨hx, m c, hd, h⟩⟩, ⟨?_, fun h => ⟨hx, m c, hd, h⟩⟩, ⟨?_, fun h => ⟨hx, m c, hd, h⟩⟩⟩
    · rintro ⟨-, x, x1, x2⟩; rw [hd.unique x1]; exact x2
    · rintro ⟨-, x, x1, x2⟩; rw [hd.unique x1]; exact x2
    · rintro ⟨-, x, x1, x2⟩; rw [hd.unique x1]; exact x2)
  refine ⟨_, l, ?_, hl, this⟩
  unfold checkForAdaptation
  rw [if_neg h0, m1, Out.bind_ok, e1, Out.bind_ok, List.foldl_map]

/-- Requests of all processes have the same effect as requests of all cells. -/
theorem requested_checked {w : Owner n} {k : Calls} {z : Fin n → CheckSets} (hw : g.WF) (ht : Tiled g (exist w))
    (hk : ∀ c, (k.refine c → exist w c = true) ∧ (k.dontUnrefine c → exist w c = true) ∧ (k.unrefine c → exist w c = true) ∧
      ¬ k.dontRefine c)
    (hz : ∀ i, ∃ l, (∀ c, c ∈ l ↔ w c = some i) ∧ Checked g k.refine k.dontUnrefine k.unrefine l (z i)) (c : Nat) :
    (Forced g (exist w) (requested (fun i => (z i).refine) (fun i => (z i).keep) (fun i => (z i).unrefine)) c ↔
      Forced g (exist w) k c) ∧
    (exist w c = true → (UnrefinedBy g (exist w) (requested (fun i => (z i).refine) (fun i => (z i).keep) (fun i => (z i).unrefine)) c ↔
      UnrefinedBy g (exist w) k c)) := by
  have hR : ∀ x, (requested (fun i => (z i).refine) (fun i => (z i).keep) (fun i => (z i).unrefine)).refine x ↔ k.refine x := by
    intro x
    constructor
    · rintro ⟨i, hx⟩
      obtain ⟨l, l1, l2⟩ := hz i
      exact ((l2.refine x).1 hx).2
    · intro hx
      obtain ⟨i, hi⟩ := Option.isSome_iff_exists.1 ((hk x).1 hx)
      obtain ⟨l, l1, l2⟩ := hz i
      exact ⟨i, (l2.refine x).2 ⟨(l1 x).2 hi, hx⟩⟩
  have hF : ∀ x, Forced g (exist w) (requested (fun i => (z i).refine) (fun i => (z i).keep) (fun i => (z i).unrefine)) x ↔
      Forced g (exist w) k x := by
    intro x
    constructor
    · intro hx
      induction hx with
      | base h1 h2 _ => exact .base ((hR _).1 h1) h2 (Veto.none fun x => (hk x).2.2.2)
      | step _ h1 h2 h3 h4 ih => exact .step ih h1 h2 h3 h4
    · intro hx
      induction hx with
      | base h1 h2 _ => exact .base ((hR _).2 h1) h2 (Veto.none fun _ h => h)
      | step _ h1 h2 h3 h4 ih => exact .step ih h1 h2 h3 h4
  refine ⟨hF c, fun hc => ?_⟩
  unfold UnrefinedBy
  simp only [hF, hR]
  have hv := ht.valid c hc
  have fam : 0 < g.lvl c → ∀ x ∈ g.children (g.parent c), 0 < g.lvl x ∧ g.parent x = g.parent c := by
    intro h0 x hx
    obtain ⟨-, f2, f3⟩ := (children_spec hw (parent_valid hw hv) (lvl_parent_lt hw hv h0)).1 hx
    exact ⟨by omega, f3⟩
  constructor
  · rintro ⟨h0, ⟨x, x1, i, x2⟩, h2, h3⟩
    obtain ⟨l, l1, l2⟩ := hz i
    refine ⟨h0, ⟨x, x1, (l2.unrefine x x2).2.1⟩, fun y hy => ⟨(h2 y hy).1, (h2 y hy).2.1, fun hK => ?_, (h2 y hy).2.2.2⟩, h3⟩
    obtain ⟨j, hj⟩ := Option.isSome_iff_exists.1 (h2 y hy).1
    obtain ⟨l', l1', l2'⟩ := hz j
    obtain ⟨f1, f2⟩ := fam h0 y hy
    obtain ⟨y', y1, y2⟩ := l2'.kept y ((l1' y).2 hj) hK f1 (fun x hx => by rw [f2] at hx; exact (h2 x hx).2.1)
    rw [f2] at y1
    exact (h2 y' y1).2.2.1 ⟨j, y2⟩
  · rintro ⟨h0, ⟨x, x1, x2⟩, h2, h3⟩
    obtain ⟨j, hj⟩ := Option.isSome_iff_exists.1 ((hk x).2.2.1 x2)
    obtain ⟨l', l1', l2'⟩ := hz j
    obtain ⟨f1, f2⟩ := fam h0 x x1
    refine ⟨h0, ⟨x, x1, j, l2'.unrefined x ((l1' x).2 hj) x2 f1 fun y hy => ?_⟩, fun y hy => ⟨(h2 y hy).1, (h2 y hy).2.1, ?_, (h2 y hy).2.2.2⟩, h3⟩
    · rw [f2] at hy
      exact ⟨(h2 y hy).2.1, (h2 y hy).2.2.1⟩
    · rintro ⟨i, hK⟩
      obtain ⟨l, l1, l2⟩ := hz i
      exact (h2 y hy).2.2.1 (l2.keep y hK).2.1

/-- Cells are the same if the same cells are refined and unrefined. -/
theorem Adapted.unique {E E1 E2 : Nat → Bool} (h1 : Adapted g E E1) (h2 : Adapted g E E2)
    (h : ∀ c, E c = true → (Finer g E1 c ↔ Finer g E2 c) ∧ (Coarser g E1 c ↔ Coarser g E2 c)) : E1 = E2 := by
  funext c
  rw [Bool.eq_iff_iff, h1.after, h2.after]
  refine or_congr ?_ (or_congr ?_ ?_)
  · refine and_congr_right fun hc => ?_
    rw [(h c hc).1, (h c hc).2]
  · refine exists_congr fun b => and_congr_right fun hb => ?_
    rw [(h b hb).1]
  · refine exists_congr fun b => and_congr_right fun hb => ?_
    rw [(h b hb).2]

/-- Adaptation after a check in state `s0` where processes had densities `U`. -/
theorem adaptChecked_holds (hw : g.WF) (hn : 0 < n) (hm : g.last ≤ maxTag) {s0 : Sys n AdvCell W} (hr0 : Reachable g dflt maxTag s0)
    (h : Idle g dflt maxTag s) (ho : ∀ i, (s0 i).owner = (s i).owner) {u : Nat → Option AdvCell} (hu : Holds s u) (h0 : g.maxLvl ≠ 0)
    (a : AdvParams) {U : Nat → Rat}
    (hU : ∀ i c, (s0 i).owner c = some i → ∀ b, b = c ∨ NbrOf g (s0 i) defaultId c b → ∃ a, access (s0 i) b = some a ∧ a.density = U b) :
    ∃ t, adaptChecked g dflt maxTag a s0 s = .ok t ∧ Idle g dflt maxTag t ∧
      (∃ refine keep unrefine, adaptGrid g dflt maxTag a.len a.vel defaultId refine keep unrefine s = .ok t) ∧
      ∃ E', (∀ i, exist (t i).owner = E') ∧ (∀ i, Adapted g (exist (s i).owner) E') ∧ Holds t (adaptedTo g a.len a.vel E' u) ∧
        (∃ s2, Reachable g dflt maxTag s2 ∧ step g dflt maxTag s2 (.update defaultId) = .ok t) ∧
        ∀ i c, exist (s i).owner c = true →
          (Finer g E' c ↔ Forced g (exist (s i).owner) (checkCalls g a.check (exist (s i).owner) U) c) ∧
          (Coarser g E' c ↔ UnrefinedBy g (exist (s i).owner) (checkCalls g a.check (exist (s i).owner) U) c) := by
  obtain ⟨w, hi⟩ := h.reachable.inv hw hn
  have ho' : ∀ i, (s0 i).owner = w := fun i => by rw [ho, hi.sys.owner]
  have ch := fun i => check_spec hw hr0 i (id := defaultId) h0 (if_pos rfl) (fun o h => faces_sub_hoodOf h) a.check (hU i)
  have ⟨z, hz⟩ := Classical.axiomOfChoice ch
  have hz' : ∀ i, ∃ l, (∀ c, c ∈ l ↔ w c = some i) ∧ Checked g (checkCalls g a.check (exist w) U).refine
      (checkCalls g a.check (exist w) U).dontUnrefine (checkCalls g a.check (exist w) U).unrefine l (z i) := by
    intro i
    obtain ⟨l, -, l1, l2⟩ := hz i
    rw [ho' i] at l1 l2
    exact ⟨l, l1, l2⟩
  have hd : ∀ i : Fin n, (hoodFor g (s i) defaultId).isSome = true := fun i => by rw [hoodFor, if_pos rfl]; rfl
  obtain ⟨t, e1, e2, -, E, e3, e4, e5, -, -, -, -, -, -, s2, e6, e7⟩ := adaptGrid_holds (id := defaultId) hw hn hm h hu h0 hd a.len a.vel
    (fun i => (z i).refine) (fun i => (z i).keep) (fun i => (z i).unrefine)
  have hl : ∀ i c, c ∈ (z i).refine ∨ c ∈ (z i).keep ∨ c ∈ (z i).unrefine → (s i).owner c = some i := by
    intro i c hc
    obtain ⟨l, l1, l2⟩ := hz' i
    rw [hi.sys.owner, ← l1]
    rcases hc with hc | hc | hc
    · exact ((l2.refine c).1 hc).1
    · exact (l2.keep c hc).1
    · exact (l2.unrefine c hc).1
  refine ⟨t, ?_, e2, ⟨_, _, _, e1⟩, E, e3, e4, e5, ⟨s2, e6, e7⟩, fun i c hc => ?_⟩
  · unfold adaptChecked
    rw [Out.collect_ok fun i => (hz i).choose_spec.1, Out.bind_ok, e1]
  · have h1 := C121_cells hw hn hm h h0 hl e1 i hc
    have h2 := requested_checked (k := checkCalls g a.check (exist w) U) hw hi.sys.tiled
      (fun c => ⟨fun h => h.1, fun h => h.1, fun h => h.1, fun h => h⟩) hz' c
    rw [e3 i] at h1
    rw [hi.sys.owner] at h1 hc ⊢
    rw [h1.1, h1.2, h2.1, h2.2 hc]
    exact ⟨Iff.rfl, Iff.rfl⟩

/-! ## Length of steps -/

/-- The largest allowed step for data `u` of cells is `x`: the smallest of `big` and times in which something moves through a cell. -/
structure StepOf (big : Rat) (u : Nat → Option AdvCell) (x : Rat) : Prop where
  one : x = big ∨ ∃ c a d, u c = some a ∧ a.v d ≠ 0 ∧ a.len d ≠ 0 ∧ x = a.len d / (if a.v d < 0 then -a.v d else a.v d)
  le : x ≤ big
  all : ∀ c a d, u c = some a → a.v d ≠ 0 → a.len d ≠ 0 → x ≤ a.len d / (if a.v d < 0 then -a.v d else a.v d)

theorem StepOf.unique {big x y : Rat} {u : Nat → Option AdvCell} (h : StepOf big u x) (h' : StepOf big u y) : x = y := by
  have key : ∀ {x y : Rat}, StepOf big u x → StepOf big u y → x ≤ y := by
    intro x y h h'
    rcases h'.one with e | ⟨c, a, d, e1, e2, e3, e⟩
    · rw [e]; exact h.le
    · rw [e]; exact h.all c a d e1 e2 e3
  exact Rat.le_antisymm (key h h') (key h' h)

theorem stepIn_spec (a : AdvCell) (d : Fin 3) (x : Rat) : stepIn a d x ≤ x ∧
    (a.v d ≠ 0 → a.len d ≠ 0 → stepIn a d x ≤ a.len d / (if a.v d < 0 then -a.v d else a.v d)) ∧
    (stepIn a d x = x ∨ a.v d ≠ 0 ∧ a.len d ≠ 0 ∧ stepIn a d x = a.len d / (if a.v d < 0 then -a.v d else a.v d)) := by
  unfold stepIn
  split
  · rename_i h
    exact ⟨Rat.le_refl, fun h1 h2 => absurd h (by simp [h1, h2]), Or.inl rfl⟩
  · rename_i h
    have h1 : a.v d ≠ 0 := fun e => h (Or.inl e)
    have h2 : a.len d ≠ 0 := fun e => h (Or.inr e)
    generalize a.len d / (if a.v d < 0 then -a.v d else a.v d) = y
    refine ⟨by grind, fun _ _ => by grind, ?_⟩
    by_cases e : min y x = x
    · exact Or.inl e
    · exact Or.inr ⟨h1, h2, by grind⟩

/-- The loop of a process. -/
theorem minStep_fold {u : Nat → Option AdvCell} {p : Proc n AdvCell W} {big : Rat} {l : List CellItem}
    (hl : ∀ x ∈ l, ∃ a, access p x.id = some a ∧ u x.id = some a) {m : Rat} (hm : m ≤ big)
    (hs : m = big ∨ ∃ c a d, u c = some a ∧ a.v d ≠ 0 ∧ a.len d ≠ 0 ∧ m = a.len d / (if a.v d < 0 then -a.v d else a.v d)) :
    ∃ m', Out.fold (fun (x : CellItem) m =>
        match access p x.id with
        | none => .undef
        | some a => .ok (stepIn a 2 (stepIn a 1 (stepIn a 0 m)))) l m = .ok m' ∧ m' ≤ m ∧
      (m' = big ∨ ∃ c a d, u c = some a ∧ a.v d ≠ 0 ∧ a.len d ≠ 0 ∧ m' = a.len d / (if a.v d < 0 then -a.v d else a.v d)) ∧
      ∀ x ∈ l, ∀ a d, u x.id = some a → a.v d ≠ 0 → a.len d ≠ 0 → m' ≤ a.len d / (if a.v d < 0 then -a.v d else a.v d) := by
  induction l generalizing m with
  | nil => exact ⟨m, rfl, Rat.le_refl, hs, fun x h => absurd h List.not_mem_nil⟩
  | cons x l ih =>
    obtain ⟨a, ha, hua⟩ := hl x (List.mem_cons_self ..)
    obtain ⟨p0, q0, r0⟩ := stepIn_spec a 0 m
    obtain ⟨p1, q1, r1⟩ := stepIn_spec a 1 (stepIn a 0 m)
    obtain ⟨p2, q2, r2⟩ := stepIn_spec a 2 (stepIn a 1 (stepIn a 0 m))
    have hle : stepIn a 2 (stepIn a 1 (stepIn a 0 m)) ≤ m := Rat.le_trans p2 (Rat.le_trans p1 p0)
    obtain ⟨m', f1, f2, f3, f4⟩ := ih (fun y hy => hl y (List.mem_cons_of_mem _ hy)) (Rat.le_trans hle hm) (by
      rcases r2 with r2 | r2
      · rw [r2]
        rcases r1 with r1 | r1
        · rw [r1]
          rcases r0 with r0 | r0
          · rw [r0]; exact hs
          · exact Or.inr ⟨_, a, 0, hua, r0⟩
        · exact Or.inr ⟨_, a, 1, hua, r1⟩
      · exact Or.inr ⟨_, a, 2, hua, r2⟩)
    refine ⟨m', ?_, Rat.le_trans f2 hle, f3, fun y hy b d hb h1 h2 => ?_⟩
    · unfold Out.fold
      simp only [ha]
      exact f1
    · rcases List.mem_cons.1 hy with rfl | hy
      · rw [hua] at hb
        injection hb with hb
        subst hb
        refine Rat.le_trans f2 ?_
        revert h1 h2
        revert d
        rw [forall_fin3]
        exact ⟨fun h1 h2 => Rat.le_trans p2 (Rat.le_trans p1 (q0 h1 h2)), fun h1 h2 => Rat.le_trans p2 (q1 h1 h2), q2⟩
      · exact f4 y hy b d hb h1 h2

theorem foldl_min_spec {α : Type} (m : α → Rat) (l : List α) (x : Rat) : l.foldl (fun x i => min (m i) x) x ≤ x ∧
    (∀ i ∈ l, l.foldl (fun x i => min (m i) x) x ≤ m i) ∧
    (l.foldl (fun x i => min (m i) x) x = x ∨ ∃ i, l.foldl (fun x i => min (m i) x) x = m i) := by
  induction l generalizing x with
  | nil => exact ⟨Rat.le_refl, fun i h => absurd h List.not_mem_nil, Or.inl rfl⟩
  | cons a l ih =>
    obtain ⟨h1, h2, h3⟩ := ih (min (m a) x)
    rw [List.foldl_cons]
    have e1 : min (m a) x ≤ x := by grind
    have e2 : min (m a) x ≤ m a := by grind
    refine ⟨Rat.le_trans h1 e1, fun i hi => ?_, ?_⟩
    · rcases List.mem_cons.1 hi with rfl | hi
      · exact Rat.le_trans h1 e2
      · exact h2 i hi
    · rcases h3 with h3 | h3
      · rw [h3]
        by_cases e : min (m a) x = x
        · exact Or.inl e
        · exact Or.inr ⟨a, by grind⟩
      · exact Or.inr h3

theorem maxTimeStep_spec (hw : g.WF) (hn : 0 < n) (h : Reachable g dflt maxTag s) {u : Nat → Option AdvCell} (hu : Holds s u)
    (big : Rat) : ∃ x, maxTimeStep g big defaultId s = .ok x ∧ StepOf big u x := by
  obtain ⟨w, hi⟩ := h.inv hw hn
  have one : ∀ i, ∃ m, minStep g big i (s i) defaultId = .ok m ∧ m ≤ big ∧
      (m = big ∨ ∃ c a d, u c = some a ∧ a.v d ≠ 0 ∧ a.len d ≠ 0 ∧ m = a.len d / (if a.v d < 0 then -a.v d else a.v d)) ∧
      ∀ c, w c = some i → ∀ a d, u c = some a → a.v d ≠ 0 → a.len d ≠ 0 → m ≤ a.len d / (if a.v d < 0 then -a.v d else a.v d) := by
    intro i
    obtain ⟨k, e1, -, -, e2, -, -, e7⟩ := C38_ranges (id := defaultId) hw h i (by rw [hoodFor, if_pos rfl]; rfl)
    obtain ⟨m, f1, f2, f3, f4⟩ := minStep_fold (u := u) (p := s i) (big := big) (l := range k.cells k.loc) (by
      intro x hx
      have hl := (e2.2 x.id).1 (List.mem_map.2 ⟨x, hx, rfl⟩)
      have h1 := ((hu i x.id).1 i hl).1
      have h2 := (hu i x.id).2.1 (exist_of hl)
      obtain ⟨a, ha⟩ := Option.ne_none_iff_exists'.1 h2
      exact ⟨a, h1.trans ha, ha⟩) (m := big) Rat.le_refl (Or.inl rfl)
    refine ⟨m, ?_, f2, f3, fun c hc => ?_⟩
    · unfold minStep
      rw [e1, Out.bind_ok]
      exact f1
    · rw [← hi.sys.owner i] at hc
      obtain ⟨x, hx, rfl⟩ := List.mem_map.1 ((e2.2 c).2 hc)
      exact f4 x hx
  have ⟨m, hm⟩ := Classical.axiomOfChoice one
  obtain ⟨h1, h2, h3⟩ := foldl_min_spec m (List.finRange n) big
  refine ⟨_, ?_, ?_, h1, fun c a d hc hv hl => ?_⟩
  · unfold maxTimeStep
    rw [Out.collect_ok fun i => (hm i).1, Out.bind_ok]
  · rcases h3 with h3 | ⟨i, h3⟩
    · exact Or.inl h3
    · rw [h3]; exact (hm i).2.2.1
  · have : exist w c = true := by
      rw [← hi.sys.owner ⟨0, hn⟩]
      exact (hu ⟨0, hn⟩ c).2.2 (by rw [hc]; simp)
    obtain ⟨i, hi⟩ := Option.isSome_iff_exists.1 this
    exact Rat.le_trans (h2 i (List.mem_finRange i)) ((hm i).2.2.2 c hi a d hc hv hl)

/-! ## The program -/

/-- Copies after an update. -/
theorem updated_copies (hw : g.WF) (hn : 0 < n) {s2 : Sys n AdvCell W} (h : Reachable g dflt maxTag s2)
    (ht : step g dflt maxTag s2 (.update defaultId) = .ok t) (hr : Reachable g dflt maxTag t) {u : Nat → Option AdvCell} (hu : Holds t u)
    (i : Fin n) {c : Nat} (hc : (t i).owner c = some i) {b : Nat} (hb : b = c ∨ NbrOf g (t i) defaultId c b) :
    access (t i) b = u b ∧ access (t i) b ≠ none := by
  obtain ⟨v, hv⟩ := hr.inv hw hn
  obtain ⟨x, hx, e⟩ := Out.bind_inv ht
  injection e with e
  have hr := fun k => C33_rest hw h hx k
  have hti : ∀ k, t k = (x k).2 := fun k => by rw [← e]
  have ho : ∀ k, (t k).owner = (s2 k).owner := fun k => by rw [hti, (hr k).1]
  rcases hb with rfl | hb
  · rw [((hu i b).1 i hc).1]
    exact ⟨rfl, ((hu i b).2).1 (exist_of hc)⟩
  · have hbe : exist (t i).owner b = true := by
      obtain ⟨l, off, l1, l2⟩ := hb
      have hex : exist v c = true := by rw [hv.sys.owner] at hc; exact exist_of hc
      obtain ⟨f, g1, -, g3⟩ := hv.neighborsOf hw (id := defaultId) (H := hoodOf g) (i := i) (if_pos rfl) hex
      rw [g1] at l1
      injection l1 with l1
      subst l1
      rw [hv.sys.owner]
      exact ((g3 b).1 ⟨off, l2⟩).1
    obtain ⟨j, hj⟩ := Option.isSome_iff_exists.1 hbe
    have hjt : (t j).owner b = some j := by rw [hv.sys.owner, ← hv.sys.owner i]; exact hj
    have hue := ((hu i b).2).1 hbe
    by_cases hij : j = i
    · subst hij
      rw [((hu j b).1 j hj).1]
      exact ⟨rfl, hue⟩
    · have hb' : NbrOf g (s2 i) defaultId c b := by
        have := (hr i).1
        rw [hti, this] at hb
        exact hb
      have hjj : (s2 j).owner b = some j := by rw [← ho j]; exact hjt
      have := C33_copies hw h hx i j (by rw [← ho]; exact hc) hb' (by rw [← ho]; exact hj) hij
      have e1 : access (t i) b = u b := by
        rw [← ((hu j b).1 j hjt).1, hti i, hti j, (hr j).2 b (Or.inl hjj), this.2.1]
      rw [e1]
      exact ⟨rfl, hue⟩

/-- Density of cell `c`. -/
def densityIn (u : Nat → Option AdvCell) (c : Nat) : Rat := ((u c).getD .none).density

/-- Data `v` of cells after adaptation if data is `u` before it and densities were `U` in the check. -/
def AdaptsTo (g : Cfg) (a : AdvParams) (U : Nat → Rat) (u v : Nat → Option AdvCell) : Prop :=
  (g.maxLvl = 0 ∧ v = u) ∨ g.maxLvl ≠ 0 ∧ ∃ E', Adapted g (fun c => (u c).isSome) E' ∧ v = adaptedTo g a.len a.vel E' u ∧
    ∀ c, (u c).isSome = true →
      (Finer g E' c ↔ Forced g (fun c => (u c).isSome) (checkCalls g a.check (fun c => (u c).isSome) U) c) ∧
      (Coarser g E' c ↔ UnrefinedBy g (fun c => (u c).isSome) (checkCalls g a.check (fun c => (u c).isSome) U) c)

theorem AdaptsTo.unique {a : AdvParams} {U : Nat → Rat} {u v v' : Nat → Option AdvCell} (h : AdaptsTo g a U u v)
    (h' : AdaptsTo g a U u v') : v = v' := by
  rcases h with ⟨h0, h⟩ | ⟨h0, E, h1, h2, h3⟩
  · rcases h' with ⟨-, h'⟩ | ⟨h0', -⟩
    · rw [h, h']
    · exact absurd h0 h0'
  · rcases h' with ⟨h0', -⟩ | ⟨-, E', h1', h2', h3'⟩
    · exact absurd h0' h0
    · have : E = E' := h1.unique h1' fun c hc => by
        rw [(h3 c hc).1, (h3 c hc).2, (h3' c hc).1, (h3' c hc).2]
        exact ⟨Iff.rfl, Iff.rfl⟩
      rw [h2, h2', this]

/-- Adaptation with any maximum refinement level. -/
theorem adaptChecked_adapts (hw : g.WF) (hn : 0 < n) (hm : g.last ≤ maxTag) {s0 : Sys n AdvCell W} (hr0 : Reachable g dflt maxTag s0)
    (h : Idle g dflt maxTag s) (ho : ∀ i, (s0 i).owner = (s i).owner) {u : Nat → Option AdvCell} (hu : Holds s u) (a : AdvParams)
    {U : Nat → Rat}
    (hU : ∀ i c, (s0 i).owner c = some i → ∀ b, b = c ∨ NbrOf g (s0 i) defaultId c b → ∃ a, access (s0 i) b = some a ∧ a.density = U b) :
    ∃ t v, adaptChecked g dflt maxTag a s0 s = .ok t ∧ Idle g dflt maxTag t ∧ Holds t v ∧ AdaptsTo g a U u v ∧
      ∃ refine keep unrefine, adaptGrid g dflt maxTag a.len a.vel defaultId refine keep unrefine s = .ok t := by
  by_cases h0 : g.maxLvl = 0
  · refine ⟨s, u, ?_, h, hu, Or.inl ⟨h0, rfl⟩, fun _ => [], fun _ => [], fun _ => [], if_pos h0⟩
    unfold adaptChecked
    rw [Out.collect_ok (x := fun _ => ⟨[], [], []⟩) fun i => by unfold checkForAdaptation; rw [if_pos h0], Out.bind_ok]
    unfold adaptGrid
    rw [if_pos h0]
  · obtain ⟨t, e1, e2, e3, E, -, e5, e6, -, e8⟩ := adaptChecked_holds hw hn hm hr0 h ho hu h0 a hU
    have hE : exist (s ⟨0, hn⟩).owner = fun c => (u c).isSome := (isSome_eq_exist hu _).symm
    have e5 := e5 ⟨0, hn⟩
    have e8 := e8 ⟨0, hn⟩
    rw [hE] at e5 e8
    exact ⟨t, _, e1, e2, e6, Or.inr ⟨h0, E, e5, rfl, e8⟩, e3⟩

/-- Initial data of cells `E`. -/
def startedIn (a : AdvParams) (E : Nat → Bool) (c : Nat) : Option AdvCell :=
  if E c then some ⟨a.density c, 0, a.len c, a.vel c⟩ else none

/-- `k` rounds of refining before the simulation. -/
inductive Prerefined (g : Cfg) (a : AdvParams) : Nat → (Nat → Option AdvCell) → (Nat → Option AdvCell) → Prop
  | zero {u : Nat → Option AdvCell} : Prerefined g a 0 u u
  | succ {k : Nat} {u v v' : Nat → Option AdvCell} : Prerefined g a k u v → AdaptsTo g a (densityIn v) v v' →
      Prerefined g a (k + 1) u (startedIn a fun c => (v' c).isSome)

theorem Prerefined.unique {a : AdvParams} {k : Nat} {u v v' : Nat → Option AdvCell} (h : Prerefined g a k u v)
    (h' : Prerefined g a k u v') : v = v' := by
  induction h generalizing v' with
  | zero => cases h'; rfl
  | succ _ h2 ih =>
    cases h' with
    | succ h1' h2' =>
      have := ih h1'
      subst this
      rw [h2.unique h2']

theorem prerefine_holds (hw : g.WF) (hn : 0 < n) (hm : g.last ≤ maxTag) (h : Idle g dflt maxTag s) {u : Nat → Option AdvCell}
    (hu : Holds s u) (hs : ∃ s2, Reachable g dflt maxTag s2 ∧ step g dflt maxTag s2 (.update defaultId) = .ok s) (a : AdvParams) :
    ∃ t r v, prerefine g dflt maxTag a s = .ok t ∧ Idle g dflt maxTag r ∧ startAdvection g dflt maxTag a.density a.len a.vel r = .ok t ∧
      Idle g dflt maxTag t ∧ Holds t (startedIn a fun c => (v c).isSome) ∧
      AdaptsTo g a (densityIn u) u v ∧ ∃ s2, Reachable g dflt maxTag s2 ∧ step g dflt maxTag s2 (.update defaultId) = .ok t := by
  obtain ⟨s2, g1, g2⟩ := hs
  obtain ⟨r, v, e1, e2, e3, e4, -⟩ := adaptChecked_adapts hw hn hm h.reachable h (fun _ => rfl) hu a (U := densityIn u) (by
    intro i c hc b hb
    obtain ⟨f1, f2⟩ := updated_copies hw hn g1 g2 h.reachable hu i hc hb
    obtain ⟨x, hx⟩ := Option.ne_none_iff_exists'.1 f2
    refine ⟨x, hx, ?_⟩
    unfold densityIn
    rw [← f1, hx]
    rfl)
  obtain ⟨t, f1, f2, -, f4, f5⟩ := startAdvection_holds hw hn hm e2 a.density a.len a.vel
  refine ⟨t, r, v, ?_, e2, f1, f2, ?_, e4, f5⟩
  · unfold prerefine
    rw [e1, Out.bind_ok, f1]
  · have := f4 ⟨0, hn⟩
    rw [← isSome_eq_exist e3 ⟨0, hn⟩] at this
    exact this

theorem prerefines_holds (hw : g.WF) (hn : 0 < n) (hm : g.last ≤ maxTag) (h : Idle g dflt maxTag s) {u : Nat → Option AdvCell}
    (hu : Holds s u) (a : AdvParams) {r : Sys n AdvCell W} (hr : Idle g dflt maxTag r)
    (hs : startAdvection g dflt maxTag a.density a.len a.vel r = .ok s)
    (hs2 : ∃ s2, Reachable g dflt maxTag s2 ∧ step g dflt maxTag s2 (.update defaultId) = .ok s) (l : List Nat) :
    ∃ t r v, Out.fold (fun _ s => prerefine g dflt maxTag a s) l s = .ok t ∧ Idle g dflt maxTag r ∧
      startAdvection g dflt maxTag a.density a.len a.vel r = .ok t ∧ Idle g dflt maxTag t ∧ Holds t v ∧ Prerefined g a l.length u v := by
  suffices ∀ k u0, Prerefined g a k u0 u → ∃ t r v, Out.fold (fun _ s => prerefine g dflt maxTag a s) l s = .ok t ∧ Idle g dflt maxTag r ∧
      startAdvection g dflt maxTag a.density a.len a.vel r = .ok t ∧ Idle g dflt maxTag t ∧ Holds t v ∧
      Prerefined g a (k + l.length) u0 v by
    have := this 0 u .zero
    rw [Nat.zero_add] at this
    exact this
  induction l generalizing s r u with
  | nil => exact fun k u0 hp => ⟨s, r, u, rfl, hr, hs, h, hu, hp⟩
  | cons x l ih =>
    intro k u0 hp
    obtain ⟨t, r', v, e1, e2, e3, e4, e5, e6, e7⟩ := prerefine_holds hw hn hm h hu hs2 a
    obtain ⟨t', r'', v', f1, f2⟩ := ih e4 e5 e2 e3 e7 (k + 1) u0 (.succ hp e6)
    refine ⟨t', r'', v', ?_, ?_⟩
    · unfold Out.fold
      rw [e1]
      exact f1
    · rw [List.length_cons, show k + (l.length + 1) = k + 1 + l.length by omega]
      exact f2

/-- The program before its main loop. -/
theorem advectStart_holds (hw : g.WF) (hn : 0 < n) (hm : g.last ≤ maxTag) (h : Idle g dflt maxTag s) (a : AdvParams) (k : Nat) :
    ∃ x r v, advectStart g dflt maxTag a k s = .ok x ∧ Idle g dflt maxTag r ∧
      startAdvection g dflt maxTag a.density a.len a.vel r = .ok x.grid ∧ Idle g dflt maxTag x.grid ∧
      Holds x.grid v ∧ StepOf a.big v x.dt ∧ ∀ i, Prerefined g a k (startedIn a (exist (s i).owner)) v := by
  obtain ⟨w, hi⟩ := h.reachable.inv hw hn
  obtain ⟨s1, e1, e2, -, e4, e5⟩ := startAdvection_holds hw hn hm h a.density a.len a.vel
  obtain ⟨s2, r, v, f1, f2, f3, f4, f5, f6⟩ := prerefines_holds hw hn hm e2 (e4 ⟨0, hn⟩) a h e1 e5 (List.range k)
  obtain ⟨dt, d1, d2⟩ := maxTimeStep_spec hw hn f4.reachable f5 a.big
  refine ⟨⟨s2, dt⟩, r, v, ?_, f2, f3, f4, f5, d2, fun i => ?_⟩
  · unfold advectStart
    rw [e1, Out.bind_ok, f1, Out.bind_ok, d1, Out.bind_ok]
  · rw [List.length_range, hi.sys.owner] at f6
    rw [hi.sys.owner]
    exact f6

/-- A step of the program. -/
theorem advectStep_holds (hw : g.WF) (hn : 0 < n) (hm : g.last ≤ maxTag) {x : AdvState n W} (h : Idle g dflt maxTag x.grid)
    {u : Nat → Option AdvCell} (hu : Holds x.grid u) (a : AdvParams) (adapt : Bool) :
    ∃ y v t, advectStep g dflt maxTag a adapt x = .ok y ∧ Idle g dflt maxTag y.grid ∧ Holds y.grid v ∧
      advectTurn g maxTag defaultId (a.cfl * x.dt) x.grid = .ok t ∧ Idle g dflt maxTag t ∧ Holds t (advected g (a.cfl * x.dt) u) ∧
      (∀ i, (t i).owner = (x.grid i).owner) ∧
      if adapt then AdaptsTo g a (densityIn u) (advected g (a.cfl * x.dt) u) v ∧ StepOf a.big v y.dt ∧
        ∃ refine keep unrefine, adaptGrid g dflt maxTag a.len a.vel defaultId refine keep unrefine t = .ok y.grid
      else v = advected g (a.cfl * x.dt) u ∧ y = ⟨t, x.dt⟩ := by
  obtain ⟨t, e1, e2, e3, e4, s3, e5, e6, e7, e8, e9⟩ := advectTurn_holds hw hn h hu (fun i => if_pos rfl)
    (fun o h => faces_sub_hoodOf h) (a.cfl * x.dt)
  have e5 : advectFluxes g maxTag (a.cfl * x.dt) x.grid = .ok s3 := e5
  cases adapt with
  | false =>
    refine ⟨⟨t, x.dt⟩, _, t, ?_, e2, e3, e1, e2, e3, fun i => (e4 i).1, ?_⟩
    · unfold advectStep
      rw [e5, Out.bind_ok, e6, Out.bind_ok, if_neg (by decide)]
    · rw [if_neg (by decide)]
      exact ⟨rfl, rfl⟩
  | true =>
    obtain ⟨r, v, f1, f2, f3, f4, f5⟩ := adaptChecked_adapts hw hn hm e7.reachable e2 (fun i => (e8 i).trans (e4 i).1.symm) e3 a
      (U := densityIn u) (by
        intro i c hc b hb
        obtain ⟨y, y1, y2⟩ := e9 i c (by rw [← e8]; exact hc) b hb
        exact ⟨y, y1, y2.1⟩)
    obtain ⟨dt, d1, d2⟩ := maxTimeStep_spec hw hn f2.reachable f3 a.big
    refine ⟨⟨r, dt⟩, v, t, ?_, f2, f3, e1, e2, e3, fun i => (e4 i).1, ?_⟩
    · unfold advectStep
      rw [e5, Out.bind_ok, e6, Out.bind_ok, if_pos rfl, f1, Out.bind_ok, d1, Out.bind_ok]
    · rw [if_pos rfl]
      exact ⟨f4, d2, f5⟩

/-- The program takes steps from state `x` to state `y`, list `l` tells on which of them the grid is adapted. Before any step and at
the end the load can be balanced and anything else done that does not change data of cells. -/
inductive AdvectSim (g : Cfg) (dflt : AdvCell) (maxTag : Nat) (a : AdvParams) : List Bool → AdvState n W → AdvState n W → Prop
  | refl {x : AdvState n W} : AdvectSim g dflt maxTag a [] x x
  | step {l : List Bool} {x y y' : AdvState n W} {adapt : Bool} : AdvectSim g dflt maxTag a l x y →
      advectStep g dflt maxTag a adapt y = .ok y' → AdvectSim g dflt maxTag a (l ++ [adapt]) x y'
  | moves {l : List Bool} {x y : AdvState n W} {t : Sys n AdvCell W} : AdvectSim g dflt maxTag a l x y →
      Runs g dflt maxTag Op.Moves y.grid t → AdvectSim g dflt maxTag a l x ⟨t, y.dt⟩

/-- Data of cells and length of the next step in `AdvectSim`. -/
inductive SimTo (g : Cfg) (a : AdvParams) : List Bool → (Nat → Option AdvCell) → Rat → (Nat → Option AdvCell) → Rat → Prop
  | refl {u : Nat → Option AdvCell} {dt : Rat} : SimTo g a [] u dt u dt
  | step {l : List Bool} {u v : Nat → Option AdvCell} {dt dt' : Rat} : SimTo g a l u dt v dt' →
      SimTo g a (l ++ [false]) u dt (advected g (a.cfl * dt') v) dt'
  | adapt {l : List Bool} {u v v' : Nat → Option AdvCell} {dt dt' dt'' : Rat} : SimTo g a l u dt v dt' →
      AdaptsTo g a (densityIn v) (advected g (a.cfl * dt') v) v' → StepOf a.big v' dt'' → SimTo g a (l ++ [true]) u dt v' dt''

theorem SimTo.unique {a : AdvParams} {l : List Bool} {u v v' : Nat → Option AdvCell} {dt x x' : Rat} (h : SimTo g a l u dt v x)
    (h' : SimTo g a l u dt v' x') : v = v' ∧ x = x' := by
  generalize hl : l = l' at h'

  induction h generalizing v' x' l' with
  | refl =>
    cases h' with
    | refl => exact ⟨rfl, rfl⟩
    | step => exact absurd hl (by simp)
    | adapt => exact absurd hl (by simp)
  | step _ ih =>
    cases h' with
    | refl => exact absurd hl (by simp)
    | step h1 =>
      obtain ⟨e1, e2⟩ := ih _ (List.append_inj' hl rfl).1 h1
      rw [e1, e2]
      exact ⟨rfl, rfl⟩
    | adapt => exact absurd (List.append_inj' hl rfl).2 (by simp)
  | adapt _ h2 h3 ih =>
    cases h' with
    | refl => exact absurd hl (by simp)
    | step h1 => exact absurd (List.append_inj' hl rfl).2 (by simp)
    | adapt h1 h2' h3' =>
      obtain ⟨e1, e2⟩ := ih _ (List.append_inj' hl rfl).1 h1
      subst e1
      subst e2
      have := h2.unique h2'
      subst this
      exact ⟨rfl, h3.unique h3'⟩

theorem AdvectSim.holds (hw : g.WF) (hn : 0 < n) (hm : g.last ≤ maxTag) {a : AdvParams} {l : List Bool} {x y : AdvState n W}
    (h : AdvectSim g dflt maxTag a l x y) (hx : Idle g dflt maxTag x.grid) {u : Nat → Option AdvCell} (hu : Holds x.grid u) :
    ∃ v, Idle g dflt maxTag y.grid ∧ Holds y.grid v ∧ SimTo g a l u x.dt v y.dt := by
  induction h with
  | refl => exact ⟨u, hx, hu, .refl⟩
  | @step l x y y' adapt _ h2 ih =>
    obtain ⟨v, i1, i2, i3⟩ := ih hx hu
    obtain ⟨z, v', t, e1, e2, e3, e4, e5, e6, e7, e8⟩ := advectStep_holds hw hn hm i1 i2 a adapt
    rw [h2] at e1
    injection e1 with e1
    subst e1
    refine ⟨v', e2, e3, ?_⟩
    cases adapt with
    | false =>
      rw [if_neg (by decide)] at e8
      rw [e8.1, e8.2]
      exact .step i3
    | true =>
      rw [if_pos rfl] at e8
      exact .adapt i3 e8.1 e8.2.1
  | moves _ h2 ih =>
    obtain ⟨v, i1, i2, i3⟩ := ih hx hu
    obtain ⟨j1, j2⟩ := h2.moves_holds hw hn i1 i2
    exact ⟨v, j1, j2, i3⟩

theorem checkCalls_congr {a : CheckParams} {E : Nat → Bool} {U U' : Nat → Rat} (h : ∀ c, E c = true → U c = U' c) :
    checkCalls g a E U = checkCalls g a E U' := by
  have key : ∀ c x, E c = true → (DiffOf g E a.threshold U c x ↔ DiffOf g E a.threshold U' c x) := by
    intro c x hc
    have one : ∀ {U U' : Nat → Rat}, (∀ c, E c = true → U c = U' c) → DiffOf g E a.threshold U c x → DiffOf g E a.threshold U' c x := by
      intro U U' h hd
      refine ⟨?_, hd.nonneg, fun b b1 b2 => ?_⟩
      · rcases hd.some with e | ⟨b, b1, b2, e⟩
        · exact Or.inl e
        · exact Or.inr ⟨b, b1, b2, by rw [e, h c hc, h b b1]⟩
      · rw [← h c hc, ← h b b1]
        exact hd.all b b1 b2
    exact ⟨one h, one fun c hc => (h c hc).symm⟩
  unfold checkCalls
  congr 1
  all_goals
    funext c
    refine propext (and_congr_right fun hc => exists_congr fun x => ?_)
    rw [key c x hc]

theorem advected_isSome (dt : Rat) (u : Nat → Option AdvCell) : (fun c => (advected g dt u c).isSome) = fun c => (u c).isSome := by
  funext c
  unfold advected
  cases u c <;> rfl

theorem StepOf.advected {big dt x : Rat} {u : Nat → Option AdvCell} (h : StepOf big u x) : StepOf big (advected g dt u) x := by
  have fw : ∀ c a, u c = some a → ∃ b, Dccrg.advected g dt u c = some b ∧ b.len = a.len ∧ b.v = a.v := by
    intro c a e
    unfold Dccrg.advected
    rw [e]
    exact ⟨_, rfl, rfl, rfl⟩
  refine ⟨?_, h.le, fun c a d e1 e2 e3 => ?_⟩
  · rcases h.one with e | ⟨c, a, d, e1, e2, e3, e⟩
    · exact Or.inl e
    · obtain ⟨b, b1, b2, b3⟩ := fw c a e1
      exact Or.inr ⟨c, b, d, b1, by rw [b3]; exact e2, by rw [b2]; exact e3, by rw [b2, b3]; exact e⟩
  · cases hu : u c with
    | none =>
      unfold Dccrg.advected at e1
      rw [hu] at e1
      cases e1
    | some a' =>
      obtain ⟨b, b1, b2, b3⟩ := fw c a' hu
      rw [e1] at b1
      injection b1 with b1
      subst b1
      rw [b2] at e3 ⊢
      rw [b3] at e2 ⊢
      exact h.all c a' d hu e2 e3

/-- C122: the program can be started on any grid and every step of it can be taken, with and without adaptation, however the load is
balanced. -/
theorem C122_possible (hw : g.WF) (hn : 0 < n) (hm : g.last ≤ maxTag) (h : Idle g dflt maxTag s) (a : AdvParams) (k : Nat) :
    ∃ x, advectStart g dflt maxTag a k s = .ok x ∧ ∀ l y, AdvectSim g dflt maxTag a l x y →
      Idle g dflt maxTag y.grid ∧ ∀ adapt, ∃ y', advectStep g dflt maxTag a adapt y = .ok y' := by
  obtain ⟨x, r, v, e1, -, -, e4, e5, -, -⟩ := advectStart_holds hw hn hm h a k
  refine ⟨x, e1, fun l y hr => ?_⟩
  obtain ⟨v', f1, f2, -⟩ := hr.holds hw hn hm e4 e5
  refine ⟨f1, fun adapt => ?_⟩
  obtain ⟨y', _, _, g1, -⟩ := advectStep_holds hw hn hm f1 f2 a adapt
  exact ⟨y', g1⟩

/-- C122: results of the program do not depend on the number of processes and on which processes have the cells: after the same steps
the same cells exist, they have the same data and the next step is as long. -/
theorem C122_same_results {n' : Nat} {W' : Type} {dflt' : AdvCell} {maxTag' : Nat} {s' : Sys n' AdvCell W'} (hw : g.WF)
    (hn : 0 < n) (hn' : 0 < n') (hm : g.last ≤ maxTag) (hm' : g.last ≤ maxTag') (h : Idle g dflt maxTag s)
    (h' : Idle g dflt' maxTag' s') (hs : ∀ i j c, exist (s i).owner c = exist (s' j).owner c) {a : AdvParams} {k : Nat}
    {x y : AdvState n W} {x' y' : AdvState n' W'} {l : List Bool} (hx : advectStart g dflt maxTag a k s = .ok x)
    (hx' : advectStart g dflt' maxTag' a k s' = .ok x') (hy : AdvectSim g dflt maxTag a l x y)
    (hy' : AdvectSim g dflt' maxTag' a l x' y') : SameData y.grid y'.grid ∧ y.dt = y'.dt := by
  obtain ⟨z, r, v, e1, -, -, e4, e5, e6, e7⟩ := advectStart_holds hw hn hm h a k
  rw [hx] at e1
  injection e1 with e1
  subst e1
  obtain ⟨z', r', v', e1', -, -, e4', e5', e6', e7'⟩ := advectStart_holds hw hn' hm' h' a k
  rw [hx'] at e1'
  injection e1' with e1'
  subst e1'
  have hE : exist (s ⟨0, hn⟩).owner = exist (s' ⟨0, hn'⟩).owner := funext fun c => hs _ _ c
  have e7 := e7 ⟨0, hn⟩
  rw [hE] at e7
  have := e7.unique (e7' ⟨0, hn'⟩)
  subst this
  have := e6.unique e6'
  obtain ⟨w, f1, f2, f3⟩ := hy.holds hw hn hm e4 e5
  obtain ⟨w', f1', f2', f3'⟩ := hy'.holds hw hn' hm' e4' e5'
  rw [← this] at f3'
  obtain ⟨g1, g2⟩ := f3.unique f3'
  subst g1
  exact ⟨f2.same f2', g2⟩

/-- C122: a step of the program is a turn of given length that is followed by an adaptation of the grid if it is time for it. -/
theorem C122_step (hw : g.WF) (hn : 0 < n) (hm : g.last ≤ maxTag) {a : AdvParams} {adapt : Bool} {x y : AdvState n W}
    (h : Idle g dflt maxTag x.grid) (ht : advectStep g dflt maxTag a adapt x = .ok y) :
    ∃ t, advectTurn g maxTag defaultId (a.cfl * x.dt) x.grid = .ok t ∧
      (adapt = true → ∃ refine keep unrefine, adaptGrid g dflt maxTag a.len a.vel defaultId refine keep unrefine t = .ok y.grid) ∧
      (adapt = false → y = ⟨t, x.dt⟩) := by
  obtain ⟨w, hi⟩ := h.reachable.inv hw hn
  obtain ⟨u, hu⟩ := hi.holds
  obtain ⟨y', v, t, e1, e2, e3, e4, e5, e6, e7, e8⟩ := advectStep_holds hw hn hm h hu a adapt
  rw [ht] at e1
  injection e1 with e1
  subst e1
  refine ⟨t, e4, fun e => ?_, fun e => ?_⟩
  · rw [if_pos e] at e8
    exact e8.2.2
  · rw [if_neg (by rw [e]; decide)] at e8
    exact e8.2

/-- C122: cells are refined and unrefined as asked by differences of densities in cells before the step. -/
theorem C122_cells (hw : g.WF) (hn : 0 < n) (hm : g.last ≤ maxTag) (h0 : g.maxLvl ≠ 0) {a : AdvParams} {x y : AdvState n W}
    (h : Idle g dflt maxTag x.grid) (ht : advectStep g dflt maxTag a true x = .ok y) {U : Nat → Rat}
    (hU : ∀ i c b, (x.grid i).owner c = some i → access (x.grid i) c = some b → U c = b.density) (i j : Fin n) {c : Nat}
    (hc : exist (x.grid i).owner c = true) :
    (Finer g (exist (y.grid j).owner) c ↔
      Forced g (exist (x.grid i).owner) (checkCalls g a.check (exist (x.grid i).owner) U) c) ∧
    (Coarser g (exist (y.grid j).owner) c ↔
      UnrefinedBy g (exist (x.grid i).owner) (checkCalls g a.check (exist (x.grid i).owner) U) c) := by
  obtain ⟨w, hi⟩ := h.reachable.inv hw hn
  obtain ⟨u, hu⟩ := hi.holds
  obtain ⟨y', v, t, e1, e2, e3, e4, e5, e6, e7, e8⟩ := advectStep_holds hw hn hm h hu a true
  rw [ht] at e1
  injection e1 with e1
  subst e1
  rw [if_pos rfl] at e8
  rcases e8.1 with ⟨k, -⟩ | ⟨-, E, f1, f2, f3⟩
  · exact absurd k h0
  rw [advected_isSome, isSome_eq_exist hu i] at f1 f3
  have hE : exist (y.grid j).owner = E := by
    rw [← isSome_eq_exist e3 j, f2]
    funext c
    unfold adaptedTo
    cases E c with
    | false => rfl
    | true =>
      rw [if_pos rfl]
      split
      · rfl
      · split <;> rfl
  rw [hE, checkCalls_congr (U' := densityIn u)]
  · refine f3 c ?_
    have := congrFun (advected_isSome (g := g) (a.cfl * x.dt) u) c
    have h2 := congrFun (isSome_eq_exist hu i) c
    exact this.trans (h2.trans hc)
  · intro b hb
    obtain ⟨p, hp⟩ := Option.isSome_iff_exists.1 hb
    have hpp : (x.grid p).owner b = some p := by rw [hi.sys.owner, ← hi.sys.owner i]; exact hp
    have h1 := ((hu p b).1 p hpp).1
    obtain ⟨z, hz⟩ := Option.ne_none_iff_exists'.1 (((hu i b).2).1 hb)
    rw [hz] at h1
    rw [hU p b z hpp h1]
    unfold densityIn
    rw [hz]
    rfl

/-- C122: the length of steps is always the largest one with which nothing moves further than the length of its cell. -/
theorem C122_time_step (hw : g.WF) (hn : 0 < n) (hm : g.last ≤ maxTag) (h : Idle g dflt maxTag s) {a : AdvParams} {k : Nat}
    {x y : AdvState n W} {l : List Bool} (hx : advectStart g dflt maxTag a k s = .ok x) (hy : AdvectSim g dflt maxTag a l x y) :
    y.dt ≤ a.big ∧
    (∀ i c b d, (y.grid i).owner c = some i → access (y.grid i) c = some b → b.v d ≠ 0 → b.len d ≠ 0 →
      y.dt ≤ b.len d / (if b.v d < 0 then -b.v d else b.v d)) ∧
    (y.dt = a.big ∨ ∃ i c b d, (y.grid i).owner c = some i ∧ access (y.grid i) c = some b ∧ b.v d ≠ 0 ∧ b.len d ≠ 0 ∧
      y.dt = b.len d / (if b.v d < 0 then -b.v d else b.v d)) := by
  obtain ⟨z, r, v, e1, -, -, e4, e5, e6, -⟩ := advectStart_holds hw hn hm h a k
  rw [hx] at e1
  injection e1 with e1
  subst e1
  obtain ⟨w, f1, f2, f3⟩ := hy.holds hw hn hm e4 e5
  have hS : StepOf a.big w y.dt := by
    clear hy f1 f2
    generalize y.dt = q at f3
    generalize hq : x.dt = q0 at f3
    induction f3 with
    | refl => rw [← hq]; exact e6
    | step _ ih => exact (ih e5 e6 hq).advected
    | adapt _ _ h3 _ => exact h3
  obtain ⟨ow, hi⟩ := f1.reachable.inv hw hn
  refine ⟨hS.le, fun i c b d h1 h2 => hS.all c b d (by rw [← ((f2 i c).1 i h1).1]; exact h2), ?_⟩
  rcases hS.one with e | ⟨c, b, d, h1, h2⟩
  · exact Or.inl e
  · have : exist (y.grid ⟨0, hn⟩).owner c = true := ((f2 ⟨0, hn⟩ c).2).2 (by rw [h1]; simp)
    obtain ⟨i, hi'⟩ := Option.isSome_iff_exists.1 this
    have hii : (y.grid i).owner c = some i := by rw [hi.sys.owner, ← hi.sys.owner ⟨0, hn⟩]; exact hi'
    exact Or.inr ⟨i, c, b, d, hii, by rw [((f2 i c).1 i hii).1]; exact h1, h2⟩

theorem AdvectSim.run (hw : g.WF) (hn : 0 < n) (hm : g.last ≤ maxTag) {a : AdvParams} {l : List Bool} {x y : AdvState n W}
    (h : AdvectSim g dflt maxTag a l x y) (hx : Idle g dflt maxTag x.grid) :
    Idle g dflt maxTag y.grid ∧ AdvectRun g dflt maxTag a.len a.vel x.grid y.grid := by
  induction h with
  | refl => exact ⟨hx, .refl⟩
  | @step l x y y' adapt _ h2 ih =>
    obtain ⟨i1, i2⟩ := ih hx
    obtain ⟨w, hi⟩ := i1.reachable.inv hw hn
    obtain ⟨u, hu⟩ := hi.holds
    obtain ⟨z, v', t, e1, e2, -⟩ := advectStep_holds hw hn hm i1 hu a adapt
    rw [h2] at e1
    injection e1 with e1
    subst e1
    obtain ⟨t, f1, f2, f3⟩ := C122_step hw hn hm i1 h2
    refine ⟨e2, ?_⟩
    cases adapt with
    | false => rw [f3 rfl]; exact .turn _ i2 f1
    | true =>
      obtain ⟨_, _, _, f2⟩ := f2 rfl
      exact .adapt _ _ _ (.turn _ i2 f1) f2
  | moves _ h2 ih =>
    obtain ⟨i1, i2⟩ := ih hx
    obtain ⟨w, hi⟩ := i1.reachable.inv hw hn
    obtain ⟨u, hu⟩ := hi.holds
    exact ⟨(h2.moves_holds hw hn i1 hu).1, .moves i2 h2⟩

/-- C122: with a geometry of dccrg the program starts with initial densities in the cells that exist after initial refinement, and the
total amount is the same after any steps. -/
theorem C122_conserved {m : Mapping} {per : V3 Bool} {hood : Nat} {G : Geo} (hM : m.OK) (hG : G.Consistent m) (hn : 0 < n)
    (hm : (m.grid per hood).last ≤ maxTag) (h : Idle (m.grid per hood) dflt maxTag s) {a : AdvParams} (ha : a.len = G.lengths) {k : Nat}
    {x y : AdvState n W} {l : List Bool} (hx : advectStart (m.grid per hood) dflt maxTag a k s = .ok x)
    (hy : AdvectSim (m.grid per hood) dflt maxTag a l x y) :
    (∀ i c, (x.grid i).owner c = some i → access (x.grid i) c = some ⟨a.density c, 0, G.lengths c, a.vel c⟩) ∧
    advectedMass (m.grid per hood) y.grid = advectedMass (m.grid per hood) x.grid := by
  have hw := grid_wf (per := per) (hood := hood) hM
  obtain ⟨z, r, v, e1, e2, e3, e4, -⟩ := advectStart_holds hw hn hm h a k
  rw [hx] at e1
  injection e1 with e1
  subst e1
  rw [ha] at e3
  obtain ⟨s1, f1, f2, f3⟩ := C121_conserved hM hG hn hm e2 a.density a.vel
  rw [e3] at f1
  injection f1 with f1
  subst f1
  have hr := (hy.run hw hn hm e4).2
  rw [ha] at hr
  exact ⟨f2, (f3 _ hr).1.trans (f3 _ .refl).1.symm⟩

/-- A simulation in the grid of two cells. -/
def tinyAdv : AdvParams where
  density c := if c = 1 then 1 else 0
  len := (tinyCart.geo tinyM).lengths
  vel _ d := if d = 0 then 1 else 0
  check := ⟨1 / 10, 1 / 100, 1 / 2⟩
  cfl := 1 / 2
  big := 1000

theorem tiny_beside : Beside tinyG 1 2 :=
  ⟨0, true, v3 4 0 0, ⟨by unfold Cfg.Lift; rw [forall_fin3]; decide +kernel, by rw [forall_fin3]; decide +kernel, by decide +kernel⟩, by rw [forall_fin3]; decide +kernel⟩

/-- Cell 1 is refined because the difference to cell 2 on another process is large. -/
theorem tiny_checked : ∃ (s : Sys 2 AdvCell Nat) (y : AdvState 2 Nat), Idle tinyG (advDemo 0) 146 s ∧ (s 0).owner 1 = some 0 ∧
    (s 1).owner 2 = some 1 ∧ Holds s advField ∧ advectStep tinyG (advDemo 0) 146 tinyAdv true ⟨s, 1⟩ = .ok y ∧
    (∀ (i : Fin 2) c b, (s i).owner c = some i → access (s i) c = some b → (if c = 1 then (1 : Rat) else 0) = b.density) ∧
    (checkCalls tinyG tinyAdv.check (exist (s 0).owner) fun c => if c = 1 then 1 else 0).refine 1 ∧
    Finer tinyG (exist (y.grid 0).owner) 1 := by
  obtain ⟨s, h1, h2, h3⟩ := advDemo_start (n := 2) (by omega)
  have hm : tinyG.last ≤ 146 := by rw [tiny_last]; exact Nat.le_refl _
  have o1 : (s 0).owner 1 = some 0 := by rw [h3]; decide
  have o2 : (s 1).owner 2 = some 1 := by rw [h3]; decide
  obtain ⟨y, _, _, e1, -⟩ := advectStep_holds tiny_wf (by omega) hm (x := ⟨s, 1⟩) h1 h2 tinyAdv true
  have hE : ∀ c, exist (s 0).owner c = true ↔ c = 1 ∨ c = 2 := by
    intro c
    rw [h3, createLevel0_exist (by omega)]
    omega
  have hU : ∀ (i : Fin 2) c b, (s i).owner c = some i → access (s i) c = some b → (if c = 1 then (1 : Rat) else 0) = b.density := by
    intro i c b hc hb
    rw [((h2 i c).1 i hc).1] at hb
    unfold advField at hb
    split at hb
    · rename_i e
      injection hb with hb
      rw [if_pos e, ← hb]; rfl
    · rename_i e
      split at hb
      · injection hb with hb
        rw [if_neg e, ← hb]; rfl
      · cases hb
  have hd : DiffOf tinyG (exist (s 0).owner) tinyAdv.check.threshold (fun c => if c = 1 then 1 else 0) 1 100 := by
    refine ⟨Or.inr ⟨2, (hE 2).2 (Or.inr rfl), tiny_beside, by decide +kernel⟩, by decide +kernel, fun b hb _ => ?_⟩
    rcases (hE b).1 hb with rfl | rfl <;> decide +kernel
  have hR : (checkCalls tinyG tinyAdv.check (exist (s 0).owner) fun c => if c = 1 then 1 else 0).refine 1 :=
    ⟨(hE 1).2 (Or.inl rfl), 100, hd, by decide +kernel⟩
  refine ⟨s, y, h1, o1, o2, h2, e1, hU, hR, ?_⟩
  exact (C122_cells tiny_wf (by omega) hm (by decide) h1 e1 hU 0 0 ((hE 1).2 (Or.inl rfl))).1.2
    (.base hR (by decide +kernel) (Veto.none fun _ h => h))

/-- Hypotheses of `C122_cells` are met. -/
example : ∃ (x y : AdvState 2 Nat), tinyG.WF ∧ tinyG.last ≤ 146 ∧ tinyG.maxLvl ≠ 0 ∧ Idle tinyG (advDemo 0) 146 x.grid ∧
    advectStep tinyG (advDemo 0) 146 tinyAdv true x = .ok y ∧
    (∀ i c b, (x.grid i).owner c = some i → access (x.grid i) c = some b → (if c = 1 then (1 : Rat) else 0) = b.density) ∧
    exist (x.grid 0).owner 1 = true ∧ Finer tinyG (exist (y.grid 0).owner) 1 := by
  obtain ⟨s, y, h1, h2, h3, h4, h5, h6, h7, h8⟩ := tiny_checked
  exact ⟨⟨s, 1⟩, y, tiny_wf, by rw [tiny_last]; exact Nat.le_refl _, by decide, h1, h5, h6, exist_of h2, h8⟩

/-- Hypotheses of `C122_step` are met. -/
example : ∃ (x y : AdvState 2 Nat), Idle tinyG (advDemo 0) 146 x.grid ∧ tinyG.last ≤ 146 ∧
    advectStep tinyG (advDemo 0) 146 tinyAdv true x = .ok y ∧ Finer tinyG (exist (y.grid 0).owner) 1 := by
  obtain ⟨s, y, h1, h2, h3, h4, h5, h6, h7, h8⟩ := tiny_checked
  exact ⟨⟨s, 1⟩, y, h1, by rw [tiny_last]; exact Nat.le_refl _, h5, h8⟩

/-- Hypotheses of `C122_possible`, `C122_same_results` and `C122_time_step` are met. -/
example : ∃ (s : Sys 2 AdvCell Nat) (s' : Sys 1 AdvCell Nat) (x y : AdvState 2 Nat) (x' y' : AdvState 1 Nat),
    Idle tinyG (advDemo 0) 146 s ∧ Idle tinyG (advDemo 0) 146 s' ∧ (∀ i j c, exist (s i).owner c = exist (s' j).owner c) ∧
    (s 1).owner 2 = some 1 ∧ (s' 0).owner 2 = some 0 ∧
    advectStart tinyG (advDemo 0) 146 tinyAdv 2 s = .ok x ∧ advectStart tinyG (advDemo 0) 146 tinyAdv 2 s' = .ok x' ∧
    AdvectSim tinyG (advDemo 0) 146 tinyAdv [true, false] x y ∧ AdvectSim tinyG (advDemo 0) 146 tinyAdv [true, false] x' y' := by
  obtain ⟨s, h1, h2, h3⟩ := advDemo_start (n := 2) (by omega)
  obtain ⟨s', h1', h2', h3'⟩ := advDemo_start (n := 1) (by omega)
  have hm : tinyG.last ≤ 146 := by rw [tiny_last]; exact Nat.le_refl _
  obtain ⟨x, e1, e2⟩ := C122_possible tiny_wf (by omega) hm h1 tinyAdv 2
  obtain ⟨y, f1⟩ := (e2 _ _ .refl).2 true
  obtain ⟨z, f2⟩ := (e2 _ _ (.step .refl f1)).2 false
  obtain ⟨x', e1', e2'⟩ := C122_possible tiny_wf (by omega) hm h1' tinyAdv 2
  obtain ⟨y', f1'⟩ := (e2' _ _ .refl).2 true
  obtain ⟨z', f2'⟩ := (e2' _ _ (.step .refl f1')).2 false
  exact ⟨s, s', x, z, x', z', h1, h1', (h2.same h2').1, by rw [h3]; decide, by rw [h3']; decide, e1, e1',
    .step (.step .refl f1) f2, .step (.step .refl f1') f2'⟩

/-- Hypotheses of `C122_conserved` are met. -/
example : ∃ (s : Sys 2 AdvCell Nat) (x y : AdvState 2 Nat), tinyM.OK ∧ (tinyCart.geo tinyM).Consistent tinyM ∧
    (tinyM.grid (v3 false false true) 1).last ≤ 146 ∧ Idle (tinyM.grid (v3 false false true) 1) (advDemo 0) 146 s ∧
    tinyAdv.len = (tinyCart.geo tinyM).lengths ∧
    advectStart (tinyM.grid (v3 false false true) 1) (advDemo 0) 146 tinyAdv 2 s = .ok x ∧
    AdvectSim (tinyM.grid (v3 false false true) 1) (advDemo 0) 146 tinyAdv [true, false] x y := by
  obtain ⟨s, h1, h2, h3⟩ := advDemo_start (n := 2) (by omega)
  have hm : tinyG.last ≤ 146 := by rw [tiny_last]; exact Nat.le_refl _
  obtain ⟨x, e1, e2⟩ := C122_possible tiny_wf (by omega) hm h1 tinyAdv 2
  obtain ⟨y, f1⟩ := (e2 _ _ .refl).2 true
  obtain ⟨z, f2⟩ := (e2 _ _ (.step .refl f1)).2 false
  rw [tinyM_grid]
  exact ⟨s, x, z, tinyM_ok, C44_cartesian_consistent tinyM_ok tinyCart_ok, hm, h1, rfl, e1, .step (.step .refl f1) f2⟩

/-- Densities with which cell 2 differs from three of its four smaller face neighbors. -/
def tinyStep : AdvParams where
  density c := if c = 8 ∨ c = 12 ∨ c = 16 then 3 / 2 else 0
  len := (tinyCart.geo tinyM).lengths
  vel _ _ := 0
  check := ⟨1, 1, 1 / 2⟩
  cfl := 1 / 2
  big := 1000

theorem tiny_not_beside {b : Nat} (hb : b = 8 ∨ b = 12 ∨ b = 16) : ¬ Beside tinyG 2 b := by
  rintro ⟨d, pos, off, ⟨lift, -, -⟩, h0⟩
  by_cases hd : d = 0
  · subst hd
    have l1 : (tinyG.idx 2 1 : Int) + off 1 = tinyG.idx b 1 := (lift 1).2 (by decide)
    have l2 : (tinyG.n 2 : Int) ∣ (tinyG.idx 2 2 : Int) + off 2 - tinyG.idx b 2 := (lift 2).1
    rw [h0 1 (by decide)] at l1
    rw [h0 2 (by decide)] at l2
    rcases hb with rfl | rfl | rfl
    · exact absurd l1 (by decide +kernel)
    · exact absurd l2 (by decide +kernel)
    · exact absurd l1 (by decide +kernel)
  · have l0 : (tinyG.idx 2 0 : Int) + off 0 = tinyG.idx b 0 := (lift 0).2 (by decide)
    rw [h0 0 fun e => hd e.symm] at l0
    rcases hb with rfl | rfl | rfl <;> exact absurd l0 (by decide +kernel)

/-- A cell whose density differs from a face neighbor by more than the limit is not always refined: differences to smaller face
neighbors are looked at only if those are at the lower corner of the face. -/
theorem C122_faces_false : ∃ (x y : AdvState 2 Nat) (b : Nat) (d : Fin 3) (pos : Bool) (off : V3 Int),
    Idle tinyG (advDemo 0) 146 x.grid ∧ exist (x.grid 0).owner 2 = true ∧ exist (x.grid 0).owner b = true ∧
    tinyG.lvl 2 < tinyG.maxLvl ∧ Touch tinyG 2 d pos b off ∧
    (∀ i c a, (x.grid i).owner c = some i → access (x.grid i) c = some a → a.density = tinyStep.density c) ∧
    densityDiff tinyStep.check.threshold (tinyStep.density 2) (tinyStep.density b) > (tinyG.lvl 2 + 1) * tinyStep.check.increase ∧
    advectStep tinyG (advDemo 0) 146 tinyStep true x = .ok y ∧ ¬ Finer tinyG (exist (y.grid 0).owner) 2 := by
  obtain ⟨s, h1, h2, h3⟩ := advDemo_start (n := 2) (by omega)
  have hm : tinyG.last ≤ 146 := by rw [tiny_last]; exact Nat.le_refl _
  have h0 : tinyG.maxLvl ≠ 0 := by decide
  have hE : ∀ c, exist (s 0).owner c = true ↔ c = 1 ∨ c = 2 := by
    intro c
    rw [h3, createLevel0_exist (by omega)]
    omega
  -- cell 1 is refined
  obtain ⟨t, e1, e2, -, E, e3, e4, -⟩ := adaptGrid_holds (id := defaultId) tiny_wf (by omega) hm h1 h2 h0
    (fun i => by rw [hoodFor, if_pos rfl]; rfl) tinyStep.len tinyStep.vel (fun i => if i = 0 then [1] else []) (fun _ => []) (fun _ => [])
  have hl : ∀ (i : Fin 2) c, c ∈ (if i = 0 then [1] else []) ∨ c ∈ ([] : List Nat) ∨ c ∈ ([] : List Nat) → (s i).owner c = some i := by
    rintro i c (h | h | h)
    · split at h
      · rename_i hi
        rw [List.mem_singleton] at h
        rw [h, hi, h3]
        decide
      · cases h
    · cases h
    · cases h
  have lv : ∀ c, c = 1 ∨ c = 2 → tinyG.lvl c = 0 := by
    rintro c (rfl | rfl) <;> decide +kernel
  have hF : ∀ c, c = 1 ∨ c = 2 → (Finer tinyG E c ↔ c = 1) ∧ ¬ Coarser tinyG E c := by
    intro c hc
    have h := C121_cells tiny_wf (by omega) hm h1 h0 hl e1 0 ((hE c).2 hc)
    rw [e3] at h
    refine ⟨?_, fun hC => ?_⟩
    · rw [h.1]
      constructor
      · intro hf
        clear hc h
        induction hf with
        | base hr _ _ =>
          obtain ⟨i, hr⟩ := hr
          change _ ∈ if _ then _ else _ at hr
          split at hr
          · exact List.mem_singleton.1 hr
          · cases hr
        | step _ _ _ _ hlt ih => rw [ih, lv 1 (Or.inl rfl)] at hlt; exact absurd hlt (Nat.not_lt_zero _)
      · rintro rfl
        exact .base ⟨0, by show 1 ∈ if _ then _ else _; rw [if_pos rfl]; exact List.mem_singleton.2 rfl⟩ (by decide +kernel)
          (Veto.none fun _ h => h)
    · obtain ⟨hp, -⟩ := h.2.1 hC
      rw [lv c hc] at hp
      omega
  have hE' : ∀ c, E c = true ↔ c = 2 ∨ c ∈ tinyG.children 1 := by
    intro c
    rw [(e4 0).after]
    constructor
    · rintro (⟨h, h', -⟩ | ⟨b, hb, hf, hc⟩ | ⟨b, hb, hC, -⟩)
      · rcases (hE c).1 h with rfl | rfl
        · exact absurd ((hF 1 (Or.inl rfl)).1.2 rfl) h'
        · exact Or.inl rfl
      · have := (hF b ((hE b).1 hb)).1.1 hf
        rw [this] at hc
        exact Or.inr hc
      · exact absurd hC (hF b ((hE b).1 hb)).2
    · rintro (rfl | hc)
      · exact Or.inl ⟨(hE 2).2 (Or.inr rfl), fun h => absurd ((hF 2 (Or.inr rfl)).1.1 h) (by decide), (hF 2 (Or.inr rfl)).2⟩
      · exact Or.inr (Or.inl ⟨1, (hE 1).2 (Or.inl rfl), (hF 1 (Or.inl rfl)).1.2 rfl, hc⟩)
  obtain ⟨r, f1, f2, f3, f4, -⟩ := startAdvection_holds tiny_wf (by omega) hm e2 tinyStep.density tinyStep.len tinyStep.vel
  have ho : ∀ i, exist (r i).owner = E := fun i => by rw [(f3 i).1, e3]
  have hU : ∀ (i : Fin 2) c a, (r i).owner c = some i → access (r i) c = some a → tinyStep.density c = a.density := by
    intro i c a hc ha
    rw [((f4 0 i c).1 i hc).1] at ha
    change (if _ then _ else _) = _ at ha
    split at ha
    · injection ha with ha
      rw [← ha]
    · cases ha
  obtain ⟨y, _, _, g1, -⟩ := advectStep_holds tiny_wf (by omega) hm (x := ⟨r, 1⟩) f2 (f4 0) tinyStep true
  have dens : ∀ c, tinyStep.density c = 0 ∨ tinyStep.density c = 3 / 2 := by
    intro c
    show (if _ then _ else _) = _ ∨ (if _ then _ else _) = _
    split
    · exact Or.inr rfl
    · exact Or.inl rfl
  have small : ∀ c b, densityDiff 1 (tinyStep.density c) (tinyStep.density b) ≤ 3 / 2 := by
    intro c b
    rcases dens c with e | e <;> rcases dens b with e' | e' <;> rw [e, e'] <;> decide +kernel
  have none : ∀ c, ¬ (checkCalls tinyG tinyStep.check E tinyStep.density).refine c := by
    rintro c ⟨hc, z, hz, hgt⟩
    rcases (hE' c).1 hc with rfl | hc
    · rcases hz.some with e | ⟨b, b1, b2, e⟩
      · rw [e] at hgt; exact absurd hgt (by decide +kernel)
      · have : tinyStep.density b = 0 := if_neg fun hb => tiny_not_beside hb b2
        rw [e, this] at hgt
        exact absurd hgt (by decide +kernel)
    · have hl1 : tinyG.lvl c = 1 := by
        have : ∀ c ∈ tinyG.children 1, tinyG.lvl c = 1 := by decide +kernel
        exact this c hc
      rw [hl1] at hgt
      have h2 : (((1 : Nat) : Rat) + 1) * tinyStep.check.increase = 2 := by decide +kernel
      rw [h2] at hgt
      rcases hz.some with e | ⟨b, b1, b2, e⟩
      · rw [e] at hgt; exact absurd hgt (by decide +kernel)
      · have := small c b
        have e : z = densityDiff 1 (tinyStep.density c) (tinyStep.density b) := e
        rw [← e] at this
        grind
  refine ⟨⟨r, 1⟩, y, 8, 0, false, v3 (-2) 2 0, f2, ?_, ?_, by decide +kernel,
    ⟨by unfold Cfg.Lift; rw [forall_fin3]; decide +kernel, by rw [forall_fin3]; decide +kernel, by decide +kernel⟩,
    fun i c a h h' => (hU i c a h h').symm, by decide +kernel, g1, ?_⟩
  · show exist (r 0).owner 2 = true
    rw [ho]; exact (hE' 2).2 (Or.inl rfl)
  · show exist (r 0).owner 8 = true
    rw [ho]; exact (hE' 8).2 (Or.inr (by decide +kernel))
  · have hx : exist (r 0).owner 2 = true := by rw [ho]; exact (hE' 2).2 (Or.inl rfl)
    rw [(C122_cells tiny_wf (by omega) hm h0 f2 g1 hU 0 0 hx).1]
    intro hf
    have : ∀ c, ¬ Forced tinyG E (checkCalls tinyG tinyStep.check E tinyStep.density) c := by
      intro c hc
      induction hc with
      | base h _ _ => exact none _ h
      | step _ _ _ _ _ ih => exact ih
    refine this 2 ?_
    have hf : Forced tinyG (exist (r 0).owner) (checkCalls tinyG tinyStep.check (exist (r 0).owner) tinyStep.density) 2 := hf
    rw [ho] at hf
    exact hf

end Dccrg
