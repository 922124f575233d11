import Verif.Nbr64
import Verif.MappingTree64
import Verif.Existing
import Verif.NbrTo
import Verif.NbrIs
import Verif.Props.Geometry
/-!
# Machine integers suffice for neighbor searches

The functions of `Verif.Nbr64` agree with those over unbounded integers in `Verif.Nbr`.
-/
namespace Dccrg
open Cfg

theorem val_bind {α β : Type} (a : α) (f : α → Mach β) : (Mach.val a >>= f) = f a := rfl

theorem i32_val {x : Int} (h1 : -2147483648 ≤ x) (h2 : x ≤ 2147483647) : i32 x = .val x :=
  if_pos ⟨h1, h2⟩

theorem each3_val {α : Type} {f : Fin 3 → Mach α} {v : V3 α} (h : ∀ d, f d = .val (v d)) :
    each3 f = .val v := by
  unfold each3
  rw [h 0, h 1, h 2]
  show Mach.val (v3 (v 0) (v 1) (v 2)) = _
  congr 1
  exact v3_ext rfl rfl rfl

section
variable {m : Mapping} {per : V3 Bool} {hood : Nat} {E : Nat → Bool}

theorem gridWF (h : m.OK) : (m.grid per hood).WF := h.pos

theorem grid_cellAt (l : Nat) (p : V3 Nat) : (m.grid per hood).cellAt l p = m.cfg.cellAt l p := by
  unfold cellAt; rw [grid_base]; rfl

theorem grid_parent (c : Nat) : (m.grid per hood).parent c = m.cfg.parent c := by
  unfold parent; rw [grid_cellAt, grid_lvl, grid_idx]

theorem grid_children (c : Nat) : (m.grid per hood).children c = m.cfg.children c := by
  unfold children child; simp only [grid_cellAt, grid_lvl, grid_idx]; rfl

theorem gridMax (h : m.OK) : ((m.grid per hood).maxLvl : Int) = m.maxLvl := Mapping.cfg_max h

theorem nIdx_grid (h : m.OK) (d : Fin 3) : m.nIdx d = (m.grid per hood).n d := Mapping.nIdx_eq h d

theorem n_lt (h : m.OK) (d : Fin 3) : (m.grid per hood).n d < W :=
  (Mapping.lens_lt h (Nat.le_refl _)).1 d

theorem getLevel_grid (h : m.OK) {c : Nat} (hv : (m.grid per hood).Valid c) :
    m.getLevel c = ((m.grid per hood).lvl c : Int) := by
  rw [Mapping.getLevel_eq h, if_pos (grid_valid.1 hv), grid_lvl]

theorem getLevel_bad (h : m.OK) {c : Nat} (hv : ¬ (m.grid per hood).Valid c) : m.getLevel c = -1 := by
  rw [Mapping.getLevel_eq h, if_neg (fun x => hv (grid_valid.2 x))]

theorem getIndices_grid (h : m.OK) {c : Nat} (hv : (m.grid per hood).Valid c) :
    m.getIndices c = (m.grid per hood).idx c := by
  rw [Mapping.getIndices_eq h, if_pos (grid_valid.1 hv), grid_idx]

theorem cellLength_grid (h : m.OK) {c : Nat} (hv : (m.grid per hood).Valid c) :
    m.cellLength c = (m.grid per hood).side c := by
  rw [Mapping.cellLength_eq h, if_pos (grid_valid.1 hv), grid_side]

theorem getParent_grid (h : m.OK) {c : Nat} (hv : (m.grid per hood).Valid c) :
    m.getParent c = (m.grid per hood).parent c := by
  rw [Mapping.getParent_eq h, if_pos (grid_valid.1 hv), grid_parent]

theorem cellFrom_grid (h : m.OK) {p : V3 Nat} (hp : (m.grid per hood).InGrid p) (l : Int) :
    m.cellFromIndices p l = cellFrom (m.grid per hood) p l := by
  rw [Mapping.cellFromIndices_eq h]
  have hm := gridMax (per := per) (hood := hood) h
  unfold cellFrom
  by_cases hl : 0 ≤ l ∧ l ≤ m.maxLvl
  · rw [if_pos ⟨hp, hl⟩, if_neg (by omega), grid_cellAt]
  · rw [if_neg (fun x => hl x.2), if_pos (by omega)]

theorem cellFrom_out (h : m.OK) {p : V3 Nat} (hp : ¬ (m.grid per hood).InGrid p) (l : Int) :
    m.cellFromIndices p l = 0 := by
  rw [Mapping.cellFromIndices_eq h]; exact if_neg (fun x => hp x.1)

theorem error_out (h : m.OK) {p : V3 Nat} {d : Fin 3} (hp : p d = errorIndex) :
    ¬ (m.grid per hood).InGrid p := by
  intro hi
  have h1 := hi d
  have h2 := n_lt (per := per) (hood := hood) h d
  rw [hp] at h1
  unfold errorIndex at h1
  omega

theorem pow_max (h : m.OK) : 2 ^ (m.grid per hood).maxLvl ≤ 2097152 := by
  have h1 : (m.grid per hood).maxLvl ≤ 21 := by
    have := Mapping.shift_counts h
    show m.maxLvl.toNat ≤ 21
    omega
  exact Nat.pow_le_pow_right (n := 2) (by omega) h1

theorem side_le_max (g : Cfg) (c : Nat) : g.side c ≤ 2 ^ g.maxLvl :=
  Nat.pow_le_pow_right (by omega) (by omega)

theorem tiled_zero {g : Cfg} (ht : Tiled g E) : E 0 = false := by
  cases h : E 0 with
  | false => rfl
  | true => have := (ht.valid 0 h).1; omega

/-! ## get_child, get_existing_cell -/

theorem getChild64_eq (h : m.OK) (ht : Tiled (m.grid per hood) E) (c : Nat) :
    getChild64 m E c = getChild (m.grid per hood) E c := by
  have hm := gridMax (per := per) (hood := hood) h
  have hw := gridWF (per := per) (hood := hood) h
  unfold getChild64 getChild
  by_cases hv : (m.grid per hood).Valid c
  · rw [getLevel_grid h hv, getIndices_grid h hv, if_neg (not_not_intro hv)]
    have hl := lvl_le hv
    by_cases he : (m.grid per hood).lvl c = (m.grid per hood).maxLvl
    · rw [if_pos (by omega), if_pos he]; rfl
    · rw [if_neg (by omega), if_neg he, cellFrom_grid h (idx_inGrid hw hv)]
      have : cellFrom (m.grid per hood) ((m.grid per hood).idx c) (((m.grid per hood).lvl c : Int) + 1)
          = (m.grid per hood).cellAt ((m.grid per hood).lvl c + 1) ((m.grid per hood).idx c) := by
        unfold cellFrom
        rw [if_neg (by omega)]
        congr 1
      rw [this]; rfl
  · have hE : E c = false := by
      cases h' : E c with
      | false => rfl
      | true => exact absurd (ht.valid c h') hv
    have hn := h.nonneg
    rw [getLevel_bad h hv, if_neg (by omega), if_pos (c := ¬ (m.grid per hood).Valid c) hv]
    have : m.getIndices c = fun _ => errorIndex := by
      rw [Mapping.getIndices_eq h, if_neg (fun x => hv (grid_valid.2 x))]
    rw [this, cellFrom_out (per := per) (hood := hood) h (error_out h (d := 0) rfl)]
    simp [tiled_zero ht, hE, errorCell]

theorem existing64_eq (h : m.OK) (p : V3 Nat) (lo hi : Int) :
    existing64 m E p lo hi = existingI (m.grid per hood) E p lo hi := by
  unfold existing64 existingI
  simp only [nIdx_grid (per := per) (hood := hood) h]
  by_cases hp : (m.grid per hood).InGrid p
  · have hp' := forall_fin3.1 hp
    rw [if_neg (by omega), if_neg (by omega), if_neg (by omega), if_neg (not_not_intro hp)]
    by_cases hl : lo > hi
    · rw [if_pos hl, if_pos hl]; rfl
    · rw [if_neg hl, if_neg hl]
      generalize (hi - lo + 1).toNat = k
      induction k generalizing hi with
      | zero => rfl
      | succ k ih =>
        rw [existingLoop64, existingLoopI, cellFrom_grid h hp]
        by_cases hl' : lo > hi - 1
        · by_cases hE : E (cellFrom (m.grid per hood) p hi)
          · rw [if_pos hE, if_pos hE]
          · rw [if_neg hE, if_neg hE]
            have : ∀ (k : Nat) (l : Int), existingLoop64 m E p l k = existingLoopI (m.grid per hood) E p l k := by
              intro k
              induction k with
              | zero => intro _; rfl
              | succ k ih => intro l; rw [existingLoop64, existingLoopI, cellFrom_grid h hp, ih]
            rw [this]
        · rw [ih (hi - 1) hl']
  · rw [if_pos hp]
    unfold Cfg.InGrid at hp
    rw [forall_fin3] at hp
    simp only [errorCell]
    split
    · rfl
    split
    · rfl
    split
    · rfl
    omega

/-! ## Six-directional neighbors -/

theorem idx_lt (h : m.OK) {c : Nat} (hv : (m.grid per hood).Valid c) (d : Fin 3) :
    (m.grid per hood).idx c d < W := by
  have := idx_inGrid (gridWF (per := per) (hood := hood) h) hv d
  have := n_lt (per := per) (hood := hood) h d
  omega

theorem searchIdx64_eq (h : m.OK) {c : Nat} (hv : (m.grid per hood).Valid c) (d : Fin 3) (pos : Bool) :
    match searchIdx (m.grid per hood) c d pos with
    | some p => searchIdx64 m per c d pos = p
    | none => ¬ (m.grid per hood).InGrid (searchIdx64 m per c d pos) := by
  have hw := gridWF (per := per) (hood := hood) h
  have hs := side_pos (g := m.grid per hood) c
  have hn := idx_add_side_le hw hv d
  have hlt := n_lt (per := per) (hood := hood) h d
  unfold searchIdx searchIdx64
  rw [getIndices_grid h hv, cellLength_grid h hv, nIdx_grid (per := per) (hood := hood) h]
  have e0 : (m.grid per hood).periodic d = per d := rfl
  rw [e0]
  have e1 : wsub ((m.grid per hood).n d) 1 = (m.grid per hood).n d - 1 := wsub_eq (by omega) hlt
  simp only [e1]
  cases pos with
  | true =>
    simp only [if_true]
    by_cases hc : (m.grid per hood).n d - 1 < (m.grid per hood).side c ∨
        (m.grid per hood).idx c d > (m.grid per hood).n d - 1 - (m.grid per hood).side c
    · have hc' : (m.grid per hood).n d - 1 < (m.grid per hood).side c ∨
          (m.grid per hood).idx c d > wsub ((m.grid per hood).n d - 1) ((m.grid per hood).side c) := by
        by_cases h1 : (m.grid per hood).n d - 1 < (m.grid per hood).side c
        · exact Or.inl h1
        · rw [wsub_eq (by omega) (by omega)]; exact hc
      rw [if_pos hc, if_pos hc']
      cases per d with
      | true => simp
      | false =>
        simp only [Bool.false_eq_true, if_false]
        exact error_out h (setD_same _ _ _)
    · have h1 : ¬ (m.grid per hood).n d - 1 < (m.grid per hood).side c := fun x => hc (Or.inl x)
      have e2 : wsub ((m.grid per hood).n d - 1) ((m.grid per hood).side c)
        = (m.grid per hood).n d - 1 - (m.grid per hood).side c := wsub_eq (by omega) (by omega)
      rw [if_neg hc, e2, if_neg hc, wadd_eq (by omega)]
  | false =>
    simp only [Bool.false_eq_true, if_false]
    by_cases h0 : (m.grid per hood).idx c d = 0
    · rw [if_pos h0, if_pos h0]
      cases per d with
      | true => simp
      | false =>
        simp only [Bool.false_eq_true, if_false]
        exact error_out h (setD_same _ _ _)
    · rw [if_neg h0, if_neg h0, wsub_eq (by omega) (by omega)]

theorem nbr6x64_eq (h : m.OK) (ht : Tiled (m.grid per hood) E) {c : Nat}
    (hv : (m.grid per hood).Valid c) (d : Fin 3) (pos : Bool) :
    nbr6x64 m per E c d pos = nbr6 (m.grid per hood) E c d pos := by
  have hw := gridWF (per := per) (hood := hood) h
  have hm := gridMax (per := per) (hood := hood) h
  have hl := lvl_le hv
  unfold nbr6x64 nbr6
  rw [existing64_eq (per := per) (hood := hood) h, getLevel_grid h hv]
  have hs := searchIdx64_eq h hv d pos
  have e1 : (if ((m.grid per hood).lvl c : Int) = 0 then (0 : Int) else (m.grid per hood).lvl c - 1)
      = (((m.grid per hood).lvl c - 1 : Nat) : Int) := by split <;> omega
  have e2 : (if ((m.grid per hood).lvl c : Int) = m.maxLvl then m.maxLvl else (m.grid per hood).lvl c + 1)
      = ((if (m.grid per hood).lvl c = (m.grid per hood).maxLvl then (m.grid per hood).maxLvl
          else (m.grid per hood).lvl c + 1 : Nat) : Int) := by
    by_cases he : (m.grid per hood).lvl c = (m.grid per hood).maxLvl
    · rw [if_pos (by omega), if_pos he]; omega
    · rw [if_neg (by omega), if_neg he]; omega
  simp only [e1, e2]
  cases hx : searchIdx (m.grid per hood) c d pos with
  | none =>
    rw [hx] at hs
    simp only at hs ⊢
    unfold existingI
    rw [if_pos hs]
  | some p =>
    rw [hx] at hs
    simp only at hs ⊢
    rw [hs, ← existing_eq_existingI hw ht (by split <;> omega)]

/-! ## Offsets -/

theorem lenInt_eq (h : m.OK) {c : Nat} (hv : (m.grid per hood).Valid c) :
    lenInt m c = .val ((m.grid per hood).side c : Int) := by
  have h1 := side_le_max (m.grid per hood) c
  have h2 := pow_max (per := per) (hood := hood) h
  unfold lenInt
  rw [cellLength_grid h hv, if_neg (by omega)]

theorem parOff_bound {g : Cfg} (hw : g.WF) {c : Nat} (hv : g.Valid c) (d : Fin 3) :
    -(2 ^ g.maxLvl : Nat) < parOff g c d ∧ parOff g c d ≤ 0 := by
  have hp : 0 < 2 ^ g.maxLvl := Nat.pow_pos (by omega)
  unfold parOff
  by_cases he : g.parent c = c
  · rw [if_pos he]; omega
  · rw [if_neg he]
    have hm := mem_parent hw hv (mem_idx c) d
    have hs := side_le_max g (g.parent c)
    omega

theorem parOff64_eq (h : m.OK) {c : Nat} (hv : (m.grid per hood).Valid c) :
    parOff64 m c = .val (parOff (m.grid per hood) c) := by
  have hw := gridWF (per := per) (hood := hood) h
  have hp := parent_valid hw hv
  have hb := parOff_bound hw hv
  have hmx := pow_max (per := per) (hood := hood) h
  have hp0 := hp.1
  unfold parOff64
  rw [getParent_grid h hv]
  by_cases he : (m.grid per hood).parent c = c
  · rw [if_pos (Or.inr he)]; unfold parOff; rw [if_pos he]
  · rw [if_neg (by simp only [errorCell]; omega), getIndices_grid h hv, getIndices_grid h hp]
    apply each3_val
    intro d
    have hd := hb d
    have h1 := idx_lt h hv d
    have h2 := idx_lt h hp d
    unfold parOff at hd ⊢
    rw [if_neg he] at hd ⊢
    generalize (m.grid per hood).idx ((m.grid per hood).parent c) d = x at *
    generalize (m.grid per hood).idx c d = y at *
    by_cases hxy : x ≥ y
    · rw [if_pos hxy, wsub_eq hxy h2, i32_val (by omega) (by omega), val_bind,
        i32_val (by omega) (by omega)]
      congr 1; omega
    · rw [if_neg hxy, wsub_eq (by omega) h1, i32_val (by omega) (by omega), val_bind,
        i32_val (by omega) (by omega)]
      congr 1; omega

theorem adjust64_eq (h : m.OK) {fr to : Nat} (hf : (m.grid per hood).Valid fr)
    (ht : (m.grid per hood).Valid to) (off : V3 Int) (d : Fin 3) (pos : Bool)
    (hb : ∀ e, -2147483648 ≤ adjust (m.grid per hood) off fr to d pos e ∧
      adjust (m.grid per hood) off fr to d pos e ≤ 2147483647) :
    adjust64 m off fr to d pos = .val (adjust (m.grid per hood) off fr to d pos) := by
  have hw := gridWF (per := per) (hood := hood) h
  have hmx := pow_max (per := per) (hood := hood) h
  have hs1 := side_le_max (m.grid per hood) fr
  have hs2 := side_le_max (m.grid per hood) to
  have hp1 := parOff_bound hw hf
  have hp2 := parOff_bound hw ht
  unfold adjust64
  rw [lenInt_eq h hf, val_bind, lenInt_eq h ht, val_bind]
  by_cases h1 : ((m.grid per hood).side fr : Int) = (m.grid per hood).side to
  · rw [if_pos h1]
    apply each3_val
    intro e
    have hbe := hb e
    unfold adjust at hbe ⊢
    simp only [if_pos h1] at hbe ⊢
    by_cases he : e = d
    · subst he
      rw [setD_same] at hbe ⊢
      rw [if_pos rfl, i32_val hbe.1 hbe.2]
    · rw [setD_ne _ _ he, if_neg he]
  · rw [if_neg h1]
    by_cases h2 : ((m.grid per hood).side fr : Int) < (m.grid per hood).side to
    · rw [if_pos h2, parOff64_eq h hf, val_bind]
      apply each3_val
      intro e
      have hbe := hb e
      have hpe := hp1 e
      unfold adjust at hbe ⊢
      simp only [if_neg h1, if_pos h2] at hbe ⊢
      by_cases he : e = d
      · subst he
        rw [setD_same] at hbe ⊢
        rw [if_pos rfl]
        cases pos <;> simp only [Bool.false_eq_true, if_true, if_false] at hbe ⊢ <;>
          rw [i32_val (by omega) (by omega), val_bind, i32_val (by omega) (by omega)] <;>
          congr 1 <;> omega
      · rw [setD_ne _ _ he] at hbe ⊢
        rw [if_neg he, i32_val hbe.1 hbe.2]
    · rw [if_neg h2, parOff64_eq h ht, val_bind]
      apply each3_val
      intro e
      have hbe := hb e
      have hpe := hp2 e
      unfold adjust at hbe ⊢
      simp only [if_neg h1, if_neg h2] at hbe ⊢
      by_cases he : e = d
      · subst he
        rw [setD_same] at hbe ⊢
        rw [if_pos rfl]
        cases pos <;> simp only [Bool.false_eq_true, if_true, if_false] at hbe ⊢ <;>
          rw [i32_val (by omega) (by omega), val_bind, i32_val (by omega) (by omega)] <;>
          congr 1 <;> omega
      · rw [setD_ne _ _ he] at hbe ⊢
        rw [if_neg he, i32_val hbe.1 hbe.2]

/-! ## The search loop -/

/-- The searched block is approached in blocks of the size of the largest cells. -/
def OffBetween (M x t y : Int) : Prop := (x / M ≤ y / M ∧ y / M ≤ t / M) ∨ (t / M ≤ y / M ∧ y / M ≤ x / M)

theorem step_between {g : Cfg} (hw : g.WF) (ht : Tiled g E) {a b : Nat} {la lo x t : V3 Int}
    (ha : E a = true) (hb : E b = true) (hla : g.Lift a la) (hlo : g.Lift b lo) {d : Fin 3} {pos : Bool}
    (hq : InBox la (g.side a) (nbrPt lo (g.side b) d pos))
    (hdir : if pos then lo d + g.side b - 1 < t d else t d < lo d)
    (hbt : ∀ e, OffBetween (2 ^ g.maxLvl) (x e) (t e) (lo e)) (e : Fin 3) :
    OffBetween (2 ^ g.maxLvl) (x e) (t e) (la e) := by
  obtain ⟨hd, hother⟩ := step_geom hw ht ha hb hla hlo hq
  have hs := side_pos (g := g) b
  have hsa := side_pos (g := g) a
  have da := lift_dvd hw (ht.valid _ ha) hla
  have hja : g.side a ∣ 2 ^ g.maxLvl := Nat.pow_dvd_pow 2 (by omega)
  have hbe := hbt e
  unfold OffBetween at hbe ⊢
  by_cases he : e = d
  · subst he
    cases pos with
    | true =>
      simp only [if_true] at hd hdir
      have h1 := int_div_le (pow2_pos g.maxLvl) (show lo e ≤ la e by omega)
      have h2 := int_div_le (pow2_pos g.maxLvl) (show la e ≤ t e by omega)
      omega
    | false =>
      simp only [Bool.false_eq_true, if_false] at hd hdir
      have h0 : la e / 2 ^ g.maxLvl = (lo e - 1) / 2 ^ g.maxLvl :=
        same_block hja (da e) (Int.le_refl _) (by omega) (by omega) (by omega)
      have h1 := int_div_le (pow2_pos g.maxLvl) (show lo e - 1 ≤ lo e by omega)
      have h2 := int_div_le (pow2_pos g.maxLvl) (show t e ≤ lo e - 1 by omega)
      omega
  · have h1 := hother e he
    have : la e / 2 ^ g.maxLvl = lo e / 2 ^ g.maxLvl :=
      same_block hja (da e) (Int.le_refl _) (by omega) h1.1 h1.2
    rw [this]; exact hbe

theorem between_bound {M x P y : Int} (hM : 0 < M) (h : OffBetween M x (x + P) y) :
    (y - x < P + M ∨ y - x < M) ∧ (P - M < y - x ∨ - M < y - x) := by
  have h1 := Int.mul_ediv_self_le (x := x) (k := M) (by omega)
  have h2 := Int.lt_mul_ediv_self_add (x := x) hM
  have h3 := Int.mul_ediv_self_le (x := x + P) (k := M) (by omega)
  have h4 := Int.lt_mul_ediv_self_add (x := x + P) hM
  have h5 := Int.mul_ediv_self_le (x := y) (k := M) (by omega)
  have h6 := Int.lt_mul_ediv_self_add (x := y) hM
  have mono : ∀ a b : Int, a ≤ b → M * a ≤ M * b := fun a b hab =>
    Int.mul_le_mul_of_nonneg_left hab (by omega)
  rcases h with ⟨ha, hb⟩ | ⟨ha, hb⟩
  · have := mono _ _ ha
    have := mono _ _ hb
    omega
  · have := mono _ _ ha
    have := mono _ _ hb
    omega

/-- Neighborhood items up to `h` do not make offsets overflow. -/
def Room (m : Mapping) (h : Nat) : Prop := (h + 2) * 2 ^ m.maxLvl.toNat ≤ 2147483648

theorem item_bound {g : Cfg} {c : Nat} {x : Int} {k : Nat} (h : x.natAbs ≤ k) :
    -((k * 2 ^ g.maxLvl : Nat) : Int) ≤ x * g.side c ∧ x * g.side c ≤ ((k * 2 ^ g.maxLvl : Nat) : Int) := by
  have h1 : (x * g.side c).natAbs ≤ k * 2 ^ g.maxLvl := by
    rw [Int.natAbs_mul, Int.natAbs_natCast]
    exact Nat.mul_le_mul h (side_le_max g c)
  omega

theorem nextDir64_eq (L len : Int) (o off : V3 Int) :
    nextDir64 (fun d => o d * L) (fun d => (o d + 1) * L - 1) off (fun d => off d + len - 1)
      = nextDir L o len off := rfl

/-- Result of the search loop as an outcome of the machine model. -/
def Walk.mach : Walk → Mach (Option (Nat × V3 Int))
  | .hang => .hangs
  | .threw => .throws
  | .outside => .val none
  | .found c off => .val (some (c, off))

theorem walk64_eq (h : m.OK) (ht : Tiled (m.grid per hood) E) (hbal : BalancedFor (m.grid per hood) E faces)
    {k : Nat} (hr : Room m k) {c : Nat} {o : V3 Int} (ho : ∀ d, (o d).natAbs ≤ k)
    (fuel : Nat) {b : Nat} (hb : E b = true) {lo : V3 Int} (hlo : (m.grid per hood).Lift b lo)
    (hbt : ∀ e, OffBetween (2 ^ (m.grid per hood).maxLvl) ((m.grid per hood).idx c e)
      (corner (m.grid per hood) c o e) (lo e)) :
    walk64 m per E (fun d => o d * (m.grid per hood).side c)
        (fun d => (o d + 1) * (m.grid per hood).side c - 1) fuel b
        (fun d => lo d - (m.grid per hood).idx c d)
      = (walk (m.grid per hood) E ((m.grid per hood).side c) o fuel b
          (fun d => lo d - (m.grid per hood).idx c d)).mach := by
  have hw := gridWF (per := per) (hood := hood) h
  have bound : ∀ {y : V3 Int}, (∀ e, OffBetween (2 ^ (m.grid per hood).maxLvl) ((m.grid per hood).idx c e)
      (corner (m.grid per hood) c o e) (y e)) → ∀ e,
      -((k * 2 ^ (m.grid per hood).maxLvl + 2 ^ (m.grid per hood).maxLvl : Nat) : Int)
        < y e - (m.grid per hood).idx c e ∧
      y e - (m.grid per hood).idx c e
        < ((k * 2 ^ (m.grid per hood).maxLvl + 2 ^ (m.grid per hood).maxLvl : Nat) : Int) := by
    intro y hy e
    have h1 := between_bound (pow2_pos _) (hy e)
    have h2 := item_bound (g := m.grid per hood) (c := c) (ho e)
    have e2 : ((2 ^ (m.grid per hood).maxLvl : Nat) : Int) = 2 ^ (m.grid per hood).maxLvl := by simp
    rw [← e2] at h1
    omega
  have hroom : k * 2 ^ (m.grid per hood).maxLvl + 2 * 2 ^ (m.grid per hood).maxLvl ≤ 2147483648 := by
    rw [← Nat.add_mul]; exact hr
  induction fuel generalizing b lo with
  | zero =>
    have hv := ht.valid _ hb
    have hs := side_pos (g := m.grid per hood) b
    have hs2 := side_le_max (m.grid per hood) b
    have hbd := bound hbt
    unfold walk64 walk
    rw [lenInt_eq h hv, val_bind, each3_val (v := fun d => lo d - (m.grid per hood).idx c d
      + (m.grid per hood).side b - 1) (fun d => by
        have := hbd d
        try simp only []
        rw [i32_val (by omega) (by omega), val_bind, i32_val (by omega) (by omega)]), val_bind]
    rw [nextDir64_eq]
    cases nextDir ((m.grid per hood).side c) o ((m.grid per hood).side b)
      (fun d => lo d - (m.grid per hood).idx c d) with
    | none => rfl
    | some x => rfl
  | succ fuel ih =>
    have hv := ht.valid _ hb
    have hs := side_pos (g := m.grid per hood) b
    have hs2 := side_le_max (m.grid per hood) b
    have hbd := bound hbt
    unfold walk64 walk
    rw [lenInt_eq h hv, val_bind, each3_val (v := fun d => lo d - (m.grid per hood).idx c d
      + (m.grid per hood).side b - 1) (fun d => by
        have := hbd d
        try simp only []
        rw [i32_val (by omega) (by omega), val_bind, i32_val (by omega) (by omega)]), val_bind]
    rw [nextDir64_eq]
    cases hn : nextDir ((m.grid per hood).side c) o ((m.grid per hood).side b)
      (fun d => lo d - (m.grid per hood).idx c d) with
    | none => rfl
    | some dp =>
      obtain ⟨d, pos⟩ := dp
      have h1 := nextDir_some hn
      have hsc := side_pos (g := m.grid per hood) c
      simp only
      rw [getChild64_eq h ht]
      have hgc := (ht.getChild_eq_iff hw (valid_ne_zero hv)).2 hb
      rw [if_neg (not_not_intro hgc), if_neg (not_not_intro hgc), nbr6x64_eq h ht hv]
      by_cases hq : (m.grid per hood).InCover (nbrPt lo ((m.grid per hood).side b) d pos)
      · obtain ⟨a, la, ha, hla, hbox⟩ := ht.leaf_lift hw hq
        have hm := mem_of_box hw (ht.valid _ ha) hla hbox
        have hva := ht.valid _ ha
        rw [nbr6_eq hw ht hbal hb hlo d pos ha hq hm]
        have h0 : ¬ a = errorCell := valid_ne_zero hva
        rw [if_neg h0, if_neg (valid_ne_zero hva)]
        have h2 := hbal b a hb ha _ (unitItem_mem d pos)
          (meets_of_lift hw hlo (nbrPt_block (side_pos b) d pos) hq hm)
        have hadj := adjust_eq hw ht (base := fun e => ((m.grid per hood).idx c e : Int)) ha hb hla hlo
          hbox (by omega)
        have hbt' := step_between hw ht (t := corner (m.grid per hood) c o) ha hb hla hlo hbox (by
          simp only [corner]
          rw [Int.add_mul, Int.one_mul] at h1
          cases pos <;> simp at h1 ⊢ <;> omega) hbt
        have hbd' := bound hbt'
        rw [adjust64_eq h hv hva _ d pos (fun e => by
          rw [hadj]
          have := hbd' e
          simp only
          omega), val_bind, hadj]
        exact ih ha hla hbt'
      · rw [nbr6_none hw hv hlo d pos hq]
        rfl

theorem between_self (M x t : Int) (hM : 0 < M) : OffBetween M x t x := by
  unfold OffBetween
  rcases Int.le_total x t with h | h
  · exact Or.inl ⟨Int.le_refl _, int_div_le hM h⟩
  · exact Or.inr ⟨int_div_le hM h, Int.le_refl _⟩

/-! ## find_neighbors_of -/

/-- Outcome of a function over unbounded integers as an outcome of the machine model. -/
def Out.mach {α : Type} : Out α → Mach α
  | .ok a => .val a
  | .throws => .throws
  | .hangs => .hangs
  | .undef => .undef

theorem siblings_grid (h : m.OK) {c : Nat} (hv : (m.grid per hood).Valid c) :
    m.siblings c = (m.grid per hood).siblings c := by
  rw [Mapping.siblings_eq h, if_pos (grid_valid.1 hv)]
  unfold Cfg.siblings
  rw [grid_lvl, grid_parent, grid_children]

theorem place64_eq {base : V3 Int} {len : Int} (hb : ∀ d, -2147483648 ≤ base d ∧ base d + len ≤ 2147483647)
    (hl : 0 ≤ len) (ks : List Nat) (ws : List (V3 Nat)) (hws : ∀ w ∈ ws, ∀ d, w d ≤ 1) :
    place64 base len ks ws =
      .val (List.zipWith (fun k (w : V3 Nat) => (k, fun d => base d + w d * len)) ks ws) := by
  induction ks generalizing ws with
  | nil => rfl
  | cons k ks ih =>
    cases ws with
    | nil => rfl
    | cons w ws =>
      rw [place64, each3_val (v := fun d => base d + w d * len) (fun d => by
        have h1 := hws w (by simp) d
        have h2 := hb d
        have h3 : w d = 0 ∨ w d = 1 := by omega
        try simp only []
        rcases h3 with h3 | h3
        · rw [if_pos h3, i32_val (by omega) (by omega), h3]; simp
        · rw [if_neg (by omega), i32_val (by omega) (by omega), h3]; simp), val_bind,
        ih ws (fun w' hw' => hws w' (by simp [hw'])), val_bind]
      rfl

theorem collect64_eq (h : m.OK) {c cur : Nat} (hv : (m.grid per hood).Valid cur) {off : V3 Int}
    (hb : ∀ d, -2147483648 ≤ off d - (m.grid per hood).side cur ∧
      off d + (m.grid per hood).side cur ≤ 2147483647) :
    collect64 m ((m.grid per hood).side c) cur off =
      match collect (m.grid per hood) c cur off with
      | none => .throws
      | some l => .val l := by
  have hs := side_pos (g := m.grid per hood) cur
  unfold collect64 collect
  rw [lenInt_eq h hv, val_bind, siblings_grid h hv]
  by_cases hc : (m.grid per hood).side cur ≥ (m.grid per hood).side c
  · rw [if_pos (by omega)]
    simp only [if_pos hc]
    rfl
  · rw [if_neg (by omega)]
    simp only [if_neg hc]
    cases ((m.grid per hood).siblings cur).findIdx? (· == cur) with
    | none => rfl
    | some i =>
      have h0 := hb 0
      have h1 := hb 1
      have h2 := hb 2
      have ab : ∀ (p : Prop) [Decidable p] (x : Int), -2147483648 ≤ x - (m.grid per hood).side cur →
          x + (m.grid per hood).side cur ≤ 2147483647 → back64 (decide p) x ((m.grid per hood).side cur)
          = .val (if p then x - (m.grid per hood).side cur else x) := by
        intro p _ x h1 h2
        unfold back64
        by_cases hp : p
        · rw [if_pos (by simpa using hp), if_pos hp, i32_val h1 (by omega)]
        · rw [if_neg (by simpa using hp), if_neg hp]
      simp only []
      rw [ab _ _ h0.1 h0.2, val_bind, ab _ _ h1.1 h1.2, val_bind, ab _ _ h2.1 h2.2, val_bind]
      apply place64_eq _ (by omega) _ _ (fun w hw d => octants_le hw d)
      rw [forall_fin3]
      simp only [v3_0, v3_1, v3_2]
      refine ⟨?_, ?_, ?_⟩ <;> split <;> omega

theorem findItems64_eq (h : m.OK) (ht : Tiled (m.grid per hood) E)
    (hbal : BalancedFor (m.grid per hood) E faces) {k : Nat} (hr : Room m k) {c : Nat} (hc : E c = true)
    (H : List (V3 Int)) (hH : ∀ o ∈ H, ∀ d, (o d).natAbs ≤ k) :
    findItems64 m per E c ((m.grid per hood).side c) H = (findItems (m.grid per hood) E c H).mach := by
  have hw := gridWF (per := per) (hood := hood) h
  have hs := side_pos (g := m.grid per hood) c
  have hs2 := side_le_max (m.grid per hood) c
  have hM : 0 < 2 ^ (m.grid per hood).maxLvl := Nat.pow_pos (by omega)
  have hroom : k * 2 ^ (m.grid per hood).maxLvl + 2 * 2 ^ (m.grid per hood).maxLvl ≤ 2147483648 := by
    rw [← Nat.add_mul]; exact hr
  have hk : k + 2 ≤ 2147483648 := by
    have : (k + 2) * 1 ≤ (k + 2) * 2 ^ m.maxLvl.toNat := Nat.mul_le_mul_left _ hM
    unfold Room at hr
    omega
  induction H with
  | nil => rfl
  | cons o H ih =>
    have ho := hH o (by simp)
    have hi : ∀ d, -((k * 2 ^ (m.grid per hood).maxLvl : Nat) : Int) ≤ o d * (m.grid per hood).side c ∧
        o d * (m.grid per hood).side c ≤ ((k * 2 ^ (m.grid per hood).maxLvl : Nat) : Int) :=
      fun d => item_bound (ho d)
    have key := walk64_eq h ht hbal hr ho (walkFuel (m.grid per hood) o) hc
      (lift_self (g := m.grid per hood) c) (fun e => between_self _ _ _ (pow2_pos _))
    have spec := walk_spec (o := o) (c := c) hw ht hbal (walkFuel (m.grid per hood) o) hc
      (lift_self (g := m.grid per hood) c) (fuel_enough (c := c) o)
    have e0 : (fun d => ((m.grid per hood).idx c d : Int) - (m.grid per hood).idx c d) = fun _ => 0 := by
      funext d; omega
    rw [e0] at key spec
    rw [findItems64, findItems]
    rw [each3_val (v := fun d => o d * (m.grid per hood).side c) (fun d => by
        have := hi d
        exact i32_val (by omega) (by omega)), val_bind,
      each3_val (v := fun d => (o d + 1) * (m.grid per hood).side c - 1) (fun d => by
        have h1 := hi d
        have h2 := ho d
        have e : (o d + 1) * ((m.grid per hood).side c : Int)
          = o d * (m.grid per hood).side c + (m.grid per hood).side c := by rw [Int.add_mul, Int.one_mul]
        try simp only []
        rw [i32_val (by omega) (by omega), val_bind, e, i32_val (by omega) (by omega), val_bind,
          i32_val (by omega) (by omega)]), val_bind]
    have ef : walkFuel (m.grid per 0) o = walkFuel (m.grid per hood) o := rfl
    rw [ef, key]
    cases hwk : walk (m.grid per hood) E ((m.grid per hood).side c) o (walkFuel (m.grid per hood) o) c
        (fun _ => 0) with
    | hang => rfl
    | threw => rfl
    | outside =>
      simp only [Walk.mach, val_bind]
      exact ih (fun o' ho' => hH o' (by simp [ho']))
    | found b off =>
      rw [hwk] at spec
      obtain ⟨hEb, -, hbox⟩ := spec
      have hsb := side_le_max (m.grid per hood) b
      simp only [Walk.mach, val_bind]
      rw [collect64_eq h (ht.valid _ hEb) (fun d => by
        have h1 := hi d
        have h2 := hbox d
        simp only [corner] at h2
        omega), ih (fun o' ho' => hH o' (by simp [ho']))]
      cases collect (m.grid per hood) c b off with
      | none => rfl
      | some l =>
        simp only [val_bind]
        cases findItems (m.grid per hood) E c H <;> rfl

theorem findNeighborsOf64_eq (h : m.OK) (ht : Tiled (m.grid per hood) E)
    (hbal : BalancedFor (m.grid per hood) E faces) {k : Nat} (hr : Room m k) (c : Nat)
    (H : List (V3 Int)) (hH : ∀ o ∈ H, ∀ d, (o d).natAbs ≤ k) :
    findNeighborsOf64 m per E c H = (findNeighborsOf (m.grid per hood) E c H).mach := by
  unfold findNeighborsOf64 findNeighborsOf
  by_cases hc : c = 0 ∨ E c = false
  · rw [if_pos hc, if_pos (show c = errorCell ∨ _ from hc)]; rfl
  · have hE : E c = true := by
      cases hx : E c with
      | true => rfl
      | false => exact absurd (Or.inr hx) hc
    have hv := ht.valid _ hE
    rw [if_neg hc, if_neg (show ¬ (c = errorCell ∨ _) from hc), lenInt_eq h hv, val_bind, getChild64_eq h ht]
    by_cases hg : getChild (m.grid per hood) E c ≠ c
    · rw [if_pos hg, if_pos hg]; rfl
    · rw [if_neg hg, if_neg hg]
      exact findItems64_eq h ht hbal hr hE H hH

/-! ## find_neighbors_to -/

theorem u64_pos {x : Int} (h1 : 0 ≤ x) (h2 : x < W) : u64 x = x.natAbs := by
  unfold u64
  rw [Int.emod_eq_of_lt h1 h2]; omega

theorem wadd_neg {i len k : Nat} {off : Int} (ho : off < 0) (hk : off.natAbs = k) (hi : i < W)
    (hle : k * len ≤ i) : wadd i (wmul (u64 off) len) = i - k * len := by
  have hcast : ((wadd i (wmul (u64 off) len) : Nat) : Int) = ((i - k * len : Nat) : Int) := by
    have hu : ((u64 off : Nat) : Int) = off % (W : Int) := by
      unfold u64
      have : (0 : Int) ≤ off % (W : Int) := Int.emod_nonneg _ (by decide)
      omega
    unfold wadd wmul
    have e3 : (off % (W : Int) * len) % W = (off * len) % W := by
      rw [Int.mul_emod, Int.emod_emod_of_dvd _ (Int.dvd_refl _), ← Int.mul_emod]
    rw [Int.natCast_emod, Int.natCast_add, Int.natCast_emod, Int.natCast_mul, hu, e3,
      Int.add_emod, Int.emod_emod_of_dvd _ (Int.dvd_refl _), ← Int.add_emod]
    have e : (i : Int) + off * len = ((i - k * len : Nat) : Int) := by
      have e1 : off = -(k : Int) := by omega
      have e2 : ((k * len : Nat) : Int) = (k : Int) * len := Int.natCast_mul _ _
      rw [e1, Int.neg_mul, ← e2]
      omega
    rw [e]
    exact Int.emod_eq_of_lt (by omega) (by omega)
  exact Int.ofNat.inj hcast

theorem shiftIdx64_eq {n len i : Nat} {per : Bool} {off : Int} {k : Nat} (hk : off.natAbs ≤ k)
    (hn : n + k * len < W) (h0 : 0 < len) (hl : len ≤ n) (hi : i < n) :
    shiftIdx64 n len i per off = shiftIdx n len i per off := by
  have hkl : off.natAbs * len ≤ k * len := Nat.mul_le_mul_right _ hk
  unfold shiftIdx64 shiftIdx
  by_cases ho : off < 0
  · rw [if_pos ho, if_pos ho]
    cases per with
    | true =>
      simp only [if_true]
      have : ∀ j, Nat.repeat (fun t => if t ≥ len then wsub t len else wsub n len) j i
          = Nat.repeat (fun t => if t ≥ len then t - len else n - len) j i ∧
          Nat.repeat (fun t => if t ≥ len then t - len else n - len) j i ≤ n := by
        intro j
        induction j with
        | zero => exact ⟨rfl, by show i ≤ n; omega⟩
        | succ j ih =>
          obtain ⟨h1, h2⟩ := ih
          rw [Nat.repeat, Nat.repeat, h1]
          generalize Nat.repeat (fun t => if t ≥ len then t - len else n - len) j i = t at *
          try simp only []
          split
          · rw [wsub_eq (by omega) (by omega)]; exact ⟨rfl, by omega⟩
          · rw [wsub_eq (by omega) (by omega)]; exact ⟨rfl, by omega⟩
      rw [(this _).1]
    | false =>
      simp only [Bool.false_eq_true, if_false]
      rw [wmul_eq (show off.natAbs * len < W by omega)]
      by_cases hlt : i < off.natAbs * len
      · rw [if_pos hlt, if_pos hlt]
      · rw [if_neg hlt, if_neg hlt, wadd_neg ho rfl (by omega) (by omega)]
  · rw [if_neg ho, if_neg ho]
    cases per with
    | true =>
      simp only [if_true]
      have hwn : wsub n len = n - len := wsub_eq hl (by omega)
      have : ∀ j, Nat.repeat (fun t => if t < wsub n len then wadd t len else 0) j i
          = Nat.repeat (fun t => if t < n - len then t + len else 0) j i := by
        intro j
        induction j with
        | zero => rfl
        | succ j ih =>
          rw [Nat.repeat, Nat.repeat, ih, hwn]
          generalize Nat.repeat (fun t => if t < n - len then t + len else 0) j i = t at *
          try simp only []
          split
          · rw [wadd_eq (by omega)]
          · rfl
      rw [this]
    | false =>
      simp only [Bool.false_eq_true, if_false]
      have hk1 : k * 1 ≤ k * len := Nat.mul_le_mul_left _ (by omega)
      rw [u64_pos (by omega) (by omega), wmul_eq (by omega), wadd_eq (by omega)]

/-- Indices at neighborhood items up to `k` do not overflow. -/
def RoomTo (m : Mapping) (k : Nat) : Prop := ∀ d, m.len d * 2 ^ m.maxLvl.toNat + k * 2 ^ m.maxLvl.toNat < W

theorem shift64_eq (h : m.OK) {k : Nat} (hr : RoomTo m k) {c : Nat} (hv : (m.grid per hood).Valid c)
    {o : V3 Int} (ho : ∀ d, (o d).natAbs ≤ k) :
    shift64 m per ((m.grid per hood).idx c) ((m.grid per hood).side c) o =
      (shift (m.grid per hood) ((m.grid per hood).idx c) ((m.grid per hood).side c) o).getD
        (fun _ => errorIndex) := by
  have hw := gridWF (per := per) (hood := hood) h
  have hs := side_pos (g := m.grid per hood) c
  have hs2 := side_le_max (m.grid per hood) c
  have key : ∀ d, shiftIdx64 (m.nIdx d) ((m.grid per hood).side c) ((m.grid per hood).idx c d) (per d) (o d)
      = shiftIdx ((m.grid per hood).n d) ((m.grid per hood).side c) ((m.grid per hood).idx c d)
        ((m.grid per hood).periodic d) (o d) := by
    intro d
    rw [nIdx_grid (per := per) (hood := hood) h]
    have h1 := idx_add_side_le hw hv d
    have h2 : k * (m.grid per hood).side c ≤ k * 2 ^ (m.grid per hood).maxLvl := Nat.mul_le_mul_left _ hs2
    have h3 : (m.grid per hood).n d + k * 2 ^ (m.grid per hood).maxLvl < W := hr d
    exact shiftIdx64_eq (ho d) (by omega) hs (by omega) (by omega)
  unfold shift64 shift
  rw [key, key, key]
  split <;> simp_all

theorem foundAt64_eq (h : m.OK) (ht : Tiled (m.grid per hood) E) {k : Nat} (hr : RoomTo m k) {c : Nat}
    (hv : (m.grid per hood).Valid c) {H : List (V3 Int)} (hH : ∀ o ∈ H, ∀ d, (o d).natAbs ≤ k) :
    foundAt64 m per E ((m.grid per hood).idx c) ((m.grid per hood).side c) ((m.grid per hood).lvl c) H =
      foundAt (m.grid per hood) E ((m.grid per hood).idx c) ((m.grid per hood).side c)
        ((m.grid per hood).lvl c) H := by
  have hw := gridWF (per := per) (hood := hood) h
  have hl := lvl_le hv
  have hsn : ∀ d, (m.grid per hood).side c ∣ (m.grid per hood).n d :=
    fun d => Int.natCast_dvd_natCast.1 (side_dvd_n hv d)
  unfold foundAt64 foundAt
  have e1 : (H.filterMap fun o =>
      if shift64 m per ((m.grid per hood).idx c) ((m.grid per hood).side c) o 0 = errorIndex then none
      else some (m.cellFromIndices (shift64 m per ((m.grid per hood).idx c) ((m.grid per hood).side c) o)
        ((m.grid per hood).lvl c))) =
      H.filterMap fun o => (shift (m.grid per hood) ((m.grid per hood).idx c) ((m.grid per hood).side c) o).map
        ((m.grid per hood).cellAt ((m.grid per hood).lvl c)) := by
    have aux : ∀ (l : List (V3 Int)) (f f' : V3 Int → Option Nat), (∀ o ∈ l, f o = f' o) →
        l.filterMap f = l.filterMap f' := by
      intro l f f' hff
      induction l with
      | nil => rfl
      | cons a l ih =>
        rw [List.filterMap_cons, List.filterMap_cons, hff a (by simp), ih (fun o ho => hff o (by simp [ho]))]
    apply aux
    intro o ho
    rw [shift64_eq h hr hv (hH o ho), shift_eq hw (idx_inGrid hw hv) (side_pos c) hsn
      (fun d => side_dvd_idx hw hv d)]
    by_cases hc : (m.grid per hood).InCover
        (fun d => (m.grid per hood).idx c d + o d * (m.grid per hood).side c)
    · rw [if_pos hc]
      have hg := wrap_inGrid hw (fun d => ((m.grid per hood).idx c d : Int) + o d * (m.grid per hood).side c)
      simp only [Option.getD_some, Option.map_some]
      rw [if_neg (fun hx => error_out h hx hg), cellFrom_grid h hg]
      unfold cellFrom
      rw [if_neg (by omega)]
      rfl
    · rw [if_neg hc]
      simp
  rw [e1]
  congr 1
  funext f
  rw [getChild64_eq h ht]

theorem findNeighborsTo64_eq (h : m.OK) (ht : Tiled (m.grid per hood) E) {k : Nat} (hr : RoomTo m k)
    (c : Nat) (H : List (V3 Int)) (hH : ∀ o ∈ H, ∀ d, (o d).natAbs ≤ k) :
    findNeighborsTo64 m per E c H = (findNeighborsTo (m.grid per hood) E c H).mach := by
  have hw := gridWF (per := per) (hood := hood) h
  have hm := gridMax (per := per) (hood := hood) h
  unfold findNeighborsTo64 findNeighborsTo
  rw [getChild64_eq h ht, h.last, ← grid_last (per := per) (hood := hood)]
  by_cases hc : c = 0 ∨ c > (m.grid per hood).last ∨ getChild (m.grid per hood) E c ≠ c
  · rw [if_pos hc, if_pos (show c = errorCell ∨ _ from hc)]; rfl
  · rw [if_neg hc, if_neg (show ¬ (c = errorCell ∨ _) from hc)]
    have hv : (m.grid per hood).Valid c := ⟨by omega, by omega⟩
    have hl := lvl_le hv
    simp only [Out.mach]
    congr 2
    rw [getLevel_grid h hv]
    have e1 : (if ((m.grid per hood).lvl c : Int) > 0 then
          foundAt64 m per E (m.getIndices (m.getParent c)) (m.cellLength (m.getParent c))
            ((m.grid per hood).lvl c - 1) H else [])
        = if (m.grid per hood).lvl c > 0 then foundAt (m.grid per hood) E
            ((m.grid per hood).idx ((m.grid per hood).parent c))
            ((m.grid per hood).side ((m.grid per hood).parent c)) ((m.grid per hood).lvl c - 1) H else [] := by
      by_cases h0 : (m.grid per hood).lvl c > 0
      · have hp := parent_valid hw hv
        have hlp := lvl_parent hw hv
        have e := foundAt64_eq h ht hr hp hH
        rw [if_pos (by omega), if_pos h0, getParent_grid h hv, getIndices_grid h hp, cellLength_grid h hp,
          ← hlp, ← e]
        congr 1
        omega
      · rw [if_neg (by omega), if_neg h0]
    have e2 : (if ((m.grid per hood).lvl c : Int) < m.maxLvl then
          (m.allChildren c).flatMap fun k => foundAt64 m per E (m.getIndices k)
            (m.cellLength ((m.allChildren c).headD 0)) ((m.grid per hood).lvl c + 1) H else [])
        = if (m.grid per hood).lvl c < (m.grid per hood).maxLvl then
          ((m.grid per hood).children c).flatMap fun k => foundAt (m.grid per hood) E
            ((m.grid per hood).idx k) ((m.grid per hood).side k) ((m.grid per hood).lvl c + 1) H else [] := by
      by_cases h0 : (m.grid per hood).lvl c < (m.grid per hood).maxLvl
      · have hch : m.allChildren c = (m.grid per hood).children c := by
          rw [Mapping.allChildren_eq h (grid_valid.1 hv), if_pos (by rw [← grid_lvl (per := per) (hood := hood)]; exact h0),
            grid_children]
        rw [if_pos (by omega), if_pos h0, hch]
        have hkids : ∀ k ∈ (m.grid per hood).children c, (m.grid per hood).Valid k ∧
            (m.grid per hood).lvl k = (m.grid per hood).lvl c + 1 := fun k hk => by
          have := (children_spec hw hv h0).1 hk
          exact ⟨this.1, this.2.1⟩
        have hhead : ((m.grid per hood).children c).headD 0 ∈ (m.grid per hood).children c := by
          simp [Cfg.children, octants]
        have aux : ∀ (l : List Nat) (f f' : Nat → List Nat), (∀ o ∈ l, f o = f' o) →
            l.flatMap f = l.flatMap f' := by
          intro l f f' hff
          induction l with
          | nil => rfl
          | cons a l ih =>
            rw [List.flatMap_cons, List.flatMap_cons, hff a (by simp), ih (fun o ho => hff o (by simp [ho]))]
        apply aux
        intro x hx
        obtain ⟨hvx, hlx⟩ := hkids x hx
        obtain ⟨hvh, hlh⟩ := hkids _ hhead
        have hside : (m.grid per hood).side (((m.grid per hood).children c).headD 0) = (m.grid per hood).side x := by
          unfold Cfg.side; rw [hlh, hlx]
        rw [getIndices_grid h hvx, cellLength_grid h hvh, hside, ← hlx]
        have e := foundAt64_eq h ht hr hvx hH
        rw [← e]
        congr 1
        omega
      · rw [if_neg (by omega), if_neg h0]
    have e3 : foundAt64 m per E (m.getIndices c) (m.cellLength c) ((m.grid per hood).lvl c) H
        = foundAt (m.grid per hood) E ((m.grid per hood).idx c) ((m.grid per hood).side c)
          ((m.grid per hood).lvl c) H := by
      rw [getIndices_grid h hv, cellLength_grid h hv]
      exact foundAt64_eq h ht hr hv hH
    rw [e1, e2, e3]

/-! ## is_neighbor -/

theorem distance64_eq {n i1 l1 i2 l2 : Nat} {per : Bool} (hn : n < W) (h1 : i1 + l1 ≤ n)
    (h2 : i2 + l2 ≤ n) : distance64 n i1 l1 i2 l2 per = distance1 n i1 l1 i2 l2 per := by
  unfold distance64 distance1
  rw [wadd_eq (show i1 + l1 < W by omega), wadd_eq (show i2 + l2 < W by omega),
    wsub_eq h2 hn, wsub_eq h1 hn]
  by_cases hi : i1 ≤ i2
  · rw [if_pos hi, if_pos hi, wadd_eq (show i1 + (n - (i2 + l2)) < W by omega)]
    by_cases hj : i2 ≤ i1 + l1
    · simp only [if_pos hj]
    · simp only [if_neg hj]; rw [wsub_eq (by omega) (by omega)]
  · rw [if_neg hi, if_neg hi, wadd_eq (show i2 + (n - (i1 + l1)) < W by omega)]
    by_cases hj : i1 ≤ i2 + l2
    · simp only [if_pos hj]
    · simp only [if_neg hj]; rw [wsub_eq (by omega) (by omega)]

theorem isNeighbor64_eq (h : m.OK) (hh : hood < 2 ^ 32) {a b : Nat} (ha : (m.grid per hood).Valid a)
    (hb : (m.grid per hood).Valid b) :
    isNeighbor64 m per hood a b = isNeighbor (m.grid per hood) a b := by
  have hw := gridWF (per := per) (hood := hood) h
  have hs := side_le_max (m.grid per hood) a
  have hmx := pow_max (per := per) (hood := hood) h
  have hd : ∀ d, distance64 (m.nIdx d) (m.getIndices a d) (m.cellLength a) (m.getIndices b d) (m.cellLength b)
      (per d) = distance1 ((m.grid per hood).n d) ((m.grid per hood).idx a d) ((m.grid per hood).side a)
        ((m.grid per hood).idx b d) ((m.grid per hood).side b) ((m.grid per hood).periodic d) := by
    intro d
    rw [nIdx_grid (per := per) (hood := hood) h, getIndices_grid h ha, getIndices_grid h hb,
      cellLength_grid h ha, cellLength_grid h hb]
    exact distance64_eq (n_lt h d) (idx_add_side_le hw ha d) (idx_add_side_le hw hb d)
  have ho : overlapping64 m a b = overlapping (m.grid per hood) a b := by
    unfold overlapping64 overlapping
    rw [getIndices_grid h ha, getIndices_grid h hb, cellLength_grid h ha, cellLength_grid h hb]
    have e1 : ∀ d, wadd ((m.grid per hood).idx a d) ((m.grid per hood).side a)
        = (m.grid per hood).idx a d + (m.grid per hood).side a := fun d => by
      have := idx_add_side_le hw ha d
      have := n_lt (per := per) (hood := hood) h d
      exact wadd_eq (by omega)
    have e2 : ∀ d, wadd ((m.grid per hood).idx b d) ((m.grid per hood).side b)
        = (m.grid per hood).idx b d + (m.grid per hood).side b := fun d => by
      have := idx_add_side_le hw hb d
      have := n_lt (per := per) (hood := hood) h d
      exact wadd_eq (by omega)
    simp only [e1, e2]
  have hmul : wmul hood (m.cellLength a) = hood * (m.grid per hood).side a := by
    rw [cellLength_grid h ha]
    apply wmul_eq
    have : hood * (m.grid per hood).side a ≤ 2 ^ 32 * 2097152 := Nat.mul_le_mul (by omega) (by omega)
    have : W = 18446744073709551616 := rfl
    omega
  unfold isNeighbor64 isNeighbor
  simp only [hd, ho, hmul]
  rw [cellLength_grid h ha]
  rfl

end
end Dccrg
