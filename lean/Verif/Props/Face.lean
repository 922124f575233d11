import Verif.Props.Halo
import Verif.Props.Grid
/-!
# C39: neighbors of a cell which share a face with it
-/
namespace Dccrg
open Cfg
variable {g : Cfg} {E : Nat → Bool}

/-- Points of the cover just outside of a face of cell `c`. -/
def FacePt (g : Cfg) (c : Nat) (d : Fin 3) (pos : Bool) (q : V3 Int) : Prop :=
  (∀ e, e ≠ d → (g.idx c e : Int) ≤ q e ∧ q e < g.idx c e + g.side c) ∧
  q d = if pos then (g.idx c d : Int) + g.side c else (g.idx c d : Int) - 1

/-- Cell `b` is on the other side of a face of cell `c`. -/
def FaceCell (g : Cfg) (c : Nat) (d : Fin 3) (pos : Bool) (b : Nat) : Prop :=
  ∃ q, FacePt g c d pos q ∧ g.InCover q ∧ g.Mem (g.wrap q) b

theorem FacePt.block {c : Nat} {d : Fin 3} {pos : Bool} {q : V3 Int} (h : FacePt g c d pos q) :
    Block g c (unitItem d pos) q := by
  intro e
  have hs := side_pos (g := g) c
  by_cases he : e = d
  · subst he
    rw [h.2]
    cases pos <;> simp [unitItem] <;> omega
  · have := h.1 e he
    simp only [unitItem, setD_ne _ _ he, Int.zero_mul]
    omega

theorem FaceCell.meets {c : Nat} {d : Fin 3} {pos : Bool} {b : Nat} (h : FaceCell g c d pos b) :
    Meets g c (unitItem d pos) b := by
  obtain ⟨q, h1, h2, h3⟩ := h
  exact ⟨q, h1.block, h2, h3⟩

theorem facePt_nbrPt {c : Nat} (d : Fin 3) (pos : Bool) :
    FacePt g c d pos (nbrPt (fun e => (g.idx c e : Int)) (g.side c) d pos) := by
  refine ⟨fun e he => ?_, ?_⟩
  · have hs := side_pos (g := g) c
    rw [nbrPt, setD_ne _ _ he]
    omega
  · rw [nbrPt, setD_same]

section
variable {c : Nat} {d : Fin 3} {pos : Bool}

/-- Whether points outside of a face are in the grid does not depend on the point. -/
theorem FacePt.inCover (hw : g.WF) (hv : g.Valid c) {q : V3 Int} (h : FacePt g c d pos q) :
    g.InCover q ↔ g.InCover (nbrPt (fun e => (g.idx c e : Int)) (g.side c) d pos) := by
  have h2 := facePt_nbrPt (g := g) (c := c) d pos
  have key : ∀ p p', FacePt g c d pos p → FacePt g c d pos p' → g.InCover p → g.InCover p' := by
    intro p p' h1 h2 h0 e
    by_cases he : e = d
    · subst he
      have := h0 e
      rwa [h1.2, ← h2.2] at this
    · right
      have := h2.1 e he
      have := idx_add_side_le hw hv e
      omega
  exact ⟨key _ _ h h2, key _ _ h2 h⟩

/-- A cell at least as large as `c` at one point outside of a face is at every point. -/
theorem face_coarse (hw : g.WF) (hv : g.Valid c) {a : Nat} (ha : g.Valid a) {la q q' : V3 Int} (hl : g.Lift a la)
    (hq : InBox la (g.side a) q) (h : FacePt g c d pos q) (h' : FacePt g c d pos q') (hlev : g.lvl a ≤ g.lvl c) :
    InBox la (g.side a) q' := by
  intro e
  by_cases he : e = d
  · subst he
    rw [h'.2, ← h.2]; exact hq e
  · have h1 := h.1 e he
    have h2 := h'.1 e he
    have h3 := hq e
    have hs := side_pos (g := g) c
    have hs' := side_pos (g := g) a
    have := box_nested (x := (g.idx c e : Int)) (y := la e) (side_dvd_of_le (side_mono hlev))
      (Int.natCast_dvd_natCast.2 (side_dvd_idx hw hv e)) (lift_dvd hw ha hl e) (by omega) (by omega)
      (by omega) (by omega)
    omega

/-- Lower corners of small cells at a face. -/
def faceCorner (g : Cfg) (c : Nat) (d : Fin 3) (pos : Bool) (h : Nat) (u v : Int) : V3 Int := fun e =>
  if e = d then (if pos then (g.idx c d : Int) + g.side c else (g.idx c d : Int) - h)
  else if e = other1 d then (g.idx c e : Int) + u * h else (g.idx c e : Int) + v * h

theorem other_ne (d : Fin 3) : other1 d ≠ d ∧ other2 d ≠ d ∧ other2 d ≠ other1 d ∧
    ∀ e, e ≠ d → e ≠ other1 d → e = other2 d := by
  revert d; decide

theorem faceCorner_d (h : Nat) (u v : Int) :
    faceCorner g c d pos h u v d = if pos then (g.idx c d : Int) + g.side c else (g.idx c d : Int) - h := if_pos rfl

theorem faceCorner_1 (h : Nat) (u v : Int) :
    faceCorner g c d pos h u v (other1 d) = (g.idx c (other1 d) : Int) + u * h := by
  unfold faceCorner
  rw [if_neg (other_ne d).1, if_pos rfl]

theorem faceCorner_2 (h : Nat) (u v : Int) :
    faceCorner g c d pos h u v (other2 d) = (g.idx c (other2 d) : Int) + v * h := by
  unfold faceCorner
  rw [if_neg (other_ne d).2.1, if_neg (other_ne d).2.2.1]

theorem fin3_cases (d : Fin 3) {P : Fin 3 → Prop} (h0 : P d) (h1 : P (other1 d)) (h2 : P (other2 d)) (e : Fin 3) : P e := by
  by_cases h : e = d
  · subst h; exact h0
  · by_cases h' : e = other1 d
    · subst h'; exact h1
    · rw [(other_ne d).2.2.2 e h h']; exact h2

theorem aligned_two {h t : Int} (hd : h ∣ t) (hp : 0 < h) (h1 : -h < t) (h2 : t < 2 * h) : t = 0 ∨ t = h := by
  obtain ⟨k, rfl⟩ := hd
  have e1 : -h = h * (-1) := by omega
  have e2 : 2 * h = h * 2 := by omega
  rw [e1] at h1
  rw [e2] at h2
  have h3 : -1 < k := Int.lt_of_mul_lt_mul_left h1 (by omega)
  have h4 : k < 2 := Int.lt_of_mul_lt_mul_left h2 (by omega)
  have : k = 0 ∨ k = 1 := by omega
  rcases this with rfl | rfl
  · left; omega
  · right; omega

/-- A cell one level finer than `c` at a face has one of four lower corners. -/
theorem face_fine (hw : g.WF) (hv : g.Valid c) {a h : Nat} (ha : g.Valid a) {la q : V3 Int} (hl : g.Lift a la)
    (hq : InBox la (g.side a) q) (hf : FacePt g c d pos q) (hh : g.side a = h) (hS : g.side c = 2 * h) :
    ∃ u v : Int, (u = 0 ∨ u = 1) ∧ (v = 0 ∨ v = 1) ∧ la = faceCorner g c d pos h u v ∧
      (∀ u' : Int, (u' = 0 ∨ u' = 1) → q (other1 d) = g.idx c (other1 d) + u' * h → u = u') ∧
      (∀ v' : Int, (v' = 0 ∨ v' = 1) → q (other2 d) = g.idx c (other2 d) + v' * h → v = v') := by
  have hp : 0 < h := by rw [← hh]; exact side_pos a
  have hdl : ∀ e, (h : Int) ∣ la e := fun e => by rw [← hh]; exact lift_dvd hw ha hl e
  have hdc : ∀ e, (h : Int) ∣ g.idx c e := fun e => by
    have h1 : (g.side c : Int) ∣ g.idx c e := Int.natCast_dvd_natCast.2 (side_dvd_idx hw hv e)
    refine Int.dvd_trans ?_ h1
    rw [hS]
    exact Int.natCast_dvd_natCast.2 (Nat.dvd_mul_left _ _)
  have hoth : ∀ e, e ≠ d → la e - g.idx c e = 0 ∨ la e - g.idx c e = h := by
    intro e he
    have h1 := hf.1 e he
    have h2 := hq e
    rw [hh] at h2
    exact aligned_two (Int.dvd_sub (hdl e) (hdc e)) (by omega) (by omega) (by omega)
  have hd : la d = if pos then (g.idx c d : Int) + g.side c else (g.idx c d : Int) - h := by
    have h2 := hq d
    rw [hf.2, hh] at h2
    cases pos with
    | true =>
      simp only [if_true] at h2 ⊢
      refine dvd_floor_eq (hdl d) (Int.dvd_add (hdc d) ?_) h2.1 h2.2 (by omega) (by omega)
      rw [hS]; exact Int.natCast_dvd_natCast.2 (Nat.dvd_mul_left _ _)
    | false =>
      simp only [Bool.false_eq_true, if_false] at h2 ⊢
      exact dvd_floor_eq (hdl d) (Int.dvd_sub (hdc d) (Int.dvd_refl _)) h2.1 h2.2 (by omega) (by omega)
  have uv : ∀ e, e ≠ d → ∃ u : Int, (u = 0 ∨ u = 1) ∧ la e = g.idx c e + u * h ∧
      ∀ u' : Int, (u' = 0 ∨ u' = 1) → q e = g.idx c e + u' * h → u = u' := by
    intro e he
    have h2 := hq e
    rw [hh] at h2
    rcases hoth e he with h3 | h3
    · refine ⟨0, Or.inl rfl, by omega, ?_⟩
      rintro u' (rfl | rfl) h4 <;> omega
    · refine ⟨1, Or.inr rfl, by omega, ?_⟩
      rintro u' (rfl | rfl) h4 <;> omega
  obtain ⟨u, hu, e1, hu'⟩ := uv (other1 d) (other_ne d).1
  obtain ⟨v, hv', e2, hv''⟩ := uv (other2 d) (other_ne d).2.1
  refine ⟨u, v, hu, hv', ?_, hu', hv''⟩
  funext e
  refine fin3_cases d (P := fun e => la e = faceCorner g c d pos h u v e) ?_ ?_ ?_ e
  · show la d = _
    rw [faceCorner_d, hd]
  · show la _ = _
    rw [faceCorner_1, e1]
  · show la _ = _
    rw [faceCorner_2, e2]

end

/-- Face neighbors in one direction. -/
theorem faceDir_full (hw : g.WF) (ht : Tiled g E) (hb : BalancedFor g E faces) {c : Nat} (hc : E c = true)
    (d : Fin 3) (pos : Bool) :
    (faceDir g E c d pos).Nodup ∧ (∀ b, b ∈ faceDir g E c d pos ↔ E b = true ∧ FaceCell g c d pos b) ∧
    (faceDir g E c d pos = [] ∨ (∃ b, faceDir g E c d pos = [b] ∧ g.lvl b ≤ g.lvl c) ∨
      ((faceDir g E c d pos).length = 4 ∧ ∀ b ∈ faceDir g E c d pos, g.lvl b = g.lvl c + 1)) := by
  have hv := ht.valid c hc
  have hl := lift_self (g := g) c
  have hS0 := side_pos (g := g) c
  by_cases hq : g.InCover (nbrPt (fun e => (g.idx c e : Int)) (g.side c) d pos)
  · have hf := facePt_nbrPt (g := g) (c := c) d pos
    obtain ⟨b, lb, hEb, hlb, hqb⟩ := ht.leaf_lift hw hq
    have hvb := ht.valid b hEb
    have hb6 : nbr6 g E c d pos = b := nbr6_eq hw ht hb hc hl d pos hEb hq (mem_of_box hw hvb hlb hqb)
    -- cells at the face
    have lev : ∀ a la q, E a = true → g.Lift a la → InBox la (g.side a) q → FacePt g c d pos q → g.lvl a ≤ g.lvl c + 1 := by
      intro a la q hEa hla hqa hfa
      have hva := ht.valid a hEa
      exact (hb c a hc hEa _ (unitItem_mem d pos)
        ⟨q, hfa.block, inCover_of_box hw hva hla hqa, mem_of_box hw hva hla hqa⟩).2
    have lifts : ∀ a, E a = true ∧ FaceCell g c d pos a ↔
        E a = true ∧ ∃ la q, g.Lift a la ∧ InBox la (g.side a) q ∧ FacePt g c d pos q := by
      intro a
      constructor
      · rintro ⟨h1, q, h2, h3, h4⟩
        obtain ⟨h5, h6⟩ := exists_lift hw h3 h4
        exact ⟨h1, _, q, h5, h6, h2⟩
      · rintro ⟨h1, la, q, h2, h3, h4⟩
        have hva := ht.valid a h1
        exact ⟨h1, q, h4, inCover_of_box hw hva h2 h3, mem_of_box hw hva h2 h3⟩
    simp only [lifts]
    by_cases hlev : g.lvl b ≤ g.lvl c
    · have e : faceDir g E c d pos = [b] := by
        unfold faceDir
        simp only [hb6]
        rw [if_neg (valid_ne_zero hvb), if_pos hlev]
      rw [e]
      refine ⟨by simp, fun a => ?_, Or.inr (Or.inl ⟨b, rfl, hlev⟩)⟩
      rw [List.mem_singleton]
      constructor
      · rintro rfl
        exact ⟨hEb, lb, _, hlb, hqb, hf⟩
      · rintro ⟨hEa, la, q, h1, h2, h3⟩
        exact (ht.lift_eq hw hEa hEb h1 hlb h2 (face_coarse hw hv hvb hlb hqb hf h3 hlev)).1
    · -- all cells at the face are one level finer
      have hlb1 : g.lvl b = g.lvl c + 1 := by have := lev b lb _ hEb hlb hqb hf; omega
      have all : ∀ a la q, E a = true → g.Lift a la → InBox la (g.side a) q → FacePt g c d pos q → g.lvl a = g.lvl c + 1 := by
        intro a la q hEa hla hqa hfa
        have h1 := lev a la q hEa hla hqa hfa
        apply Classical.byContradiction
        intro h2
        have h3 := face_coarse hw hv (ht.valid a hEa) hla hqa hfa hf (by omega)
        have := (ht.lift_eq hw hEa hEb hla hlb h3 hqb).1
        subst this
        omega
      obtain ⟨h, hh⟩ : ∃ h, h = g.side b := ⟨_, rfl⟩
      have hS : g.side c = 2 * h := by
        rw [hh]; unfold side
        have := lvl_le hvb
        rw [hlb1, ← Nat.pow_succ']
        congr 1; omega
      have hside : ∀ a, g.lvl a = g.lvl c + 1 → g.side a = h := by
        intro a ha
        rw [hh]; unfold side; rw [ha, hlb1]
      have hp : 0 < h := by omega
      -- the four cells
      have four : ∀ u v : Int, (u = 0 ∨ u = 1) → (v = 0 ∨ v = 1) →
          ∃ a, E a = true ∧ g.Lift a (faceCorner g c d pos h u v) ∧ g.side a = h ∧
            ∃ q, InBox (faceCorner g c d pos h u v) (g.side a) q ∧ FacePt g c d pos q := by
        intro u v hu hv'
        obtain ⟨q, hqd, hq1, hq2⟩ : ∃ q : V3 Int, q d = (if pos then (g.idx c d : Int) + g.side c else (g.idx c d : Int) - 1) ∧
            q (other1 d) = g.idx c (other1 d) + u * h ∧ q (other2 d) = g.idx c (other2 d) + v * h := by
          refine ⟨fun e => if e = d then (if pos then (g.idx c d : Int) + g.side c else (g.idx c d : Int) - 1)
            else if e = other1 d then (g.idx c e : Int) + u * h else (g.idx c e : Int) + v * h, if_pos rfl, ?_, ?_⟩
          · show (if _ then _ else _) = _
            rw [if_neg (other_ne d).1, if_pos rfl]
          · show (if _ then _ else _) = _
            rw [if_neg (other_ne d).2.1, if_neg (other_ne d).2.2.1]
        have hfq : FacePt g c d pos q := by
          refine ⟨fun e he => ?_, hqd⟩
          by_cases h1 : e = other1 d
          · subst h1
            rw [hq1, hS]
            rcases hu with rfl | rfl <;> omega
          · rw [(other_ne d).2.2.2 e he h1, hq2, hS]
            rcases hv' with rfl | rfl <;> omega
        obtain ⟨a, la, h1, h2, h3⟩ := ht.leaf_lift hw ((hfq.inCover hw hv).2 hq)
        have h4 := hside a (all a la q h1 h2 h3 hfq)
        obtain ⟨u', v', -, -, h5, h6, h7⟩ := face_fine hw hv (ht.valid a h1) h2 h3 hfq h4 hS
        rw [h6 u hu hq1, h7 v hv' hq2] at h5
        subst h5
        exact ⟨a, h1, h2, h4, q, h3, hfq⟩
      obtain ⟨x, hEx, hlx, hsx, qx, hqx, hfx⟩ := four 1 0 (Or.inr rfl) (Or.inl rfl)
      obtain ⟨y, hEy, hly, hsy, qy, hqy, hfy⟩ := four 0 1 (Or.inl rfl) (Or.inr rfl)
      obtain ⟨z, hEz, hlz, hsz, qz, hqz, hfz⟩ := four 1 1 (Or.inr rfl) (Or.inr rfl)
      have hlb' : lb = faceCorner g c d pos h 0 0 := by
        obtain ⟨u', v', -, -, h5, h6, h7⟩ := face_fine hw hv hvb hlb hqb hf hh.symm hS
        rw [h6 0 (Or.inl rfl) (by rw [nbrPt, setD_ne _ _ (other_ne d).1]; omega),
          h7 0 (Or.inl rfl) (by rw [nbrPt, setD_ne _ _ (other_ne d).2.1]; omega)] at h5
        exact h5
      subst hlb'
      have o1 := (other_ne d).1
      have o2 := (other_ne d).2.1
      have o3 := (other_ne d).2.2.1
      have step1 : ∀ v : Int, nbrPt (faceCorner g c d pos h 0 v) h (other1 d) true = faceCorner g c d pos h 1 v := by
        intro v
        funext e
        refine fin3_cases d (P := fun e => nbrPt (faceCorner g c d pos h 0 v) h (other1 d) true e = faceCorner g c d pos h 1 v e) ?_ ?_ ?_ e
        · show setD _ _ _ _ = _
          rw [setD_ne _ _ o1.symm, faceCorner_d, faceCorner_d]
        · show setD _ _ _ _ = _
          rw [setD_same, faceCorner_1, faceCorner_1, if_pos rfl]; omega
        · show setD _ _ _ _ = _
          rw [setD_ne _ _ o3, faceCorner_2, faceCorner_2]
      have step2 : nbrPt (faceCorner g c d pos h 0 0) h (other2 d) true = faceCorner g c d pos h 0 1 := by
        funext e
        refine fin3_cases d (P := fun e => nbrPt (faceCorner g c d pos h 0 0) h (other2 d) true e = faceCorner g c d pos h 0 1 e) ?_ ?_ ?_ e
        · show setD _ _ _ _ = _
          rw [setD_ne _ _ o2.symm, faceCorner_d, faceCorner_d]
        · show setD _ _ _ _ = _
          rw [setD_ne _ _ o3.symm, faceCorner_1, faceCorner_1]
        · show setD _ _ _ _ = _
          rw [setD_same, faceCorner_2, faceCorner_2, if_pos rfl]; omega
      have own : ∀ (u v : Int), InBox (faceCorner g c d pos h u v) h (faceCorner g c d pos h u v) := fun u v e => by omega
      have nx : nbr6 g E b (other1 d) true = x := by
        have hvx := ht.valid x hEx
        have e : nbrPt (faceCorner g c d pos h 0 0) (g.side b) (other1 d) true = faceCorner g c d pos h 1 0 := by
          rw [← hh]; exact step1 0
        have hin : InBox (faceCorner g c d pos h 1 0) (g.side x) (faceCorner g c d pos h 1 0) := by rw [hsx]; exact own 1 0
        refine nbr6_eq hw ht hb hEb hlb _ _ hEx ?_ ?_
        · rw [e]; exact inCover_of_box hw hvx hlx hin
        · rw [e]; exact mem_of_box hw hvx hlx hin
      have ny : nbr6 g E b (other2 d) true = y := by
        have hvx := ht.valid y hEy
        have e : nbrPt (faceCorner g c d pos h 0 0) (g.side b) (other2 d) true = faceCorner g c d pos h 0 1 := by
          rw [← hh]; exact step2
        have hin : InBox (faceCorner g c d pos h 0 1) (g.side y) (faceCorner g c d pos h 0 1) := by rw [hsy]; exact own 0 1
        refine nbr6_eq hw ht hb hEb hlb _ _ hEy ?_ ?_
        · rw [e]; exact inCover_of_box hw hvx hly hin
        · rw [e]; exact mem_of_box hw hvx hly hin
      have nz : nbr6 g E y (other1 d) true = z := by
        have hvx := ht.valid z hEz
        have e : nbrPt (faceCorner g c d pos h 0 1) (g.side y) (other1 d) true = faceCorner g c d pos h 1 1 := by
          rw [hsy]; exact step1 1
        have hin : InBox (faceCorner g c d pos h 1 1) (g.side z) (faceCorner g c d pos h 1 1) := by rw [hsz]; exact own 1 1
        refine nbr6_eq hw ht hb hEy hly _ _ hEz ?_ ?_
        · rw [e]; exact inCover_of_box hw hvx hlz hin
        · rw [e]; exact mem_of_box hw hvx hlz hin
      have e : faceDir g E c d pos = [b, x, y, z] := by
        unfold faceDir
        simp only [hb6, nx, ny, nz]
        rw [if_neg (valid_ne_zero hvb), if_neg (by omega), if_pos (valid_ne_zero (ht.valid x hEx)),
          if_pos (valid_ne_zero (ht.valid y hEy)), if_pos (valid_ne_zero (ht.valid z hEz))]
        rfl
      -- different corners are different cells
      have diff : ∀ (a a' : Nat) (u v u' v' : Int), g.Lift a (faceCorner g c d pos h u v) →
          g.Lift a' (faceCorner g c d pos h u' v') → (u = 0 ∨ u = 1) → (v = 0 ∨ v = 1) → (u' = 0 ∨ u' = 1) →
          (v' = 0 ∨ v' = 1) → (u ≠ u' ∨ v ≠ v') → a ≠ a' := by
        intro a a' u v u' v' h1 h2 hu hv1 hu' hv2 hne he
        subst he
        have hN : ∀ e, (2 * h : Int) ≤ g.n e := fun e => by
          have := idx_add_side_le hw hv e; omega
        have key : ∀ e (t : Int), (g.n e : Int) ∣ t → -(h : Int) ≤ t → t ≤ h → t = 0 := by
          intro e t ⟨k, hk⟩ h3 h4
          have := hN e
          have hk' : k = 0 := by
            rcases Int.lt_trichotomy k 0 with h5 | h5 | h5
            · have := Int.mul_le_mul_of_nonneg_left (show k ≤ -1 by omega) (show (0 : Int) ≤ g.n e by omega)
              omega
            · exact h5
            · have := Int.mul_le_mul_of_nonneg_left (show 1 ≤ k by omega) (show (0 : Int) ≤ g.n e by omega)
              omega
          rw [hk, hk']; omega
        have kk : ∀ e, (g.n e : Int) ∣ faceCorner g c d pos h u v e - faceCorner g c d pos h u' v' e := by
          intro e
          have := Int.dvd_sub (h1 e).1 (h2 e).1
          have e' : faceCorner g c d pos h u v e - g.idx a e - (faceCorner g c d pos h u' v' e - g.idx a e) =
            faceCorner g c d pos h u v e - faceCorner g c d pos h u' v' e := by omega
          rwa [e'] at this
        rcases hne with hne | hne
        · have h3 := kk (other1 d)
          rw [faceCorner_1, faceCorner_1] at h3
          have := key _ _ h3 (by rcases hu with rfl | rfl <;> rcases hu' with rfl | rfl <;> omega)
            (by rcases hu with rfl | rfl <;> rcases hu' with rfl | rfl <;> omega)
          rcases hu with rfl | rfl <;> rcases hu' with rfl | rfl <;> omega
        · have h3 := kk (other2 d)
          rw [faceCorner_2, faceCorner_2] at h3
          have := key _ _ h3 (by rcases hv1 with rfl | rfl <;> rcases hv2 with rfl | rfl <;> omega)
            (by rcases hv1 with rfl | rfl <;> rcases hv2 with rfl | rfl <;> omega)
          rcases hv1 with rfl | rfl <;> rcases hv2 with rfl | rfl <;> omega
      rw [e]
      refine ⟨?_, ?_, Or.inr (Or.inr ⟨rfl, ?_⟩)⟩
      · have t : ((1 : Int) = 0 ∨ (1 : Int) = 1) := Or.inr rfl
        have f : ((0 : Int) = 0 ∨ (0 : Int) = 1) := Or.inl rfl
        have d1 := diff b x 0 0 1 0 hlb hlx f f t f (Or.inl (by decide))
        have d2 := diff b y 0 0 0 1 hlb hly f f f t (Or.inr (by decide))
        have d3 := diff b z 0 0 1 1 hlb hlz f f t t (Or.inl (by decide))
        have d4 := diff x y 1 0 0 1 hlx hly t f f t (Or.inl (by decide))
        have d5 := diff x z 1 0 1 1 hlx hlz t f t t (Or.inr (by decide))
        have d6 := diff y z 0 1 1 1 hly hlz f t t t (Or.inl (by decide))
        simp [d1, d2, d3, d4, d5, d6]
      · intro a
        simp only [List.mem_cons, List.not_mem_nil, or_false]
        constructor
        · rintro (rfl | rfl | rfl | rfl)
          · exact ⟨hEb, _, _, hlb, hqb, hf⟩
          · exact ⟨hEx, _, _, hlx, hqx, hfx⟩
          · exact ⟨hEy, _, _, hly, hqy, hfy⟩
          · exact ⟨hEz, _, _, hlz, hqz, hfz⟩
        · rintro ⟨hEa, la, q, h1, h2, h3⟩
          have hsa := hside a (all a la q hEa h1 h2 h3)
          obtain ⟨u, v, hu, hv', e1, -, -⟩ := face_fine hw hv (ht.valid a hEa) h1 h2 h3 hsa hS
          subst e1
          have same : ∀ a', E a' = true → g.Lift a' (faceCorner g c d pos h u v) → g.side a' = h → a = a' := by
            intro a' h5 h6 h7
            exact (ht.lift_eq hw hEa h5 h1 h6 (q := faceCorner g c d pos h u v) (by rw [hsa]; exact own u v) (by rw [h7]; exact own u v)).1
          rcases hu with rfl | rfl <;> rcases hv' with rfl | rfl
          · exact Or.inl (same b hEb hlb hh.symm)
          · exact Or.inr (Or.inr (Or.inl (same y hEy hly hsy)))
          · exact Or.inr (Or.inl (same x hEx hlx hsx))
          · exact Or.inr (Or.inr (Or.inr (same z hEz hlz hsz)))
      · intro a ha
        simp only [List.mem_cons, List.not_mem_nil, or_false] at ha
        rcases ha with rfl | rfl | rfl | rfl
        · exact hlb1
        · exact all _ _ _ hEx hlx hqx hfx
        · exact all _ _ _ hEy hly hqy hfy
        · exact all _ _ _ hEz hlz hqz hfz
  · have e : faceDir g E c d pos = [] := by
      unfold faceDir
      simp only [nbr6_none hw hv hl d pos hq]
      rfl
    rw [e]
    refine ⟨List.nodup_nil, fun b => ⟨fun h => (by cases h), ?_⟩, Or.inl rfl⟩
    rintro ⟨-, q, h1, h2, -⟩
    exact absurd ((h1.inCover hw hv).1 h2) hq

theorem faceDir_spec (hw : g.WF) (ht : Tiled g E) (hb : BalancedFor g E faces) {c : Nat} (hc : E c = true)
    (d : Fin 3) (pos : Bool) :
    (faceDir g E c d pos).Nodup ∧ ∀ b, b ∈ faceDir g E c d pos ↔ E b = true ∧ FaceCell g c d pos b :=
  ⟨(faceDir_full hw ht hb hc d pos).1, (faceDir_full hw ht hb hc d pos).2.1⟩

theorem dirOf_inj {d d' : Fin 3} {pos pos' : Bool} (h : dirOf d pos = dirOf d' pos') : d = d' ∧ pos = pos' := by
  revert h; revert d d' pos pos'; decide

/-- C39: for every existing cell the result has exactly the existing cells on the other side of a face of the cell, with
the number of that direction, each once. The call aborts for other cells. -/
theorem C39_face_neighbors (hw : g.WF) (ht : Tiled g E) (hb : BalancedFor g E (hoodOf g)) {c : Nat} :
    (E c = true → ∃ l, faceNeighbors g E c = .ok l ∧ l.Nodup ∧
      ∀ b k, (b, k) ∈ l ↔ E b = true ∧ ∃ d pos, k = dirOf d pos ∧ FaceCell g c d pos b) ∧
    (E c = false → faceNeighbors g E c = .throws) := by
  constructor
  · intro hc
    have hv := ht.valid c hc
    refine ⟨[((0 : Fin 3), false), (0, true), (1, false), (1, true), (2, false), (2, true)].flatMap fun x =>
      (faceDir g E c x.1 x.2).map fun b => (b, dirOf x.1 x.2), ?_, ?_, ?_⟩
    · unfold faceNeighbors
      rw [if_neg]
      rintro (h | h | h)
      · exact valid_ne_zero hv h
      · rw [hc] at h; cases h
      · exact h ((ht.getChild_eq_iff hw (valid_ne_zero hv)).2 hc)
    · apply flatMap_nodup
      · decide
      · rintro ⟨d, pos⟩ -
        have := (faceDir_spec hw ht hb.faces hc d pos).1
        exact List.Pairwise.map _ (fun a b h e => h (by injection e)) this
      · rintro ⟨d, pos⟩ - ⟨d', pos'⟩ - ⟨b, k⟩ h1 h2
        obtain ⟨a1, -, e1⟩ := List.mem_map.1 h1
        obtain ⟨a2, -, e2⟩ := List.mem_map.1 h2
        injection e1 with _ e1
        injection e2 with _ e2
        obtain ⟨h3, h4⟩ := dirOf_inj (e1.trans e2.symm)
        exact Prod.ext h3 h4
    · intro b k
      rw [List.mem_flatMap]
      constructor
      · rintro ⟨⟨d, pos⟩, -, h2⟩
        obtain ⟨a, h3, e⟩ := List.mem_map.1 h2
        injection e with e1 e2
        subst e1
        have := ((faceDir_spec hw ht hb.faces hc d pos).2 a).1 h3
        exact ⟨this.1, d, pos, e2.symm, this.2⟩
      · rintro ⟨h1, d, pos, rfl, h2⟩
        refine ⟨(d, pos), ?_, List.mem_map.2 ⟨b, ((faceDir_spec hw ht hb.faces hc d pos).2 b).2 ⟨h1, h2⟩, rfl⟩⟩
        have : ∀ (d : Fin 3) (pos : Bool), (d, pos) ∈
          [((0 : Fin 3), false), (0, true), (1, false), (1, true), (2, false), (2, true)] := by decide
        exact this d pos
  · intro hc
    unfold faceNeighbors
    rw [if_pos (Or.inr (Or.inl hc))]

theorem face_filter (g : Cfg) (E : Nat → Bool) (c : Nat) (d : Fin 3) (pos : Bool) :
    ([((0 : Fin 3), false), (0, true), (1, false), (1, true), (2, false), (2, true)].flatMap fun x =>
      (faceDir g E c x.1 x.2).map fun b => (b, dirOf x.1 x.2)).filter (fun y => decide (y.2 = dirOf d pos)) =
    (faceDir g E c d pos).map fun b => (b, dirOf d pos) := by
  have key : ∀ x : Fin 3 × Bool, ((faceDir g E c x.1 x.2).map fun b => (b, dirOf x.1 x.2)).filter (fun y => decide (y.2 = dirOf d pos)) =
      if x = (d, pos) then (faceDir g E c d pos).map fun b => (b, dirOf d pos) else [] := by
    intro x
    split
    · rename_i h
      subst h
      refine List.filter_eq_self.2 fun y hy => ?_
      obtain ⟨b, -, rfl⟩ := List.mem_map.1 hy
      exact decide_eq_true rfl
    · rename_i h
      refine List.filter_eq_nil_iff.2 fun y hy => ?_
      obtain ⟨b, -, rfl⟩ := List.mem_map.1 hy
      rw [decide_eq_true_eq]
      intro e
      obtain ⟨e1, e2⟩ := dirOf_inj e
      exact h (Prod.ext e1 e2)
  rw [List.filter_flatMap]
  simp only [key]
  revert d
  rw [forall_fin3]
  cases pos <;> simp

/-- C39, sizes: across every face of a cell there are no cells (at the end of the grid), or one cell that is as large or twice as large, or four
cells of half the size. -/
theorem C39_face_sizes (hw : g.WF) (ht : Tiled g E) (hb : BalancedFor g E (hoodOf g)) {c : Nat} (hc : E c = true) {l : List (Nat × Int)}
    (hl : faceNeighbors g E c = .ok l) (d : Fin 3) (pos : Bool) :
    ∃ m, l.filter (fun y => decide (y.2 = dirOf d pos)) = m.map (fun b => (b, dirOf d pos)) ∧
      (m = [] ∨ (∃ b, m = [b] ∧ (g.lvl b = g.lvl c ∨ g.lvl b + 1 = g.lvl c)) ∨ (m.length = 4 ∧ ∀ b ∈ m, g.lvl b = g.lvl c + 1)) := by
  refine ⟨faceDir g E c d pos, ?_, ?_⟩
  · unfold faceNeighbors at hl
    split at hl
    · cases hl
    · injection hl with hl
      rw [← hl]
      exact face_filter g E c d pos
  · obtain ⟨-, h2, h3⟩ := faceDir_full hw ht hb.faces hc d pos
    rcases h3 with h3 | ⟨b, h3, h4⟩ | h3
    · exact Or.inl h3
    · refine Or.inr (Or.inl ⟨b, h3, ?_⟩)
      obtain ⟨hE, q, q1, q2, q3⟩ := (h2 b).1 (by rw [h3]; exact List.mem_singleton_self b)
      have := (hb.faces c b hc hE _ (unitItem_mem d pos) ⟨q, q1.block, q2, q3⟩).1
      omega
    · exact Or.inr (Or.inr h3)

/-- Cell 5 of the sample grid has four smaller face neighbors in negative x direction and itself in both y directions
through a sibling: in periodic dimension y the sibling is there twice. -/
example : Tiled sampleG sampleE ∧ BalancedFor sampleG sampleE (hoodOf sampleG) ∧ sampleE 5 = true ∧
    (∃ l, faceNeighbors sampleG sampleE 5 = .ok l ∧ l =
      [(29, -1), (41, -1), (77, -1), (89, -1), (6, 1), (11, -2), (11, 2), (17, 3)]) :=
  ⟨sample_tiled, sample_balanced, by decide +kernel, _, by decide +kernel, rfl⟩

/-- C39: face neighbors are among neighbors of the cell. -/
theorem C39_are_neighbors {n : Nat} {D W : Type} {s : Sys n D W} {dflt : D} {maxTag : Nat} (hw : g.WF)
    (h : Reachable g dflt maxTag s) (i : Fin n) {c : Nat} {l : List (Nat × Int)}
    (hl : faceNeighbors g (exist (s i).owner) c = .ok l) {b : Nat} {k : Int} (hb : (b, k) ∈ l) :
    NbrOf g (s i) defaultId c b := by
  obtain ⟨w, hi⟩ := h.inv hw (by have := i.2; omega)
  rw [hi.sys.owner] at hl
  have hbal := (balanced_iff hw hi.sys.tiled).1 hi.sys.balanced
  have hx := C39_face_neighbors hw hi.sys.tiled hbal (c := c)
  cases hc : exist w c with
  | false => rw [hx.2 hc] at hl; cases hl
  | true =>
    obtain ⟨l', h1, -, h2⟩ := hx.1 hc
    rw [hl] at h1
    injection h1 with h1
    subst h1
    obtain ⟨h3, d, pos, -, h4⟩ := (h2 b k).1 hb
    exact (hi.nbrOf_iff hw (if_pos rfl) hc).2 ⟨h3, _, faces_sub_hoodOf (unitItem_mem d pos), h4.meets⟩

end Dccrg
