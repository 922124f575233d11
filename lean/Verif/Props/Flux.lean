import Verif.Advect
import Verif.Props.Face
import Verif.Props.Iter
import Verif.Props.Select
import Verif.DebugSpec
/-!
# C119: neighbors across faces are symmetric and can be found from offsets
-/
namespace Dccrg
open Cfg
variable {g : Cfg} {E : Nat → Bool}

/-- Cell `b`, whose lower corner is at given offset from that of cell `c`, touches a face of `c`: boxes of the cells
overlap in the other two dimensions, in dimension `d` one begins where the other ends. -/
structure Touch (g : Cfg) (c : Nat) (d : Fin 3) (pos : Bool) (b : Nat) (off : V3 Int) : Prop where
  lift : g.Lift b (fun e => g.idx c e + off e)
  over : ∀ e, e ≠ d → -(g.side b : Int) < off e ∧ off e < g.side c
  next : off d = if pos then (g.side c : Int) else -(g.side b : Int)

section
variable {c b : Nat} {d : Fin 3} {pos : Bool} {off : V3 Int}

theorem touch_of_facePt (hw : g.WF) (ht : Tiled g E) (hc : E c = true) (hb : E b = true)
    (hl : g.Lift b (fun e => g.idx c e + off e)) {q : V3 Int} (hf : FacePt g c d pos q)
    (hq : InBox (fun e => g.idx c e + off e) (g.side b) q) : Touch g c d pos b off := by
  have hq : ∀ e, (g.idx c e : Int) + off e ≤ q e ∧ q e < g.idx c e + off e + g.side b := hq
  refine ⟨hl, fun e he => ?_, ?_⟩
  · have h1 := hf.1 e he
    have h2 := hq e
    omega
  · have hs := side_pos (g := g) c
    have h2 := hq d
    have h3 := hf.2
    -- the point on the other side of the face is in c only
    have key : ¬ InBox (fun e => g.idx c e + off e) (g.side b)
        (setD q d (if pos then (g.idx c d : Int) + g.side c - 1 else g.idx c d)) := by
      intro hx
      have hy : InBox (fun e => (g.idx c e : Int)) (g.side c)
          (setD q d (if pos then (g.idx c d : Int) + g.side c - 1 else g.idx c d)) := by
        intro e
        by_cases he : e = d
        · subst he
          rw [setD_same]
          cases pos <;> simp <;> omega
        · rw [setD_ne _ _ he]
          exact hf.1 e he
      obtain ⟨e1, e2⟩ := ht.lift_eq hw hc hb (lift_self c) hl hy hx
      have e3 : (g.idx c d : Int) = g.idx c d + off d := congrFun e2 d
      subst e1
      cases pos <;> simp at h3 <;> omega
    apply Classical.byContradiction
    intro hne
    apply key
    intro e
    by_cases he : e = d
    · subst he
      rw [setD_same]
      cases pos <;> simp at h3 hne ⊢ <;> omega
    · rw [setD_ne _ _ he]
      exact hq e

theorem Touch.facePt (h : Touch g c d pos b off) :
    ∃ q, FacePt g c d pos q ∧ InBox (fun e => g.idx c e + off e) (g.side b) q := by
  have hs := side_pos (g := g) c
  have hs' := side_pos (g := g) b
  refine ⟨fun e => if e = d then (if pos then (g.idx c d : Int) + g.side c else (g.idx c d : Int) - 1)
    else if 0 ≤ off e then g.idx c e + off e else g.idx c e, ⟨fun e he => ?_, if_pos rfl⟩, fun e => ?_⟩
  · have := h.over e he
    simp only [if_neg he]
    split <;> omega
  · by_cases he : e = d
    · subst he
      have := h.next
      cases pos <;> simp at this ⊢ <;> omega
    · have := h.over e he
      simp only [if_neg he]
      split <;> omega

/-- The two ways of saying that cells share a face. -/
theorem faceCell_iff_touch (hw : g.WF) (ht : Tiled g E) (hc : E c = true) (hb : E b = true) :
    FaceCell g c d pos b ↔ ∃ off, Touch g c d pos b off := by
  constructor
  · rintro ⟨q, h1, h2, h3⟩
    obtain ⟨h4, h5⟩ := exists_lift hw h2 h3
    refine ⟨fun e => q e - (g.wrap q e - g.idx b e) - g.idx c e, touch_of_facePt hw ht hc hb (q := q) ?_ h1 ?_⟩
    · have : (fun e => (g.idx c e : Int) + (q e - (g.wrap q e - g.idx b e) - g.idx c e)) =
          fun e => q e - (g.wrap q e - g.idx b e) := by funext e; omega
      rw [this]; exact h4
    · have : (fun e => (g.idx c e : Int) + (q e - (g.wrap q e - g.idx b e) - g.idx c e)) =
          fun e => q e - (g.wrap q e - g.idx b e) := by funext e; omega
      rw [this]; exact h5
  · rintro ⟨off, h⟩
    obtain ⟨q, h1, h2⟩ := h.facePt
    have hv := ht.valid b hb
    exact ⟨q, h1, inCover_of_box hw hv h.lift h2, mem_of_box hw hv h.lift h2⟩

theorem Touch.symm (h : Touch g c d pos b off) : Touch g b d (!pos) c (fun e => -off e) := by
  refine ⟨fun e => ?_, fun e he => ?_, ?_⟩
  · have h1 := (h.lift e).1
    refine ⟨?_, fun hp => ?_⟩
    · have : (g.idx b e : Int) + -off e - g.idx c e = -((g.idx c e : Int) + off e - g.idx b e) := by omega
      simp only [this]
      exact Int.dvd_neg.2 h1
    · have h2 := (h.lift e).2 hp
      simp only at h2 ⊢
      omega
  · have := h.over e he
    omega
  · have := h.next
    cases pos <;> simp at this ⊢ <;> omega

/-- C119: cell `b` is on the other side of a face of cell `c` exactly when `c` is on the other side of the opposite face
of `b`. -/
theorem faceCell_symm (hw : g.WF) (ht : Tiled g E) (hc : E c = true) (hb : E b = true) :
    FaceCell g c d pos b ↔ FaceCell g b d (!pos) c := by
  rw [faceCell_iff_touch hw ht hc hb, faceCell_iff_touch hw ht hb hc]
  constructor
  · rintro ⟨off, h⟩; exact ⟨_, h.symm⟩
  · rintro ⟨off, h⟩
    have := h.symm
    rw [Bool.not_not] at this
    exact ⟨_, this⟩

/-- There is only one offset at which a cell touches a face. -/
theorem Touch.unique (hw : g.WF) (hc : g.Valid c) (hb : g.Valid b) {off' : V3 Int} (h : Touch g c d pos b off)
    (h' : Touch g c d pos b off') : off = off' := by
  funext e
  by_cases he : e = d
  · subst he; rw [h.next, h'.next]
  · have hs := side_pos (g := g) c
    have hs' := side_pos (g := g) b
    have h1 := h.over e he
    have h2 := h'.over e he
    have d1 : (g.side b : Int) ∣ g.idx c e + off e := lift_dvd hw hb h.lift e
    have d2 : (g.side b : Int) ∣ g.idx c e + off' e := lift_dvd hw hb h'.lift e
    have dc : (g.side c : Int) ∣ g.idx c e := Int.natCast_dvd_natCast.2 (side_dvd_idx hw hc e)
    have n1 : (g.n e : Int) ∣ off e - off' e := by
      have : (g.n e : Int) ∣ g.idx c e + off e - g.idx b e - (g.idx c e + off' e - g.idx b e) :=
        Int.dvd_sub (h.lift e).1 (h'.lift e).1
      have e : (g.idx c e : Int) + off e - g.idx b e - (g.idx c e + off' e - g.idx b e) = off e - off' e := by omega
      rwa [e] at this
    have lc := idx_add_side_le hw hc e
    have lb := idx_add_side_le hw hb e
    have hlt : -(g.n e : Int) < off e - off' e ∧ off e - off' e < g.n e := by
      rcases side_dvd_or (g := g) b c with hd | hd
      · -- boxes of b are inside of that of c
        have db : (g.side b : Int) ∣ g.idx c e := Int.dvd_trans hd dc
        have x1 : (g.side b : Int) ∣ off e := (Int.dvd_iff_dvd_of_dvd_add d1).1 db
        have x2 : (g.side b : Int) ∣ off' e := (Int.dvd_iff_dvd_of_dvd_add d2).1 db
        obtain ⟨m, hm⟩ := hd
        obtain ⟨a, ha⟩ := x1
        obtain ⟨a', ha'⟩ := x2
        rw [ha, hm] at h1
        rw [ha', hm] at h2
        have hp : (0 : Int) < g.side b := by omega
        have e1 : -(g.side b : Int) = g.side b * (-1) := by omega
        rw [e1] at h1 h2
        have a1 := Int.lt_of_mul_lt_mul_left h1.1 (by omega)
        have a2 := Int.lt_of_mul_lt_mul_left h1.2 (by omega)
        have a3 := Int.lt_of_mul_lt_mul_left h2.1 (by omega)
        have a4 := Int.lt_of_mul_lt_mul_left h2.2 (by omega)
        have b1 : 0 ≤ off e := by rw [ha]; exact Int.mul_nonneg (by omega) (by omega)
        have b2 : 0 ≤ off' e := by rw [ha']; exact Int.mul_nonneg (by omega) (by omega)
        have b3 : off e < g.side c := by have := h.over e he; omega
        have b4 : off' e < g.side c := by have := h'.over e he; omega
        omega
      · -- that of c is inside of boxes of b
        have x1 : (g.side c : Int) ∣ off e := (Int.dvd_iff_dvd_of_dvd_add (Int.dvd_trans hd d1)).1 dc
        have x2 : (g.side c : Int) ∣ off' e := (Int.dvd_iff_dvd_of_dvd_add (Int.dvd_trans hd d2)).1 dc
        obtain ⟨a, ha⟩ := x1
        obtain ⟨a', ha'⟩ := x2
        have h1' : off e < (g.side c : Int) * 1 := by omega
        have h2' : off' e < (g.side c : Int) * 1 := by omega
        rw [ha] at h1'
        rw [ha'] at h2'
        have a1 := Int.lt_of_mul_lt_mul_left h1' (by omega)
        have a2 := Int.lt_of_mul_lt_mul_left h2' (by omega)
        have b1 : 0 ≤ (g.side c : Int) * (-a) := Int.mul_nonneg (by omega) (by omega)
        have b2 : 0 ≤ (g.side c : Int) * (-a') := Int.mul_nonneg (by omega) (by omega)
        rw [Int.mul_neg] at b1 b2
        rw [← ha] at b1
        rw [← ha'] at b2
        omega
    obtain ⟨m, hm⟩ := n1
    rw [hm] at hlt
    have hn : (0 : Int) < g.n e := by omega
    have e1 : -(g.n e : Int) = g.n e * (-1) := by omega
    have e2 : (g.n e : Int) = g.n e * 1 := by omega
    have f1 : (g.n e : Int) * (-1) < g.n e * m := by omega
    have f2 : (g.n e : Int) * m < g.n e * 1 := by omega
    have g1 := Int.lt_of_mul_lt_mul_left f1 (by omega)
    have g2 := Int.lt_of_mul_lt_mul_left f2 (by omega)
    have : m = 0 := by omega
    rw [this] at hm
    omega

end

/-! ## Offsets -/

/-- The item of a neighbor list at a point. -/
theorem isItem_at (hw : g.WF) (ht : Tiled g E) {c : Nat} (hc : E c = true) {o : V3 Int} {l : List (Nat × V3 Int)}
    (hl : IsItem g E c o l) {q : V3 Int} (hq : Block g c o q) (hcov : g.InCover q) :
    ∃ b off, (b, off) ∈ l ∧ E b = true ∧ g.Lift b (fun e => g.idx c e + off e) ∧
      InBox (fun e => g.idx c e + off e) (g.side b) q := by
  have hvc := ht.valid _ hc
  cases hl with
  | outside h => exact absurd ((inCover_corner_iff hw hvc o hq).1 hcov) h
  | @covers a off hcor ha hle hlift hbox => exact ⟨a, off, by simp, ha, hlift, hbox q hq⟩
  | @eight k s hcor hs hk =>
    have hsc := side_pos (g := g) c
    let w : V3 Nat := fun d => if q d < corner g c o d + s then 0 else 1
    have hwo : ∀ d, w d ≤ 1 := fun d => by show (if _ then _ else _) ≤ 1; split <;> omega
    have hwm : w ∈ octants := mem_octants_iff.2 hwo
    obtain ⟨h1, h2, h3⟩ := hk w hwm
    have hbox : InBox (fun d => corner g c o d + w d * s) (g.side (k w)) q := by
      intro d
      rw [h2]
      have hq' : corner g c o d ≤ q d ∧ q d < corner g c o d + g.side c := hq d
      show corner g c o d + ((if q d < corner g c o d + s then 0 else 1 : Nat) : Int) * s ≤ q d ∧
        q d < corner g c o d + ((if q d < corner g c o d + s then 0 else 1 : Nat) : Int) * s + s
      split <;> simp <;> omega
    have he : (fun d => corner g c o d + (w d : Int) * s) = fun d => (g.idx c d : Int) + (o d * g.side c + w d * s) := by
      funext d; simp only [corner]; omega
    rw [he] at h3 hbox
    exact ⟨_, _, List.mem_map.2 ⟨w, hwm, rfl⟩, h1, h3, hbox⟩

/-- An item of a neighbor list has a point in its block. -/
theorem isItem_block {c : Nat} {o : V3 Int} {l : List (Nat × V3 Int)}
    (hl : IsItem g E c o l) {b : Nat} {off : V3 Int} (hm : (b, off) ∈ l) :
    E b = true ∧ g.Lift b (fun e => g.idx c e + off e) ∧
      ∃ q, Block g c o q ∧ InBox (fun e => g.idx c e + off e) (g.side b) q := by
  cases hl with
  | outside h => cases hm
  | @covers a off' hcor ha hle hlift hbox =>
    rw [List.mem_singleton] at hm
    obtain ⟨rfl, rfl⟩ := Prod.mk.inj hm
    exact ⟨ha, hlift, _, corner_block g c o, hbox _ (corner_block g c o)⟩
  | @eight k s hcor hs hk =>
    have hsc := side_pos (g := g) c
    obtain ⟨w, hwm, h⟩ := List.mem_map.1 hm
    obtain ⟨rfl, rfl⟩ := Prod.mk.inj h
    obtain ⟨h1, h2, h3⟩ := hk w hwm
    have he : (fun d => corner g c o d + (w d : Int) * s) = fun d => (g.idx c d : Int) + (o d * g.side c + w d * s) := by
      funext d; simp only [corner]; omega
    rw [he] at h3
    have hwv : ∀ d, (0 : Int) ≤ w d * s ∧ (w d * s : Int) ≤ s := by
      intro d
      have h1 : w d = 0 ∨ w d = 1 := by have := octants_le hwm d; omega
      rcases h1 with h1 | h1 <;> rw [h1] <;> simp
    refine ⟨h1, h3, fun d => corner g c o d + w d * s, fun d => ?_, fun d => ?_⟩
    · have := hwv d
      show corner g c o d ≤ corner g c o d + w d * s ∧ corner g c o d + w d * s < corner g c o d + g.side c
      omega
    · have := side_pos (g := g) (k w)
      show (g.idx c d : Int) + (o d * g.side c + w d * s) ≤ corner g c o d + w d * s ∧
        corner g c o d + w d * s < (g.idx c d : Int) + (o d * g.side c + w d * s) + g.side (k w)
      simp only [corner]
      omega

/-- Overlap in one dimension. -/
def OverlapsIn (cl nl x : Int) : Prop := -nl < x ∧ x < cl

instance (cl nl x : Int) : Decidable (OverlapsIn cl nl x) := inferInstanceAs (Decidable (_ ∧ _))

theorem over_cases {cl nl : Int} (hc : 0 < cl) (hn : 0 < nl) (x : Int) :
    ((x < cl ∧ x > -nl) = True ∧ (-nl < x ∧ x < cl) = True ∧ (x = cl) = False ∧ (x = -nl) = False) ∨
    ((x < cl ∧ x > -nl) = False ∧ (-nl < x ∧ x < cl) = False ∧ (x = cl) = True ∧ (x = -nl) = False) ∨
    ((x < cl ∧ x > -nl) = False ∧ (-nl < x ∧ x < cl) = False ∧ (x = cl) = False ∧ (x = -nl) = True) ∨
    ((x < cl ∧ x > -nl) = False ∧ (-nl < x ∧ x < cl) = False ∧ (x = cl) = False ∧ (x = -nl) = False) := by
  simp only [eq_iff_iff, iff_true, iff_false]
  omega

theorem fluxDir_spec {cl nl : Int} (hc : 0 < cl) (hn : 0 < nl) (off : V3 Int) :
    (fluxDir cl nl off = .throws ↔ ∀ e, OverlapsIn cl nl (off e)) ∧
    (∀ k, fluxDir cl nl off = .ok (some k) ↔ ∃ d pos, k = dirOf d pos ∧ (∀ e, e ≠ d → OverlapsIn cl nl (off e)) ∧
      off d = if pos then cl else -nl) ∧
    (fluxDir cl nl off = .throws ∨ ∃ r, fluxDir cl nl off = .ok r) := by
  have exb : ∀ P : Bool → Prop, (∃ x, P x) ↔ P false ∨ P true := fun P =>
    ⟨fun ⟨x, h⟩ => by cases x <;> simp [h], fun h => h.elim (fun h => ⟨_, h⟩) (fun h => ⟨_, h⟩)⟩
  simp only [exists_fin3, forall_fin3, exb, fluxDir, overlapIn, OverlapsIn, dirOf]
  rcases over_cases hc hn (off 0) with ⟨a1, a2, a3, a4⟩ | ⟨a1, a2, a3, a4⟩ | ⟨a1, a2, a3, a4⟩ | ⟨a1, a2, a3, a4⟩ <;>
  rcases over_cases hc hn (off 1) with ⟨b1, b2, b3, b4⟩ | ⟨b1, b2, b3, b4⟩ | ⟨b1, b2, b3, b4⟩ | ⟨b1, b2, b3, b4⟩ <;>
  rcases over_cases hc hn (off 2) with ⟨c1, c2, c3, c4⟩ | ⟨c1, c2, c3, c4⟩ | ⟨c1, c2, c3, c4⟩ | ⟨c1, c2, c3, c4⟩ <;>
  simp [a1, a2, a3, a4, b1, b2, b3, b4, c1, c2, c3, c4, eq_comm]

theorem dirOf_not (d : Fin 3) (pos : Bool) : dirOf d (!pos) = -dirOf d pos := by
  revert d pos; decide

/-- Items of a list of neighbors from which faces are found. -/
theorem fluxDir_item (hw : g.WF) (ht : Tiled g E) {c : Nat} (hc : E c = true) {H : List (V3 Int)}
    (hH : ∀ o ∈ H, o ∈ hoodOf g) (hF : ∀ o ∈ faces, o ∈ H) {f : V3 Int → List (Nat × V3 Int)}
    (hf : ∀ o ∈ H, IsItem g E c o (f o)) :
    (∀ b off, (b, off) ∈ H.flatMap f → ∃ r, fluxDir (g.side c) (g.side b) off = .ok r) ∧
    ∀ b off d pos, ((b, off) ∈ H.flatMap f ∧ fluxDir (g.side c) (g.side b) off = .ok (some (dirOf d pos))) ↔
      E b = true ∧ Touch g c d pos b off := by
  have hs := side_pos (g := g) c
  constructor
  · intro b off hm
    obtain ⟨o, ho, hm⟩ := List.mem_flatMap.1 hm
    obtain ⟨h1, h2, q, h3, h4⟩ := isItem_block (hf o ho) hm
    have hs' := side_pos (g := g) b
    obtain ⟨a1, -, a3⟩ := fluxDir_spec (cl := g.side c) (nl := g.side b) (by omega) (by omega) off
    rcases a3 with a3 | a3
    · exfalso
      have h5 := a1.1 a3
      -- cells would be the same
      have hx : InBox (fun e => (g.idx c e : Int)) (g.side c) (fun e => if 0 ≤ off e then g.idx c e + off e else g.idx c e) := by
        intro e
        have := h5 e
        unfold OverlapsIn at this
        simp only
        split <;> omega
      have hy : InBox (fun e => (g.idx c e : Int) + off e) (g.side b) (fun e => if 0 ≤ off e then g.idx c e + off e else g.idx c e) := by
        intro e
        have := h5 e
        unfold OverlapsIn at this
        simp only
        split <;> omega
      obtain ⟨e1, e2⟩ := ht.lift_eq hw hc h1 (lift_self c) h2 hx hy
      subst e1
      rw [← e2] at h4
      obtain ⟨d, hd⟩ := hoodOf_ne (hH o ho)
      have b1 : (g.idx c d : Int) + o d * g.side c ≤ q d ∧ q d < (g.idx c d : Int) + o d * g.side c + g.side c := h3 d
      have b2 := h4 d
      simp only at b2
      have c1 : (g.side c : Int) * o d < g.side c * 1 := by rw [Int.mul_comm]; omega
      have c2 : (g.side c : Int) * (-1) < g.side c * o d := by rw [Int.mul_comm _ (o d)]; omega
      have c3 := Int.lt_of_mul_lt_mul_left c1 (by omega)
      have c4 := Int.lt_of_mul_lt_mul_left c2 (by omega)
      omega
    · exact a3
  · intro b off d pos
    have hs' := side_pos (g := g) b
    obtain ⟨-, a2, -⟩ := fluxDir_spec (cl := g.side c) (nl := g.side b) (by omega) (by omega) off
    rw [a2]
    constructor
    · rintro ⟨hm, d', pos', e, h1, h2⟩
      obtain ⟨rfl, rfl⟩ := dirOf_inj e
      obtain ⟨o, ho, hm⟩ := List.mem_flatMap.1 hm
      obtain ⟨h3, h4, -⟩ := isItem_block (hf o ho) hm
      exact ⟨h3, h4, h1, h2⟩
    · rintro ⟨hb, h⟩
      refine ⟨?_, d, pos, rfl, h.over, h.next⟩
      obtain ⟨q, h1, h2⟩ := h.facePt
      have hu := hF _ (unitItem_mem d pos)
      obtain ⟨b', off', h3, h4, h5, h6⟩ := isItem_at hw ht hc (hf _ hu) h1.block (inCover_of_box hw (ht.valid b hb) h.lift h2)
      obtain ⟨e1, e2⟩ := ht.lift_eq hw hb h4 h.lift h5 h2 h6
      subst e1
      have : off' = off := by
        funext e
        have e3 : (g.idx c e : Int) + off e = g.idx c e + off' e := congrFun e2 e
        omega
      subst this
      exact List.mem_flatMap.2 ⟨_, hu, h3⟩

/-- What is found from items in a range of neighbors of cell `c`. -/
def facesFound (g : Cfg) (c : Nat) (l : List (Nat × V3 Int)) : List (Nat × Int) :=
  l.filterMap fun y => match fluxDir (g.side c) (g.side y.1) y.2 with
    | .ok (some k) => some (y.1, k)
    | _ => none

theorem mem_facesFound {c : Nat} {l : List (Nat × V3 Int)} {b : Nat} {k : Int} :
    (b, k) ∈ facesFound g c l ↔ ∃ off, (b, off) ∈ l ∧ fluxDir (g.side c) (g.side b) off = .ok (some k) := by
  unfold facesFound
  rw [List.mem_filterMap]
  constructor
  · rintro ⟨⟨b', off⟩, h1, h2⟩
    simp only at h2
    split at h2
    · injection h2 with h2
      obtain ⟨rfl, rfl⟩ := Prod.mk.inj h2
      exact ⟨off, h1, by assumption⟩
    · cases h2
  · rintro ⟨off, h1, h2⟩
    exact ⟨(b, off), h1, by simp only [h2]⟩

/-- Which direction it is. -/
theorem fluxDir_dir {cl nl : Int} (hc : 0 < cl) (hn : 0 < nl) {off : V3 Int} {k : Int}
    (h : fluxDir cl nl off = .ok (some k)) : ∃ d pos, k = dirOf d pos := by
  obtain ⟨d, pos, h, -⟩ := ((fluxDir_spec hc hn off).2.1 k).1 h
  exact ⟨d, pos, h⟩

variable {n : Nat} {D W : Type} {s : Sys n D W} {dflt : D} {maxTag : Nat}

/-- Cell 5 of the sample grid has four smaller face neighbors in negative x direction, each of them has 5 in positive x
direction. They are found from offsets. -/
example : Tiled sampleG sampleE ∧ BalancedFor sampleG sampleE (hoodOf sampleG) ∧
    (∃ l, faceNeighbors sampleG sampleE 5 = .ok l ∧ (29, -1) ∈ l ∧ (11, -2) ∈ l ∧ (11, 2) ∈ l) ∧
    (∃ l, faceNeighbors sampleG sampleE 29 = .ok l ∧ (5, 1) ∈ l) ∧
    (∃ l, findNeighborsOf sampleG sampleE 5 (hoodOf sampleG) = .ok l ∧
      (∀ y ∈ [(29, -1), (41, -1), (77, -1), (89, -1), (6, 1), (11, -2), (11, 2), (17, 3)], y ∈ facesFound sampleG 5 l) ∧
      ∀ y ∈ facesFound sampleG 5 l, y ∈ [(29, -1), (41, -1), (77, -1), (89, -1), (6, 1), (11, -2), (11, 2), ((17 : Nat), (3 : Int))]) := by
  refine ⟨sample_tiled, sample_balanced, ⟨[(29, -1), (41, -1), (77, -1), (89, -1), (6, 1), (11, -2), (11, 2), (17, 3)],
    by decide +kernel, by decide +kernel⟩, ?_, ?_⟩
  · have h : (match faceNeighbors sampleG sampleE 29 with | .ok l => l.contains ((5 : Nat), (1 : Int)) | _ => false) = true := by
      decide +kernel
    split at h
    · exact ⟨_, by assumption, List.contains_iff_mem.1 h⟩
    · cases h
  · have h : (match findNeighborsOf sampleG sampleE 5 (hoodOf sampleG) with
        | .ok l => decide ((∀ y ∈ [(29, -1), (41, -1), (77, -1), (89, -1), (6, 1), (11, -2), (11, 2), (17, 3)],
            y ∈ facesFound sampleG 5 l) ∧
          ∀ y ∈ facesFound sampleG 5 l, y ∈ [(29, -1), (41, -1), (77, -1), (89, -1), (6, 1), (11, -2), (11, 2), ((17 : Nat), (3 : Int))])
        | _ => false) = true := by
      decide +kernel
    split at h
    · exact ⟨_, by assumption, of_decide_eq_true h⟩
    · cases h

/-- C119: on all processes cell `b` is reported as a face neighbor of cell `c` in some direction exactly when `c` is
reported as a face neighbor of `b` in the opposite direction. -/
theorem C119_symmetric (hw : g.WF) (h : Reachable g dflt maxTag s) (i j : Fin n) {c b : Nat} {l l' : List (Nat × Int)}
    (hl : faceNeighbors g (exist (s i).owner) c = .ok l) (hl' : faceNeighbors g (exist (s j).owner) b = .ok l') (k : Int) :
    (b, k) ∈ l ↔ (c, -k) ∈ l' := by
  obtain ⟨w, hi⟩ := h.inv hw (by have := i.2; omega)
  have ht := hi.sys.tiled
  have hb := (balanced_iff hw ht).1 hi.sys.balanced
  rw [hi.sys.owner] at hl hl'
  have key : ∀ {c l}, faceNeighbors g (exist w) c = .ok l → exist w c = true ∧
      ∀ b k, (b, k) ∈ l ↔ exist w b = true ∧ ∃ d pos, k = dirOf d pos ∧ FaceCell g c d pos b := by
    intro c l hl
    have hx := C39_face_neighbors hw ht hb (c := c)
    cases hc : exist w c with
    | false => rw [hx.2 hc] at hl; cases hl
    | true =>
      obtain ⟨l', h1, -, h2⟩ := hx.1 hc
      rw [hl] at h1
      injection h1 with h1
      subst h1
      exact ⟨rfl, h2⟩
  obtain ⟨c1, c2⟩ := key hl
  obtain ⟨b1, b2⟩ := key hl'
  rw [c2, b2]
  constructor
  · rintro ⟨-, d, pos, rfl, h⟩
    exact ⟨c1, d, !pos, (dirOf_not d pos).symm, (faceCell_symm hw ht c1 b1).1 h⟩
  · rintro ⟨-, d, pos, e, h⟩
    exact ⟨b1, d, !pos, by rw [dirOf_not]; omega, (faceCell_symm hw ht b1 c1).1 h⟩

/-- C119: for every cell of iterators of a neighborhood which has the six faces, the way in which the solver of the
advection test uses offsets in `neighbors_of` never aborts and finds exactly the result of `get_face_neighbors_of`,
every neighbor and direction once. -/
theorem C119_offsets (hw : g.WF) (h : Reachable g dflt maxTag s) (i : Fin n) {id : Int} {H : List (V3 Int)}
    (hH : hoodFor g (s i) id = some H) (hF : ∀ o ∈ faces, o ∈ H) :
    ∃ k, updatePointers g i (s i) id = .ok k ∧ ∀ x ∈ range k.cells k.all,
      (∀ y ∈ range k.nbrs x.of, fluxDir (g.side x.id) (g.side y.1) y.2 ≠ .throws) ∧
      ∃ l, faceNeighbors g (exist (s i).owner) x.id = .ok l ∧ (facesFound g x.id (range k.nbrs x.of)).Perm l := by
  obtain ⟨w, hi⟩ := h.inv hw (by have := i.2; omega)
  have ht := hi.sys.tiled
  have hb := (balanced_iff hw ht).1 hi.sys.balanced
  have ho := hi.sys.owner i
  obtain ⟨k, e1, -, -, -, -, e6, e7⟩ := C38_ranges (id := id) hw h i (by rw [hH]; rfl)
  refine ⟨k, e1, fun x hx => ?_⟩
  obtain ⟨e8, -, -⟩ := e7 x hx
  have hc : exist w x.id = true := by
    rcases (e6.2 x.id).1 (List.mem_map.2 ⟨x, hx, rfl⟩) with h1 | h1
    · rw [ho] at h1; exact exist_of h1
    · obtain ⟨⟨j, hj, -⟩, -⟩ := h1
      rw [ho] at hj; exact exist_of hj
  obtain ⟨f, f1, f2, -⟩ := hi.neighborsOf hw hH hc
  have hmem : ∀ y, y ∈ range k.nbrs x.of ↔ y ∈ H.flatMap f := by
    intro y
    rw [e8.of.2 y, f1]
    constructor
    · rintro ⟨l, e, h⟩; injection e with e; rw [e]; exact h
    · intro h; exact ⟨_, rfl, h⟩
  obtain ⟨g1, g2⟩ := fluxDir_item hw ht hc (hoodFor_sub hi hH) hF f2
  refine ⟨?_, ?_⟩
  · rintro ⟨b, off⟩ hy e
    obtain ⟨r, hr⟩ := g1 b off ((hmem _).1 hy)
    rw [hr] at e; cases e
  · obtain ⟨l, l1, l2, l3⟩ := (C39_face_neighbors hw ht hb (c := x.id)).1 hc
    rw [ho]
    refine ⟨l, l1, (List.perm_ext_iff_of_nodup ?_ l2).2 ?_⟩
    · -- each once
      unfold facesFound
      refine List.pairwise_filterMap.2 (e8.of.1.imp_of_mem ?_)
      rintro ⟨b, off⟩ ⟨b', off'⟩ hy hy' hne z hz z' hz' e
      subst e
      apply hne
      simp only at hz hz'
      split at hz
      · rename_i k1 hk1
        split at hz'
        · rename_i k2 hk2
          injection hz with hz
          injection hz' with hz'
          subst hz
          obtain ⟨rfl, rfl⟩ := Prod.mk.inj hz'
          have hs := side_pos (g := g) x.id
          have hs' := side_pos (g := g) b'
          obtain ⟨d, pos, rfl⟩ := fluxDir_dir (by omega) (by omega) hk1
          have t1 := (g2 b' off d pos).1 ⟨(hmem _).1 hy, hk1⟩
          have t2 := (g2 b' off' d pos).1 ⟨(hmem _).1 hy', hk2⟩
          rw [t1.2.unique hw (ht.valid _ hc) (ht.valid _ t1.1) t2.2]
        · cases hz'
      · cases hz
    · rintro ⟨b, k'⟩
      rw [mem_facesFound, l3]
      constructor
      · rintro ⟨off, h1, h2⟩
        have hs := side_pos (g := g) x.id
        have hs' := side_pos (g := g) b
        obtain ⟨d, pos, rfl⟩ := fluxDir_dir (by omega) (by omega) h2
        have t1 := (g2 b off d pos).1 ⟨(hmem _).1 h1, h2⟩
        exact ⟨t1.1, d, pos, rfl, (faceCell_iff_touch hw ht hc t1.1).2 ⟨off, t1.2⟩⟩
      · rintro ⟨h1, d, pos, rfl, h2⟩
        obtain ⟨off, h3⟩ := (faceCell_iff_touch hw ht hc h1).1 h2
        have := (g2 b off d pos).2 ⟨h1, h3⟩
        exact ⟨off, (hmem _).2 this.1, this.2⟩

/-! ## Sums over faces -/

theorem sum_perm {l l' : List Rat} (h : l.Perm l') : l.sum = l'.sum := by
  induction h with
  | nil => rfl
  | cons x _ ih => rw [List.sum_cons, List.sum_cons, ih]
  | swap x y l => simp only [List.sum_cons]; grind
  | trans _ _ ih1 ih2 => exact ih1.trans ih2

theorem sum_map_neg {α : Type} (f : α → Rat) (l : List α) : (l.map fun x => -f x).sum = -(l.map f).sum := by
  induction l with
  | nil => simp
  | cons a l ih => simp only [List.map_cons, List.sum_cons, ih]; grind

/-- Terms which change sign when places are exchanged sum up to zero. -/
theorem sum_antisymm {α : Type} [DecidableEq α] {l : List α} (hn : l.Nodup) {r : α → α} (hr : ∀ x, r (r x) = x)
    (hm : ∀ x ∈ l, r x ∈ l) {F : α → Rat} (hF : ∀ x ∈ l, F (r x) = -F x) : (l.map F).sum = 0 := by
  have hp : (l.map r).Perm l := by
    refine (List.perm_ext_iff_of_nodup ?_ hn).2 fun x => ?_
    · exact List.Pairwise.map _ (fun a b h e => h (by rw [← hr a, ← hr b, e])) hn
    · rw [List.mem_map]
      exact ⟨fun ⟨y, hy, e⟩ => e ▸ hm y hy, fun h => ⟨r x, hm x h, hr x⟩⟩
  have h1 := sum_perm (hp.map F)
  have h2 : ((l.map r).map F).sum = -(l.map F).sum := by
    rw [List.map_map, ← sum_map_neg]
    congr 1
    exact List.map_congr_left hF
  grind

theorem sum_flatMap {α : Type} (f : α → List Rat) (l : List α) : (l.flatMap f).sum = (l.map fun x => (f x).sum).sum := by
  induction l with
  | nil => rfl
  | cons a l ih => rw [List.flatMap_cons, List.sum_append, ih, List.map_cons, List.sum_cons]

/-- Faces of local cells on all processes, as the cell, its neighbor and direction. -/
def allFaces (cells : Fin n → List Nat) (F : Fin n → Nat → List (Nat × Int)) : List (Nat × Nat × Int) :=
  (List.finRange n).flatMap fun i => (cells i).flatMap fun c => (F i c).map fun y => (c, y.1, y.2)

theorem sum_allFaces (cells : Fin n → List Nat) (F : Fin n → Nat → List (Nat × Int)) (V : Nat → Nat → Int → Rat) :
    ((allFaces cells F).map fun x => V x.1 x.2.1 x.2.2).sum =
      ((List.finRange n).map fun i => ((cells i).map fun c => ((F i c).map fun y => V c y.1 y.2).sum).sum).sum := by
  unfold allFaces
  rw [List.map_flatMap, sum_flatMap]
  congr 1
  refine List.map_congr_left fun i _ => ?_
  rw [List.map_flatMap, sum_flatMap]
  congr 1
  refine List.map_congr_left fun c _ => ?_
  rw [List.map_map]
  rfl

/-- All faces are there once and in both directions. -/
theorem allFaces_spec (hw : g.WF) {w : Owner n} (hi : Inv g w s) {cells : Fin n → List Nat}
    (hcells : ∀ i, (cells i).Nodup ∧ ∀ c, c ∈ cells i ↔ w c = some i) {F : Fin n → Nat → List (Nat × Int)}
    (hF : ∀ i, ∀ c ∈ cells i, ∃ l, faceNeighbors g (exist w) c = .ok l ∧ (F i c).Perm l) :
    (allFaces cells F).Nodup ∧ ∀ c b k, (c, b, k) ∈ allFaces cells F ↔ exist w c = true ∧ exist w b = true ∧
      ∃ d pos, k = dirOf d pos ∧ FaceCell g c d pos b := by
  have ht := hi.sys.tiled
  have hb := (balanced_iff hw ht).1 hi.sys.balanced
  have hex : ∀ i, ∀ c ∈ cells i, exist w c = true := fun i c hc => exist_of (((hcells i).2 c).1 hc)
  have hl : ∀ i, ∀ c ∈ cells i, (F i c).Nodup ∧ ∀ b k, (b, k) ∈ F i c ↔ exist w b = true ∧
      ∃ d pos, k = dirOf d pos ∧ FaceCell g c d pos b := by
    intro i c hc
    obtain ⟨l, l1, l2⟩ := hF i c hc
    obtain ⟨l', l3, l4, l5⟩ := (C39_face_neighbors hw ht hb (c := c)).1 (hex i c hc)
    rw [l1] at l3
    injection l3 with l3
    subst l3
    exact ⟨l2.nodup_iff.2 l4, fun b k => (l2.mem_iff).trans (l5 b k)⟩
  constructor
  · apply flatMap_nodup (List.nodup_finRange n)
    · intro i _
      apply flatMap_nodup (hcells i).1
      · intro c hc
        exact List.Pairwise.map _ (fun a b h e => h (by injection e with _ e))
          (hl i c hc).1
      · intro c _ c' _ x h1 h2
        obtain ⟨_, -, e1⟩ := List.mem_map.1 h1
        obtain ⟨_, -, e2⟩ := List.mem_map.1 h2
        rw [← e1] at e2
        injection e2 with e2
        exact e2.symm
    · intro i _ j _ x h1 h2
      obtain ⟨c, hc, h1⟩ := List.mem_flatMap.1 h1
      obtain ⟨c', hc', h2⟩ := List.mem_flatMap.1 h2
      obtain ⟨_, -, e1⟩ := List.mem_map.1 h1
      obtain ⟨_, -, e2⟩ := List.mem_map.1 h2
      rw [← e1] at e2
      injection e2 with e2
      subst e2
      have a := ((hcells i).2 _).1 hc
      rw [((hcells j).2 _).1 hc'] at a
      injection a with a
      exact a.symm
  · intro c b k
    unfold allFaces
    constructor
    · intro h
      obtain ⟨i, -, h⟩ := List.mem_flatMap.1 h
      obtain ⟨c', hc, h⟩ := List.mem_flatMap.1 h
      obtain ⟨⟨b', k'⟩, h1, e⟩ := List.mem_map.1 h
      injection e with e1 e2
      injection e2 with e2 e3
      simp only at e2 e3
      subst e1 e2 e3
      exact ⟨hex i _ hc, ((hl i _ hc).2 b' k').1 h1⟩
    · rintro ⟨h1, h2⟩
      obtain ⟨i, hw'⟩ := Option.isSome_iff_exists.1 h1
      have hc := ((hcells i).2 c).2 hw'
      refine List.mem_flatMap.2 ⟨i, List.mem_finRange i, List.mem_flatMap.2 ⟨c, hc, List.mem_map.2 ⟨(b, k), ?_, rfl⟩⟩⟩
      exact ((hl i c hc).2 b k).2 h2

/-- A face seen from the other side. -/
def otherSide (x : Nat × Nat × Int) : Nat × Nat × Int := (x.2.1, x.1, -x.2.2)

theorem otherSide_otherSide (x : Nat × Nat × Int) : otherSide (otherSide x) = x := by
  unfold otherSide; simp

theorem otherSide_mem (hw : g.WF) {w : Owner n} (hi : Inv g w s) {l : List (Nat × Nat × Int)}
    (hl : ∀ c b k, (c, b, k) ∈ l ↔ exist w c = true ∧ exist w b = true ∧ ∃ d pos, k = dirOf d pos ∧ FaceCell g c d pos b)
    (x : Nat × Nat × Int) (hx : x ∈ l) : otherSide x ∈ l := by
  obtain ⟨c, b, k⟩ := x
  obtain ⟨h1, h2, d, pos, rfl, h3⟩ := (hl c b k).1 hx
  exact (hl _ _ _).2 ⟨h2, h1, d, !pos, (dirOf_not d pos).symm, (faceCell_symm hw hi.sys.tiled h1 h2).1 h3⟩

/-- C119: what is lost through one face is gained through another: if the amount which goes from a cell to its face
neighbor is minus the amount which goes from the neighbor to the cell, the sum of amounts over all faces of all local
cells of all processes is zero. -/
theorem C119_fluxes_cancel (hw : g.WF) (h : Reachable g dflt maxTag s) (hn : 0 < n) {V : Nat → Nat → Int → Rat}
    (hV : ∀ c b k, V b c (-k) = -V c b k) :
    ∃ F : Fin n → Nat → List (Nat × Int),
      (∀ i, ∀ c ∈ getCells g i (s i) [] false defaultId false, faceNeighbors g (exist (s i).owner) c = .ok (F i c)) ∧
      ((List.finRange n).map fun i => ((getCells g i (s i) [] false defaultId false).map fun c =>
        ((F i c).map fun y => V c y.1 y.2).sum).sum).sum = 0 := by
  obtain ⟨w, hi⟩ := h.inv hw hn
  have ht := hi.sys.tiled
  have hb := (balanced_iff hw ht).1 hi.sys.balanced
  have hcells : ∀ i, (getCells g i (s i) [] false defaultId false).Nodup ∧
      ∀ c, c ∈ getCells g i (s i) [] false defaultId false ↔ w c = some i := by
    intro i
    obtain ⟨h1, h2⟩ := C37_get_cells (id := defaultId) hw h i [] false
    refine ⟨(h1 false).1, fun c => ?_⟩
    rw [(h2 (by rw [hoodFor, if_pos rfl]; rfl) c).1 false rfl, hi.sys.owner]
  have hF : ∀ i, ∀ c ∈ getCells g i (s i) [] false defaultId false, ∃ l, faceNeighbors g (exist w) c = .ok l := by
    intro i c hc
    obtain ⟨l, l1, -⟩ := (C39_face_neighbors hw ht hb (c := c)).1 (exist_of (((hcells i).2 c).1 hc))
    exact ⟨l, l1⟩
  refine ⟨fun _ c => match faceNeighbors g (exist w) c with | .ok l => l | _ => [], ?_, ?_⟩
  · intro i c hc
    obtain ⟨l, hl⟩ := hF i c hc
    rw [hi.sys.owner]
    simp only [hl]
  · rw [← sum_allFaces]
    obtain ⟨a1, a2⟩ := allFaces_spec hw hi hcells (F := fun _ c => match faceNeighbors g (exist w) c with | .ok l => l | _ => [])
      (fun i c hc => by obtain ⟨l, hl⟩ := hF i c hc; exact ⟨l, hl, by simp only [hl, List.Perm.refl]⟩)
    exact sum_antisymm a1 otherSide_otherSide (otherSide_mem hw hi a2) fun x _ => hV _ _ _

/-- The demo: cells 1 and 2 on different processes are face neighbors of each other, iterators can be created. -/
example : ∃ s : Sys 2 Nat Nat, Reachable tinyG 0 146 s ∧ (s 0).owner 1 = some 0 ∧ (s 0).owner 2 = some 1 ∧
    (∃ l, faceNeighbors tinyG (exist (s 0).owner) 1 = .ok l ∧ (2, 1) ∈ l) ∧
    (∃ l, faceNeighbors tinyG (exist (s 1).owner) 2 = .ok l ∧ (1, -1) ∈ l) ∧
    hoodFor tinyG (s 0) defaultId = some (hoodOf tinyG) ∧ (∀ o ∈ faces, o ∈ hoodOf tinyG) := by
  obtain ⟨s, -, h2, h3, -, -, -, h4, h5⟩ := tiny_init
  have ho : ∀ i, (s i).owner = (createLevel0 2 2).2 := h3.sys.owner
  refine ⟨s, h2, by rw [ho]; exact h4, by rw [ho]; exact h5, ?_, ?_, if_pos rfl, fun o h => faces_sub_hoodOf h⟩
  · rw [ho]; exact ⟨_, rfl, by decide +kernel⟩
  · rw [ho]; exact ⟨_, rfl, by decide +kernel⟩

end Dccrg
