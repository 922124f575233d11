import Verif.StretchedDoubleExact
/-!
# Exact results of `Stretched_Cartesian_Geometry`
-/
namespace Dccrg
open Cfg

namespace BinDim
variable {M k B : Nat} {a l : Rat} {A : Int} (h : BinDim M 1 a l k A B)
include h

/-- Length of a level 0 cell from `a` to `a + l`. -/
theorem sub_len : (Val.fin (a + l)).sub (.fin a) = .fin l := by
  rw [Val.sub_fin, show a + l - a = l by grind]
  have e := h.length (j := 0) (Nat.zero_le _)
  rw [Val.mul_fin] at e
  have e1 : l * (1 / ((2 ^ 0 : Nat) : Rat)) = l := by
    have : ((2 ^ 0 : Nat) : Rat) = 1 := rfl
    rw [this]; grind
  have e2 : l / ((2 ^ 0 : Nat) : Rat) = l := by
    have : ((2 ^ 0 : Nat) : Rat) = 1 := rfl
    rw [this]; grind
  rw [e1, e2] at e
  exact e

theorem div_part {j : Nat} (hj : j ≤ M) : (Val.fin l).div (.fin ((2 ^ j : Nat) : Rat)) = .fin (l / ((2 ^ j : Nat) : Rat)) := by
  have e := h.length hj
  have hp := pow_pos' j
  rw [Val.mul_fin] at e
  rw [Val.div_fin (by grind), ← e]
  congr 1
  grind

/-- Position of an index of the level 0 cell. -/
theorem offset {r : Nat} (hr : r ≤ 2 ^ M) :
    (Val.fin a).add ((Val.fin (l / ((2 ^ M : Nat) : Rat))).mul (.ofNat r)) = .fin (a + l / ((2 ^ M : Nat) : Rat) * (r : Rat)) ∧
    (Val.fin a).add ((Val.ofNat r).mul (.fin (l / ((2 ^ M : Nat) : Rat)))) = .fin (a + l / ((2 ^ M : Nat) : Rat) * (r : Rat)) := by
  have hr' : r ≤ 1 * 2 ^ M := by omega
  have hp := pow_pos' M
  have e1 : (r : Rat) * l / ((2 ^ M : Nat) : Rat) = l / ((2 ^ M : Nat) : Rat) * (r : Rat) := by grind
  have e2 : (r : Rat) * (l / ((2 ^ M : Nat) : Rat)) = l / ((2 ^ M : Nat) : Rat) * (r : Rat) := by grind
  have e3 := h.idx_div hr'
  have e4 := h.at_idx hr'
  rw [Val.div_fin (by grind), e1] at e3
  rw [e1] at e4
  rw [ofNat_exact (Nat.le_trans (h.idx_le hr') (by decide)), Val.mul_fin, Val.mul_fin, e2, e3, e4]
  exact ⟨rfl, rfl⟩

end BinDim

namespace Stretched
variable {m : Mapping} {per : V3 Bool} {G : Stretched} {k : V3 Nat}

/-- All level 0 cells are exact. -/
def BinGrid (G : Stretched) (m : Mapping) (k : V3 Nat) : Prop :=
  ∀ d i, i < m.len d → ∃ A B, BinDim m.cfg.maxLvl 1 (G.coord d i) (G.coord d (i + 1) - G.coord d i) (k d) A B

theorem coord_sub (G : Stretched) (d : Fin 3) (i : Nat) : G.coord d (i + 1) = G.coord d i + (G.coord d (i + 1) - G.coord d i) := by
  grind

theorem bin_sub (hb : G.BinGrid m k) {d : Fin 3} {i : Nat} (hi : i < m.len d) :
    (Val.fin (G.coord d (i + 1))).sub (.fin (G.coord d i)) = .fin (G.coord d (i + 1) - G.coord d i) := by
  obtain ⟨A, B, hd⟩ := hb d i hi
  have := hd.sub_len
  rw [← coord_sub] at this
  exact this

theorem bin_length (h : m.OK) (hG : G.Ok m) (hb : G.BinGrid m k) (c : Nat) (d : Fin 3) :
    G.toD.getLength m c d = (G.getLength m c d).val := by
  rw [StretchedD.getLength_eq h, getLength_eq h]
  by_cases hv : m.cfg.Valid c
  · have hq := idx_div_lt h hv d
    rw [if_pos hv, if_pos hv, toD_coord hG (by omega), toD_coord hG (by omega), bin_sub hb hq]
    obtain ⟨A, B, hd⟩ := hb d _ hq
    exact hd.div_part (lvl_le hv)
  · rw [if_neg hv, if_neg hv]; rfl

theorem bin_center (h : m.OK) (hG : G.Ok m) (hb : G.BinGrid m k) (c : Nat) (d : Fin 3) :
    G.toD.getCenter m c d = (G.getCenter m c d).val := by
  rw [StretchedD.getCenter_eq h, getCenter_eq h]
  by_cases hv : m.cfg.Valid c
  · have hq := idx_div_lt h hv d
    rw [if_pos hv, if_pos hv, toD_coord hG (by omega), toD_coord hG (by omega), bin_sub hb hq]
    obtain ⟨A, B, hd⟩ := hb d _ hq
    have hr : m.cfg.idx c d % 2 ^ m.cfg.maxLvl ≤ 2 ^ m.cfg.maxLvl := Nat.le_of_lt (Nat.mod_lt _ (Nat.pow_pos (by omega)))
    rw [hd.div_part (Nat.le_refl _), hd.div_part (lvl_le hv), (hd.offset hr).1, hd.half (lvl_le hv)]
    have e := hd.center (p := m.cfg.idx c d % 2 ^ m.cfg.maxLvl) (by omega) (lvl_le hv)
    have e1 : ((m.cfg.idx c d % 2 ^ m.cfg.maxLvl : Nat) : Rat) * (G.coord d (m.cfg.idx c d / 2 ^ m.cfg.maxLvl + 1) -
        G.coord d (m.cfg.idx c d / 2 ^ m.cfg.maxLvl)) / ((2 ^ m.cfg.maxLvl : Nat) : Rat) =
        (G.coord d (m.cfg.idx c d / 2 ^ m.cfg.maxLvl + 1) -
        G.coord d (m.cfg.idx c d / 2 ^ m.cfg.maxLvl)) / ((2 ^ m.cfg.maxLvl : Nat) : Rat) *
        ((m.cfg.idx c d % 2 ^ m.cfg.maxLvl : Nat) : Rat) := by grind
    rw [e1] at e
    exact e
  · rw [if_neg hv, if_neg hv]; rfl

theorem bin_min_max (h : m.OK) (hG : G.Ok m) (hb : G.BinGrid m k) (c : Nat) (d : Fin 3) :
    G.toD.getMin m c d = (G.getMin m c d).val ∧ G.toD.getMax m c d = (G.getMax m c d).val := by
  unfold StretchedD.getMin StretchedD.getMax getMin getMax
  rw [bin_center h hG hb, bin_length h hG hb, getCenter_eq h, getLength_eq h]
  by_cases hv : m.cfg.Valid c
  · have hq := idx_div_lt h hv d
    obtain ⟨A, B, hd⟩ := hb d _ hq
    rw [if_pos hv, if_pos hv]
    show Val.sub (.fin _) (Val.div (.fin _) _) = .fin _ ∧ Val.add (.fin _) (Val.div (.fin _) _) = .fin _
    rw [hd.half (lvl_le hv)]
    have hr : m.cfg.idx c d % 2 ^ m.cfg.maxLvl ≤ 2 ^ m.cfg.maxLvl := Nat.le_of_lt (Nat.mod_lt _ (Nat.pow_pos (by omega)))
    have e := hd.center_half (p := m.cfg.idx c d % 2 ^ m.cfg.maxLvl) (by omega) (lvl_le hv)
    simp only [] at e
    have e1 : ((m.cfg.idx c d % 2 ^ m.cfg.maxLvl : Nat) : Rat) * (G.coord d (m.cfg.idx c d / 2 ^ m.cfg.maxLvl + 1) -
        G.coord d (m.cfg.idx c d / 2 ^ m.cfg.maxLvl)) / ((2 ^ m.cfg.maxLvl : Nat) : Rat) =
        (G.coord d (m.cfg.idx c d / 2 ^ m.cfg.maxLvl + 1) -
        G.coord d (m.cfg.idx c d / 2 ^ m.cfg.maxLvl)) / ((2 ^ m.cfg.maxLvl : Nat) : Rat) *
        ((m.cfg.idx c d % 2 ^ m.cfg.maxLvl : Nat) : Rat) := by grind
    rw [e1] at e
    exact ⟨e.2, e.1⟩
  · rw [if_neg hv, if_neg hv]; exact ⟨rfl, rfl⟩

/-- Result of an exact location in `double`. -/
def _root_.Dccrg.Loc.res : Loc → Res Nat
  | .outside => .ok errorIndex
  | .at p => .ok p
  | .undefined => .undefined

/-- The exact value of a `double`, if it is finite. -/
def _root_.Dccrg.Val.num : Val → Num
  | .fin x => some x
  | _ => none

theorem bin_locate (h : m.OK) (hG : G.Ok m) (hb : G.BinGrid m k) (d : Fin 3) (v : Val) :
    G.toD.locate m d v = (G.locate m d v.num).res := by
  by_cases hv : ∀ x, v = .fin x → x < G.getStart d ∨ G.getEnd m d < x
  · rw [toD_locate_outside hG hv, locate_outside]
    · rfl
    · intro y hy
      cases v with
      | nan => cases hy
      | inf s => cases hy
      | fin x => injection hy with hy; subst hy; exact hv x rfl
  · obtain ⟨x, rfl, hx⟩ : ∃ x, v = .fin x ∧ ¬ (x < G.getStart d ∨ G.getEnd m d < x) := by
      apply Classical.byContradiction
      intro hn
      exact hv fun x hx => Classical.byContradiction fun h => hn ⟨x, hx, h⟩
    show _ = (G.locate m d (some x)).res
    by_cases hs : x = G.getStart d
    · subst hs
      rw [toD_locate_start h hG, locate_start h hG]; rfl
    · have h1 : G.getStart d < x := by grind
      have h2 : x ≤ G.getEnd m d := by grind
      obtain ⟨i, hi, j2, j3, j4⟩ := locate_cell hG h1 h2
      obtain ⟨A, B, hd⟩ := hb d _ hi
      have hstep := hd.div_part (Nat.le_refl _)
      rw [← bin_sub hb hi] at hstep
      obtain ⟨p, e1, e2, e3, e4⟩ := locate_at h hG h1 h2
      rw [e1]
      -- the exact loop
      unfold locate at e1
      simp only [] at e1
      rw [if_pos ⟨Rat.le_of_lt h1, h2⟩, j2] at e1
      simp only [] at e1
      rw [scale_max h, show m.maxLvl.toNat = m.cfg.maxLvl from rfl, Mapping.shl_eq h (Nat.le_refl _)] at e1
      have hM : 2 ^ m.cfg.maxLvl < W := by
        have hW : m.cfg.n d < W := (Mapping.lens_lt h (Nat.le_refl _)).1 d
        have : 1 * 2 ^ m.cfg.maxLvl ≤ m.len d * 2 ^ m.cfg.maxLvl := Nat.mul_le_mul_right _ (h.pos d)
        have : m.cfg.n d = m.len d * 2 ^ m.cfg.maxLvl := rfl
        omega
      rcases skipOffsets_spec (a := G.coord d i)
        (h := (G.coord d (i + 1) - G.coord d i) / ((2 ^ m.cfg.maxLvl : Nat) : Rat)) (x := x)
        (2 ^ m.cfg.maxLvl) 0 with ⟨f1, f2⟩ | ⟨j, f1, f2, f3, f4⟩
      · rw [f1] at e1; cases e1
      · rw [f2] at e1
        simp only [Nat.zero_add] at e1 f3 f4
        rw [wmul_eq (by
          have hW : m.cfg.n d < W := (Mapping.lens_lt h (Nat.le_refl _)).1 d
          have : i * 2 ^ m.cfg.maxLvl ≤ m.len d * 2 ^ m.cfg.maxLvl := Nat.mul_le_mul_right _ (by omega)
          have : m.cfg.n d = m.len d * 2 ^ m.cfg.maxLvl := rfl
          omega)] at e1
        have key : ∀ r, r ≤ 2 ^ m.cfg.maxLvl → (((Val.fin (G.coord d i)).add ((Val.ofNat r).mul
            (.fin ((G.coord d (i + 1) - G.coord d i) / ((2 ^ m.cfg.maxLvl : Nat) : Rat))))).lt (.fin x) ↔
            G.coord d i + (r : Rat) * ((G.coord d (i + 1) - G.coord d i) / ((2 ^ m.cfg.maxLvl : Nat) : Rat)) < x) := by
          intro r hr
          rw [(hd.offset hr).2]
          show _ + _ < x ↔ _
          rw [show ∀ u v w : Rat, u + v * w = u + w * v from fun u v w => by grind]
        rw [toD_locate_at h hG hi j3 j4 hstep (j := j) (Nat.lt_of_le_of_lt f1 hM)
          (fun r hr => (key r (by omega)).2 (f3 r hr)) (fun hn => f4 ((key j f1).1 hn))]
        replace e1 := Loc.at.inj e1
        show Res.ok _ = Res.ok _
        rw [e1]

theorem bin_indices (h : m.OK) (hG : G.Ok m) (hb : G.BinGrid m k) (x : V3 Val) :
    G.toD.getIndices m x = (G.getIndices m (fun d => (x d).num) 0).res.bind fun a =>
      (G.getIndices m (fun d => (x d).num) 1).res.bind fun b =>
      (G.getIndices m (fun d => (x d).num) 2).res.bind fun c => .ok (v3 a b c) := by
  unfold StretchedD.getIndices
  rw [bin_locate h hG hb, bin_locate h hG hb, bin_locate h hG hb]
  rfl

theorem bin_cell (h : m.OK) (hG : G.Ok m) (hb : G.BinGrid m k) (l : Int) (x : V3 Val) :
    G.toD.getCell m l x = match G.getCell m l (fun d => (x d).num) with
      | some c => .ok c
      | none => .undefined := by
  unfold StretchedD.getCell getCell
  rw [bin_indices h hG hb]
  generalize G.getIndices m (fun d => (x d).num) = p
  simp only []
  by_cases hl : l < 0 ∨ l > m.maxLvl
  · rw [if_pos hl, if_pos hl]
  · rw [if_neg hl, if_neg hl]
    cases h0 : p 0 <;> cases h1 : p 1 <;> cases h2 : p 2 <;> simp [Loc.res, Res.bind] <;>
      (congr 1; refine v3_ext ?_ ?_ ?_ <;> simp [h0, h1, h2, v3_0, v3_1, v3_2])

end Stretched
end Dccrg
