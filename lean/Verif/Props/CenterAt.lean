import Verif.Props.Geometry
/-!
# C58: center of a cell given by refinement level and indices
-/
namespace Dccrg
open Cfg
section
variable {m : Mapping} {G : Cartesian}

theorem getCenterAt_some (h : m.OK) {l : Int} (hl : 0 ≤ l ∧ l ≤ m.maxLvl) {p : V3 Nat}
    (hp : ∀ d, p d ≤ m.cfg.n d) (d : Fin 3) : G.getCenterAt m l p d =
      some (G.pos m d (p d) + G.len d / ((2 ^ l.toNat : Nat) : Rat) / 2) := by
  unfold Cartesian.getCenterAt
  rw [if_neg (by omega), if_neg (by
    simp only [Mapping.nIdx_eq h]
    have h0 := hp 0
    have h1 := hp 1
    have h2 := hp 2
    omega)]
  rw [scale_max h, scale_eq h hl.2, Cartesian.getStart_eq]
  refine (congrFun (v3_of fun d => some (G.start d + (p d : Rat) * G.len d * (1 / ((2 ^ m.cfg.maxLvl : Nat) : Rat)) +
    G.len d * (1 / ((2 ^ l.toNat : Nat) : Rat) / 2))) d).trans ?_
  show some _ = some _
  congr 1
  unfold Cartesian.pos
  have h2 := pow_cast_pos l.toNat
  have h3 := pow_cast_pos m.cfg.maxLvl
  generalize ((2 ^ l.toNat : Nat) : Rat) = L at *
  generalize ((2 ^ m.cfg.maxLvl : Nat) : Rat) = M at *
  grind

/-- C58, the part that holds: with the indices and level of a cell the result is the center of the cell, and with a
wrong level or indices beyond the end of the grid the result is NaN. Missing: indices inside of the cell other than
its own and indices equal to the length of the grid, see `C58_false`. -/
theorem C58_center_at_partial (h : m.OK) :
    (∀ c, m.ValidId c → G.getCenterAt m (m.getLevel c) (m.getIndices c) = G.getCenter m c) ∧
    (∀ l p, ¬ (0 ≤ l ∧ l ≤ m.maxLvl) → ∀ d, G.getCenterAt m l p d = none) ∧
    (∀ l p, (∃ d, m.len d * 2 ^ m.maxLvl.toNat < p d) → ∀ d, G.getCenterAt m l p d = none) := by
  refine ⟨fun c hc => ?_, fun l p hl d => ?_, fun l p hp d => ?_⟩
  · have hv := (Mapping.validId_iff h).1 hc
    funext d
    obtain ⟨r1, r2, -⟩ := Mapping.C01_id_roundtrip h hc
    rw [getCenterAt_some h ⟨r1, r2⟩ (fun d => ?_), Cartesian.getCenter_eq h, if_pos hv, Mapping.getLevel_eq h, if_pos hv,
      Mapping.getIndices_eq h, if_pos hv]
    · rfl
    · rw [Mapping.getIndices_eq h, if_pos hv]
      exact Nat.le_of_lt (idx_inGrid h.wf hv d)
  · unfold Cartesian.getCenterAt
    rw [if_pos (by omega)]
  · unfold Cartesian.getCenterAt
    split
    · rfl
    · rw [if_pos]
      simp only [Mapping.nIdx_eq h]
      obtain ⟨d', hd'⟩ := hp
      match d' with
      | 0 => exact .inl hd'
      | 1 => exact .inr (.inl hd')
      | 2 => exact .inr (.inr hd')

/-- C58 for `No_Geometry`. Missing as in `C58_center_at_partial`. -/
theorem C58_no_geometry_partial (h : m.OK) :
    (∀ c, m.ValidId c → NoGeometry.getCenterAt m (m.getLevel c) (m.getIndices c) = NoGeometry.getCenter m c) ∧
    (∀ l p, ¬ (0 ≤ l ∧ l ≤ m.maxLvl) → ∀ d, NoGeometry.getCenterAt m l p d = none) ∧
    (∀ l p, (∃ d, m.len d * 2 ^ m.maxLvl.toNat < p d) → ∀ d, NoGeometry.getCenterAt m l p d = none) := by
  simp only [NoGeometry.getCenterAt_eq, NoGeometry.getCenter_eq]
  exact C58_center_at_partial h

/-- C58 for `Stretched_Cartesian_Geometry`, with no exceptions. -/
theorem C58_stretched (h : m.OK) (G : Stretched) (l : Int) (p : V3 Nat) :
    (m.InsideGrid p ∧ 0 ≤ l ∧ l ≤ m.maxLvl → ∀ c, m.ValidId c → m.getLevel c = l → m.Inside p c →
      G.getCenterAt m l p = G.getCenter m c) ∧
    (¬ (m.InsideGrid p ∧ 0 ≤ l ∧ l ≤ m.maxLvl) → ∀ d, G.getCenterAt m l p d = none) := by
  unfold Stretched.getCenterAt
  constructor
  · rintro ⟨h1, h2, h3⟩ c hc hcl hp
    rw [(Mapping.C02_index_roundtrip h h1 h2 h3).2.2.2.2.2 c hc hcl hp]
  · intro hn d
    rw [(Mapping.C03_cell_error_iff h p l).2 hn, Stretched.getCenter_eq h, if_neg]
    intro hv
    exact absurd hv.1 (by decide)

/-- C58 is false as stated for `Cartesian_Geometry`: indices in the last cell give a center that is not that of the
cell, and indices at the end of the grid, where there is no cell, give numbers instead of NaN. -/
theorem C58_false : ∃ (m : Mapping) (G : Cartesian), m.OK ∧ (∀ d, 0 < G.len d) ∧
    (∃ p, m.cellFromIndices p 0 = 2 ∧ ∃ d, G.getCenterAt m 0 p d ≠ G.getCenter m 2 d) ∧
    (∃ p, m.cellFromIndices p 0 = errorCell ∧ ∀ d, G.getCenterAt m 0 p d ≠ none) := by
  refine ⟨tinyM, tinyCart, tinyM_ok, tinyCart_ok, ⟨v3 5 0 0, by decide +kernel, 0, ?_⟩,
    ⟨v3 8 0 0, by decide +kernel, ?_⟩⟩
  · decide +kernel
  · rw [forall_fin3]
    decide +kernel

example : tinyM.OK ∧ tinyM.ValidId 7 ∧ tinyCart.getCenterAt tinyM 1 (tinyM.getIndices 7) 1 = some (9 / 4) :=
  ⟨tinyM_ok, by decide, by decide +kernel⟩

end
end Dccrg
