import Verif.Word
/-!
# Cell numbering over natural numbers

The pure (unbounded) version of `Mapping`. `Verif.Mapping64` models the C++ code with 64-bit
arithmetic and `Verif.MappingProofs` shows that both coincide when ids fit into 64 bits.
-/
namespace Dccrg

/-- Configuration of a grid: `Mapping::length_rw`, `Mapping::max_refinement_level`
(dccrg_mapping.hpp:58-70, 660-668), `Grid_Topology::periodic` (dccrg_topology.hpp:60-100) and
`Dccrg::neighborhood_length` (dccrg.hpp:8292-8330). -/
structure Cfg where
  len : V3 Nat
  maxLvl : Nat
  periodic : V3 Bool
  hood : Nat

namespace Cfg
variable (g : Cfg)

/-- Grid lengths are positive (Grid_Length::set, dccrg_length.hpp:95-134). -/
def WF : Prop := ∀ d, 0 < g.len d

/-- Number of level 0 cells (dccrg_mapping.hpp:679-682). -/
def total : Nat := g.len 0 * g.len 1 * g.len 2

/-- Number of cells of levels smaller than `l` (loop in dccrg_mapping.hpp:180-186). -/
def base : Nat → Nat
  | 0 => 0
  | l + 1 => base l + g.total * 8 ^ l

/-- `get_last_cell` (dccrg_mapping.hpp:500, 679-687). -/
def last : Nat := g.base (g.maxLvl + 1)

/-- Length of the grid in smallest-cell indices. -/
def n (d : Fin 3) : Nat := g.len d * 2 ^ g.maxLvl

/-- A cell id is valid: neither `error_cell` nor beyond the last cell. -/
def Valid (c : Nat) : Prop := 1 ≤ c ∧ c ≤ g.last

instance (c : Nat) : Decidable (g.Valid c) := inferInstanceAs (Decidable (_ ∧ _))

/-- Level search loop (dccrg_mapping.hpp:268-283), first argument counts remaining levels. -/
def lvlFrom (c : Nat) : Nat → Nat → Nat
  | 0, l => l
  | f + 1, l => if c ≤ g.base (l + 1) then l else lvlFrom c f (l + 1)

/-- `get_refinement_level` of a valid cell (dccrg_mapping.hpp:262-290). -/
def lvl (c : Nat) : Nat := g.lvlFrom c g.maxLvl 0

/-- `get_cell_length_in_indices` of a valid cell (dccrg_mapping.hpp:298-311). -/
def side (c : Nat) : Nat := 2 ^ (g.maxLvl - g.lvl c)

/-- `get_indices` of a valid cell (dccrg_mapping.hpp:218-254). -/
def idx (c : Nat) : V3 Nat :=
  let l := g.lvl c
  let r := c - 1 - g.base l
  v3 (r % (g.len 0 * 2 ^ l) * 2 ^ (g.maxLvl - l))
     (r / (g.len 0 * 2 ^ l) % (g.len 1 * 2 ^ l) * 2 ^ (g.maxLvl - l))
     (r / (g.len 0 * g.len 1 * 2 ^ (2 * l)) * 2 ^ (g.maxLvl - l))

/-- `get_cell_from_indices` for in-grid indices and valid level (dccrg_mapping.hpp:154-209). -/
def cellAt (l : Nat) (p : V3 Nat) : Nat :=
  1 + g.base l + (p 0 / 2 ^ (g.maxLvl - l)
    + p 1 / 2 ^ (g.maxLvl - l) * (g.len 0 * 2 ^ l)
    + p 2 / 2 ^ (g.maxLvl - l) * (g.len 0 * 2 ^ l) * (g.len 1 * 2 ^ l))

/-- Index triple inside of the grid. -/
def InGrid (p : V3 Nat) : Prop := ∀ d, p d < g.n d

instance (p : V3 Nat) : Decidable (g.InGrid p) := inferInstanceAs (Decidable (∀ _, _))

/-- Index triple `p` is inside of cell `c`. -/
def Mem (p : V3 Nat) (c : Nat) : Prop := ∀ d, g.idx c d ≤ p d ∧ p d < g.idx c d + g.side c

instance (p : V3 Nat) (c : Nat) : Decidable (g.Mem p c) := inferInstanceAs (Decidable (∀ _, _))

end Cfg

/-! ## Mixed radix arithmetic -/

theorem radix_bound {a b c i j k : Nat} (hi : i < a) (hj : j < b) (hk : k < c) :
    i + j * a + k * a * b < a * b * c := by
  have h1 : j * a + a ≤ b * a := by
    have := Nat.mul_le_mul_right a (Nat.succ_le_of_lt hj)
    rwa [Nat.succ_mul] at this
  have h2 : k * (a * b) + a * b ≤ c * (a * b) := by
    have := Nat.mul_le_mul_right (a * b) (Nat.succ_le_of_lt hk)
    rwa [Nat.succ_mul] at this
  have e1 : k * a * b = k * (a * b) := Nat.mul_assoc _ _ _
  have e2 : a * b * c = c * (a * b) := Nat.mul_comm _ _
  have e3 : b * a = a * b := Nat.mul_comm _ _
  omega

theorem radix_0 {a b i j k : Nat} (hi : i < a) : (i + j * a + k * a * b) % a = i := by
  have : i + j * a + k * a * b = i + a * (j + k * b) := by
    rw [Nat.mul_add, Nat.mul_comm j a, Nat.mul_comm k a, Nat.mul_assoc, Nat.add_assoc]
  rw [this, Nat.add_mul_mod_self_left, Nat.mod_eq_of_lt hi]

theorem radix_div {a b i j k : Nat} (hi : i < a) : (i + j * a + k * a * b) / a = j + k * b := by
  have : i + j * a + k * a * b = i + a * (j + k * b) := by
    rw [Nat.mul_add, Nat.mul_comm j a, Nat.mul_comm k a, Nat.mul_assoc, Nat.add_assoc]
  rw [this, Nat.add_mul_div_left _ _ (by omega), Nat.div_eq_of_lt hi, Nat.zero_add]

theorem radix_1 {a b i j k : Nat} (hi : i < a) (hj : j < b) :
    (i + j * a + k * a * b) / a % b = j := by
  rw [radix_div hi, Nat.mul_comm k b, Nat.add_mul_mod_self_left, Nat.mod_eq_of_lt hj]

theorem radix_2 {a b i j k : Nat} (hi : i < a) (hj : j < b) :
    (i + j * a + k * a * b) / (a * b) = k := by
  rw [← Nat.div_div_eq_div_mul, radix_div hi, Nat.mul_comm k b,
    Nat.add_mul_div_left _ _ (by omega), Nat.div_eq_of_lt hj, Nat.zero_add]

theorem radix_join (a b r : Nat) :
    r % a + r / a % b * a + r / (a * b) * a * b = r := by
  have h1 := Nat.mod_add_div r a
  have h2 := Nat.mod_add_div (r / a) b
  rw [Nat.div_div_eq_div_mul] at h2
  have e1 : r / a % b * a + r / (a * b) * a * b = a * (r / a % b + b * (r / (a * b))) := by
    rw [Nat.mul_add, Nat.mul_comm (r / a % b) a, Nat.mul_assoc (r / (a*b)) a b,
      ← Nat.mul_assoc a b, Nat.mul_comm (r / (a*b)) (a*b)]
  rw [Nat.add_assoc, e1, h2, h1]

theorem round_down {x s : Nat} (hs : 0 < s) : x / s * s ≤ x ∧ x < x / s * s + s := by
  have h1 := Nat.div_add_mod x s
  have h2 := Nat.mod_lt x hs
  have h3 : x / s * s = s * (x / s) := Nat.mul_comm _ _
  omega

namespace Cfg
variable {g : Cfg}

theorem total_pos (h : g.WF) : 0 < g.total :=
  Nat.mul_pos (Nat.mul_pos (h 0) (h 1)) (h 2)

theorem base_succ (l : Nat) : g.base (l + 1) = g.base l + g.total * 8 ^ l := rfl

theorem total_pow (l : Nat) :
    g.total * 8 ^ l = (g.len 0 * 2 ^ l) * (g.len 1 * 2 ^ l) * (g.len 2 * 2 ^ l) := by
  have : (8 : Nat) ^ l = 2 ^ l * 2 ^ l * 2 ^ l := by
    rw [← Nat.mul_pow, ← Nat.mul_pow]
  rw [this, total]
  simp only [Nat.mul_assoc, Nat.mul_left_comm]

theorem base_mono {l m : Nat} (h : l ≤ m) : g.base l ≤ g.base m := by
  induction h with
  | refl => exact Nat.le_refl _
  | step _ ih => exact Nat.le_trans ih (by rw [base_succ]; omega)

theorem base_lt (hw : g.WF) {l m : Nat} (h : l < m) : g.base l < g.base m := by
  have : g.base l < g.base (l + 1) := by
    rw [base_succ]
    have := Nat.mul_pos (total_pos hw) (Nat.pow_pos (n := l) (show 0 < 8 by omega))
    omega
  exact Nat.lt_of_lt_of_le this (base_mono h)

theorem lvlFrom_spec (c f l : Nat) (hl : g.base l < c) (hc : c ≤ g.base (l + f + 1)) :
    l ≤ g.lvlFrom c f l ∧ g.lvlFrom c f l ≤ l + f ∧
    g.base (g.lvlFrom c f l) < c ∧ c ≤ g.base (g.lvlFrom c f l + 1) := by
  induction f generalizing l with
  | zero => simp only [lvlFrom]; exact ⟨Nat.le_refl _, Nat.le_refl _, hl, hc⟩
  | succ f ih =>
    simp only [lvlFrom]
    split
    · rename_i h; exact ⟨Nat.le_refl _, by omega, hl, h⟩
    · rename_i h
      have := ih (l + 1) (by omega) (by rw [show l + 1 + f + 1 = l + (f + 1) + 1 by omega]; exact hc)
      omega

theorem lvl_spec {c : Nat} (h : g.Valid c) :
    g.lvl c ≤ g.maxLvl ∧ g.base (g.lvl c) < c ∧ c ≤ g.base (g.lvl c + 1) := by
  have := lvlFrom_spec (g := g) c g.maxLvl 0 (by have := h.1; simp [base]; omega)
    (by rw [Nat.zero_add]; exact h.2)
  exact ⟨by simpa [lvl] using this.2.1, this.2.2.1, this.2.2.2⟩

theorem lvl_le {c : Nat} (h : g.Valid c) : g.lvl c ≤ g.maxLvl := (lvl_spec h).1

theorem lvl_unique {c l : Nat} (hl : l ≤ g.maxLvl) (h1 : g.base l < c)
    (h2 : c ≤ g.base (l + 1)) : g.lvl c = l := by
  have hv : g.Valid c := ⟨by omega, Nat.le_trans h2 (base_mono (by omega))⟩
  obtain ⟨_, h4, h5⟩ := lvl_spec hv
  rcases Nat.lt_trichotomy (g.lvl c) l with h | h | h
  · have := base_mono (g := g) (show g.lvl c + 1 ≤ l by omega); omega
  · exact h
  · have := base_mono (g := g) (show l + 1 ≤ g.lvl c by omega); omega

theorem side_pos (c : Nat) : 0 < g.side c := Nat.pow_pos (by omega)

/-- Lengths at level `l` times side of level `l` cells is the length of the grid in indices. -/
theorem n_eq {l : Nat} (hl : l ≤ g.maxLvl) (d : Fin 3) :
    g.n d = g.len d * 2 ^ l * 2 ^ (g.maxLvl - l) := by
  rw [n, Nat.mul_assoc, ← Nat.pow_add, Nat.add_sub_cancel' hl]

theorem div_lt {p : V3 Nat} (hp : g.InGrid p) {l : Nat} (hl : l ≤ g.maxLvl) (d : Fin 3) :
    p d / 2 ^ (g.maxLvl - l) < g.len d * 2 ^ l := by
  rw [Nat.div_lt_iff_lt_mul (Nat.pow_pos (by omega)), ← n_eq hl]
  exact hp d

theorem cellAt_range {p : V3 Nat} (hp : g.InGrid p) {l : Nat} (hl : l ≤ g.maxLvl) :
    g.base l < g.cellAt l p ∧ g.cellAt l p ≤ g.base (l + 1) := by
  have := radix_bound (div_lt hp hl 0) (div_lt hp hl 1) (div_lt hp hl 2)
  rw [← total_pow] at this
  unfold cellAt
  rw [base_succ]
  generalize p 0 / _ + _ + _ = r at this ⊢
  omega

theorem cellAt_valid {p : V3 Nat} (hp : g.InGrid p) {l : Nat} (hl : l ≤ g.maxLvl) :
    g.Valid (g.cellAt l p) := by
  have h := cellAt_range hp hl
  exact ⟨by omega, Nat.le_trans h.2 (base_mono (by omega))⟩

theorem lvl_cellAt {p : V3 Nat} (hp : g.InGrid p) {l : Nat} (hl : l ≤ g.maxLvl) :
    g.lvl (g.cellAt l p) = l :=
  lvl_unique hl (cellAt_range hp hl).1 (cellAt_range hp hl).2

theorem side_cellAt {p : V3 Nat} (hp : g.InGrid p) {l : Nat} (hl : l ≤ g.maxLvl) :
    g.side (g.cellAt l p) = 2 ^ (g.maxLvl - l) := by rw [side, lvl_cellAt hp hl]

theorem idx_cellAt {p : V3 Nat} (hp : g.InGrid p) {l : Nat} (hl : l ≤ g.maxLvl) (d : Fin 3) :
    g.idx (g.cellAt l p) d = p d / 2 ^ (g.maxLvl - l) * 2 ^ (g.maxLvl - l) := by
  have h0 := div_lt hp hl 0
  have h1 := div_lt hp hl 1
  have e : g.len 0 * g.len 1 * 2 ^ (2 * l) = (g.len 0 * 2 ^ l) * (g.len 1 * 2 ^ l) := by
    rw [Nat.two_mul, Nat.pow_add]; simp only [Nat.mul_assoc, Nat.mul_left_comm]
  have e2 : g.cellAt l p - 1 - g.base l = p 0 / 2 ^ (g.maxLvl - l)
    + p 1 / 2 ^ (g.maxLvl - l) * (g.len 0 * 2 ^ l)
    + p 2 / 2 ^ (g.maxLvl - l) * (g.len 0 * 2 ^ l) * (g.len 1 * 2 ^ l) := by
    unfold cellAt; rw [Nat.add_assoc 1 (g.base l), Nat.add_sub_cancel_left, Nat.add_sub_cancel_left]
  unfold idx
  simp only [lvl_cellAt hp hl, e, e2]
  revert d
  rw [forall_fin3]
  refine ⟨?_, ?_, ?_⟩
  · rw [v3_0, radix_0 h0]
  · rw [v3_1, radix_1 h0 h1]
  · rw [v3_2, radix_2 h0 h1]

/-- Local id within level. -/
theorem idx_div_bounds (hw : g.WF) {c : Nat} (h : g.Valid c) (d : Fin 3) :
    ∃ q, q < g.len d * 2 ^ g.lvl c ∧ g.idx c d = q * g.side c := by
  obtain ⟨_, h1, h2⟩ := lvl_spec h
  rw [base_succ, total_pow] at h2
  have hpos : ∀ d, 0 < g.len d * 2 ^ g.lvl c := fun d => Nat.mul_pos (hw d) (Nat.pow_pos (by omega))
  have e : g.len 0 * g.len 1 * 2 ^ (2 * g.lvl c)
      = (g.len 0 * 2 ^ g.lvl c) * (g.len 1 * 2 ^ g.lvl c) := by
    rw [Nat.two_mul, Nat.pow_add]; simp only [Nat.mul_assoc, Nat.mul_left_comm]
  revert d
  rw [forall_fin3]
  refine ⟨⟨_, Nat.mod_lt _ (hpos 0), rfl⟩, ⟨_, Nat.mod_lt _ (hpos 1), rfl⟩, ⟨_, ?_, rfl⟩⟩
  rw [e, Nat.div_lt_iff_lt_mul (Nat.mul_pos (hpos 0) (hpos 1)), Nat.mul_comm]
  omega

theorem side_dvd_idx (hw : g.WF) {c : Nat} (h : g.Valid c) (d : Fin 3) : g.side c ∣ g.idx c d := by
  obtain ⟨q, _, e⟩ := idx_div_bounds hw h d
  exact ⟨q, by rw [e, Nat.mul_comm]⟩

theorem idx_add_side_le (hw : g.WF) {c : Nat} (h : g.Valid c) (d : Fin 3) :
    g.idx c d + g.side c ≤ g.n d := by
  obtain ⟨q, hq, e⟩ := idx_div_bounds hw h d
  rw [e, n_eq (lvl_le h) d, side, ← Nat.succ_mul]
  exact Nat.mul_le_mul_right _ hq

theorem idx_inGrid (hw : g.WF) {c : Nat} (h : g.Valid c) : g.InGrid (g.idx c) := fun d => by
  have := idx_add_side_le hw h d
  have := side_pos (g := g) c
  omega

/-- Round trip id → indices → id. -/
theorem cellAt_idx {c : Nat} (h : g.Valid c) : g.cellAt (g.lvl c) (g.idx c) = c := by
  obtain ⟨_, h1, h2⟩ := lvl_spec h
  have hs : ∀ q, q * 2 ^ (g.maxLvl - g.lvl c) / 2 ^ (g.maxLvl - g.lvl c) = q := fun q =>
    Nat.mul_div_cancel _ (Nat.pow_pos (by omega))
  have e : g.len 0 * g.len 1 * 2 ^ (2 * g.lvl c)
      = (g.len 0 * 2 ^ g.lvl c) * (g.len 1 * 2 ^ g.lvl c) := by
    rw [Nat.two_mul, Nat.pow_add]; simp only [Nat.mul_assoc, Nat.mul_left_comm]
  unfold cellAt idx
  simp only [v3_0, v3_1, v3_2, hs, e, radix_join]
  omega

/-- The cell of level `lvl c` at any index inside `c` is `c`. -/
theorem cellAt_of_mem (hw : g.WF) {c : Nat} (h : g.Valid c) {p : V3 Nat} (hp : g.Mem p c) :
    g.cellAt (g.lvl c) p = c := by
  have key : ∀ d, p d / 2 ^ (g.maxLvl - g.lvl c) = g.idx c d / 2 ^ (g.maxLvl - g.lvl c) := by
    intro d
    obtain ⟨q, _, e⟩ := idx_div_bounds hw h d
    have h1 := (hp d).1
    have h2 := (hp d).2
    have hs : 0 < 2 ^ (g.maxLvl - g.lvl c) := Nat.pow_pos (by omega)
    rw [e] at h1 h2 ⊢
    rw [side] at *
    rw [Nat.mul_div_cancel _ hs]
    exact Nat.div_eq_of_lt_le h1 (by rw [Nat.succ_mul]; exact h2)
  have := cellAt_idx h
  unfold cellAt at this ⊢
  rw [key 0, key 1, key 2, this]

theorem mem_inGrid (hw : g.WF) {c : Nat} (h : g.Valid c) {p : V3 Nat} (hp : g.Mem p c) :
    g.InGrid p := fun d => Nat.lt_of_lt_of_le (hp d).2 (idx_add_side_le hw h d)

theorem mem_cellAt {p : V3 Nat} (hp : g.InGrid p) {l : Nat} (hl : l ≤ g.maxLvl) :
    g.Mem p (g.cellAt l p) := fun d => by
  rw [idx_cellAt hp hl, side_cellAt hp hl]
  exact round_down (Nat.pow_pos (by omega))

theorem mem_iff_cellAt (hw : g.WF) {c : Nat} (h : g.Valid c) {p : V3 Nat} (hp : g.InGrid p) :
    g.Mem p c ↔ g.cellAt (g.lvl c) p = c := by
  constructor
  · exact cellAt_of_mem hw h
  · intro e
    rw [← e]
    have := mem_cellAt hp (lvl_le h)
    rwa [e] at this ⊢

theorem mem_idx (c : Nat) : g.Mem (g.idx c) c := fun d => ⟨Nat.le_refl _, by
  have := side_pos (g := g) c; omega⟩

theorem eq_of_lvl_idx {a b : Nat} (ha : g.Valid a) (hb : g.Valid b)
    (hl : g.lvl a = g.lvl b) (hi : g.idx a = g.idx b) : a = b := by
  rw [← cellAt_idx ha, ← cellAt_idx hb, hl, hi]

end Cfg
end Dccrg
