import Verif.Mapping64
import Verif.MapNat
/-!
# The 64-bit mapping agrees with the unbounded one when ids fit into 64 bits
-/
namespace Dccrg
namespace Mapping

/-- Unbounded configuration of a mapping. -/
def cfg (m : Mapping) : Cfg :=
  { len := m.len, maxLvl := m.maxLvl.toNat, periodic := fun _ => false, hood := 0 }

/-- Grid with given mapping, topology and neighborhood length. -/
def grid (m : Mapping) (per : V3 Bool) (hood : Nat) : Cfg :=
  { len := m.len, maxLvl := m.maxLvl.toNat, periodic := per, hood := hood }

/-- The mapping is in a usable state: positive lengths, non-negative maximum level, and the
exact number of possible cells (over `Nat`) fits into 64 bits and is stored as last cell. -/
structure OK (m : Mapping) : Prop where
  pos : ∀ d, 0 < m.len d
  nonneg : 0 ≤ m.maxLvl
  fits : m.cfg.last < W
  last : m.lastCell = m.cfg.last

variable {m : Mapping}

theorem OK.wf (h : m.OK) : m.cfg.WF := h.pos

theorem level_bound (h : m.OK) {l : Nat} (hl : l ≤ m.cfg.maxLvl) : m.cfg.total * 8 ^ l < W := by
  have h1 : m.cfg.base (l + 1) ≤ m.cfg.last := Cfg.base_mono (by omega)
  rw [Cfg.base_succ] at h1
  have := h.fits
  omega

theorem pow8 (l : Nat) : (8 : Nat) ^ l = 2 ^ (l * 3) := by
  rw [Nat.mul_comm, Nat.pow_mul]

theorem pow8_lt (h : m.OK) {l : Nat} (hl : l ≤ m.cfg.maxLvl) : 2 ^ (l * 3) < W := by
  have h1 := level_bound h hl
  have h2 := Nat.le_mul_of_pos_left (8 ^ l) (Cfg.total_pos h.wf)
  rw [pow8] at *
  omega

/-- All shift counts used by the mapping are below 64: no undefined shifts. -/
theorem shift_counts (h : m.OK) : 3 * m.maxLvl.toNat < 64 := by
  have h1 := pow8_lt h (Nat.le_refl m.cfg.maxLvl)
  have h2 := (Nat.pow_lt_pow_iff_right (a := 2) (by omega)).1 h1
  have : m.cfg.maxLvl = m.maxLvl.toNat := rfl
  omega

theorem shl3_eq (h : m.OK) {l : Nat} (hl : l ≤ m.cfg.maxLvl) : wshl1 (l * 3) = 8 ^ l := by
  rw [wshl1_eq (pow8_lt h hl), pow8]

theorem pow2_lt (h : m.OK) {l : Nat} (hl : l ≤ m.cfg.maxLvl) : 2 ^ l < W := by
  have := pow8_lt h hl
  have h2 : 2 ^ l ≤ 2 ^ (l * 3) := Nat.pow_le_pow_right (by omega) (by omega)
  omega

theorem shl_eq (h : m.OK) {l : Nat} (hl : l ≤ m.cfg.maxLvl) : wshl1 l = 2 ^ l :=
  wshl1_eq (pow2_lt h hl)

theorem le3 {a b c : Nat} (ha : 0 < a) (hb : 0 < b) (hc : 0 < c) :
    a ≤ a * b * c ∧ b ≤ a * b * c ∧ c ≤ a * b * c ∧ a * b ≤ a * b * c := by
  have h1 : a * b ≤ a * b * c := Nat.le_mul_of_pos_right _ hc
  have h2 : a ≤ a * b := Nat.le_mul_of_pos_right _ hb
  have h3 : b ≤ a * b := Nat.le_mul_of_pos_left _ ha
  have h4 : c ≤ a * b * c := Nat.le_mul_of_pos_left _ (Nat.mul_pos ha hb)
  omega

theorem lens_lt (h : m.OK) {l : Nat} (hl : l ≤ m.cfg.maxLvl) :
    (∀ d, m.len d * 2 ^ l < W) ∧ (m.len 0 * 2 ^ l) * (m.len 1 * 2 ^ l) < W := by
  have h1 := level_bound h hl
  rw [Cfg.total_pow] at h1
  have hp : ∀ d, 0 < m.len d * 2 ^ l := fun d => Nat.mul_pos (h.pos d) (Nat.pow_pos (by omega))
  obtain ⟨a, b, c, d⟩ := le3 (hp 0) (hp 1) (hp 2)
  have e : ∀ d, m.cfg.len d = m.len d := fun _ => rfl
  rw [e, e, e] at h1
  refine ⟨?_, by omega⟩
  rw [forall_fin3]
  omega

theorem total_eq (h : m.OK) : m.total = m.cfg.total := by
  have h1 := level_bound h (Nat.zero_le _)
  have e : m.cfg.total = m.len 0 * m.len 1 * m.len 2 := rfl
  obtain ⟨_, _, _, h3⟩ := le3 (h.pos 0) (h.pos 1) (h.pos 2)
  rw [Nat.pow_zero, Nat.mul_one] at h1
  unfold total
  rw [wmul_eq (a := m.len 0) (by omega), wmul_eq (by omega), e]

theorem term_eq (h : m.OK) {l : Nat} (hl : l ≤ m.cfg.maxLvl) :
    wmul m.total (wshl1 (l * 3)) = m.cfg.total * 8 ^ l := by
  rw [total_eq h, shl3_eq h hl, wmul_eq (level_bound h hl)]

theorem sumLevels_eq (h : m.OK) (acc k : Nat) (hk : k ≤ m.cfg.maxLvl + 1)
    (ha : acc + m.cfg.base k < W) : m.sumLevels acc k = acc + m.cfg.base k := by
  induction k with
  | zero => simp [sumLevels, Cfg.base]
  | succ k ih =>
    rw [Cfg.base_succ] at ha ⊢
    rw [sumLevels, ih (by omega) (by omega), term_eq h (by omega), wadd_eq (by omega)]
    omega

theorem base_lt_last (h : m.OK) {l : Nat} (hl : l ≤ m.cfg.maxLvl) :
    m.cfg.base l < m.cfg.last := Cfg.base_lt h.wf (by omega)

theorem nIdx_eq (h : m.OK) (d : Fin 3) : m.nIdx d = m.cfg.n d := by
  unfold nIdx
  have e : m.maxLvl.toNat = m.cfg.maxLvl := rfl
  rw [e, shl_eq h (Nat.le_refl _), wmul_eq ((lens_lt h (Nat.le_refl _)).1 d)]
  rfl

theorem toNat_sub (a b : Int) (hb : 0 ≤ b) (_hab : b ≤ a) :
    (a - b).toNat = a.toNat - b.toNat := by omega

theorem cellFromIndices_eq (h : m.OK) (p : V3 Nat) (lvl : Int) :
    m.cellFromIndices p lvl =
      if m.cfg.InGrid p ∧ 0 ≤ lvl ∧ lvl ≤ m.maxLvl then m.cfg.cellAt lvl.toNat p else 0 := by
  unfold cellFromIndices
  simp only [nIdx_eq h]
  by_cases hp : m.cfg.InGrid p
  · have hp' := forall_fin3.1 hp
    rw [if_neg (by omega), if_neg (by omega), if_neg (by omega)]
    by_cases h0 : lvl < 0
    · rw [if_pos h0, if_neg (by omega)]; rfl
    by_cases h1 : lvl > m.maxLvl
    · rw [if_neg h0, if_pos h1, if_neg (by omega)]; rfl
    rw [if_neg h0, if_neg h1, if_pos ⟨hp, by omega, by omega⟩]
    have hl : lvl.toNat ≤ m.cfg.maxLvl := by
      have : m.cfg.maxLvl = m.maxLvl.toNat := rfl
      omega
    have hr := Cfg.cellAt_range hp hl
    have hb1 : m.cfg.base (lvl.toNat + 1) ≤ m.cfg.last := Cfg.base_mono (by omega)
    have hf := h.fits
    have hs : (m.maxLvl - lvl).toNat = m.cfg.maxLvl - lvl.toNat := toNat_sub _ _ (by omega) (by omega)
    obtain ⟨hL, hL2⟩ := lens_lt h hl
    rw [sumLevels_eq h 1 _ (by omega) (by omega), hs, shl_eq h (by omega), shl_eq h hl,
      wmul_eq (hL 0), wmul_eq (hL 1)]
    have e : ∀ d, m.cfg.len d = m.len d := fun _ => rfl
    unfold Cfg.cellAt at hr ⊢
    rw [e, e] at hr ⊢
    have hz : p 2 / 2 ^ (m.cfg.maxLvl - lvl.toNat) * (m.len 0 * 2 ^ lvl.toNat)
        ≤ p 2 / 2 ^ (m.cfg.maxLvl - lvl.toNat) * (m.len 0 * 2 ^ lvl.toNat)
          * (m.len 1 * 2 ^ lvl.toNat) :=
      Nat.le_mul_of_pos_right _ (Nat.mul_pos (h.pos 1) (Nat.pow_pos (by omega)))
    generalize p 0 / 2 ^ (m.cfg.maxLvl - lvl.toNat) = x at *
    generalize p 1 / 2 ^ (m.cfg.maxLvl - lvl.toNat) = y at *
    generalize p 2 / 2 ^ (m.cfg.maxLvl - lvl.toNat) = z at *
    generalize m.len 0 * 2 ^ lvl.toNat = n0 at *
    generalize m.len 1 * 2 ^ lvl.toNat = n1 at *
    generalize hA : y * n0 = A at *
    generalize hB : z * n0 = B at *
    generalize hC : B * n1 = C at *
    have eA : wmul y n0 = A := by rw [wmul_eq (by omega), hA]
    have eB : wmul z n0 = B := by rw [wmul_eq (by omega), hB]
    have eC : wmul B n1 = C := by rw [wmul_eq (by omega), hC]
    rw [eA, eB, eC, wadd_eq (a := x) (by omega), wadd_eq (a := x + A) (by omega),
      wadd_eq (by omega)]
  · rw [if_neg (show ¬(_ ∧ _) from fun hh => hp hh.1)]
    unfold Cfg.InGrid at hp
    rw [forall_fin3] at hp
    simp only [errorCell]
    split
    · rfl
    split
    · rfl
    split
    · rfl
    omega

theorem levelLoop_eq (h : m.OK) (c f l : Nat) (hf : l + f = m.cfg.maxLvl + 1)
    (hc : m.cfg.base l < c) :
    m.levelLoop c f l (m.cfg.base l) =
      if c ≤ m.cfg.last then (m.cfg.lvlFrom c (f - 1) l : Int) else -1 := by
  induction f generalizing l with
  | zero =>
    rw [levelLoop, if_neg]
    have : m.cfg.last = m.cfg.base l := by rw [Cfg.last, ← hf]; rfl
    omega
  | succ f ih =>
    have hb : m.cfg.base (l + 1) ≤ m.cfg.last := Cfg.base_mono (by omega)
    have hf' := h.fits
    have ec : wadd (m.cfg.base l) (wmul m.total (wshl1 (3 * l))) = m.cfg.base (l + 1) := by
      rw [Nat.mul_comm, term_eq h (by omega)]
      rw [Cfg.base_succ] at hb ⊢
      exact wadd_eq (by omega)
    simp only [levelLoop, ec]
    by_cases h1 : c ≤ m.cfg.base (l + 1)
    · rw [if_pos h1, if_pos (by omega), Nat.add_sub_cancel]
      cases f with
      | zero => rfl
      | succ f => rw [Cfg.lvlFrom, if_pos h1]
    · rw [if_neg h1, ih (l + 1) (by omega) (by omega)]
      split
      · cases f with
        | zero =>
          exfalso
          have : m.cfg.last = m.cfg.base (l + 1) := by rw [Cfg.last, ← hf]
          omega
        | succ f => rw [Nat.add_sub_cancel, Nat.add_sub_cancel, Cfg.lvlFrom, if_neg h1]
      · rfl

theorem getLevel_eq (h : m.OK) (c : Nat) :
    m.getLevel c = if m.cfg.Valid c then (m.cfg.lvl c : Int) else -1 := by
  unfold getLevel errorCell
  rw [h.last]
  by_cases hv : m.cfg.Valid c
  · have hv' : 1 ≤ c ∧ c ≤ m.cfg.last := hv
    have e : (m.maxLvl + 1).toNat = m.cfg.maxLvl + 1 := by
      have := h.nonneg
      have : m.cfg.maxLvl = m.maxLvl.toNat := rfl
      omega
    rw [if_neg (by omega), if_pos hv, e]
    have := levelLoop_eq h c (m.cfg.maxLvl + 1) 0 (by omega) (by simp [Cfg.base]; omega)
    rw [if_pos hv'.2] at this
    exact this
  · have hv' : ¬ (1 ≤ c ∧ c ≤ m.cfg.last) := hv
    rw [if_pos (by omega), if_neg hv]

theorem subLevels_eq (h : m.OK) {c k : Nat} (hk : k ≤ m.cfg.maxLvl + 1) (hc : m.cfg.base k ≤ c)
    (hcW : c < W) : m.subLevels c k = c - m.cfg.base k := by
  induction k with
  | zero => simp [subLevels, Cfg.base]
  | succ k ih =>
    rw [Cfg.base_succ] at hc ⊢
    rw [subLevels, ih (by omega) (by omega), term_eq h (by omega), wsub_eq (by omega) (by omega)]
    omega

theorem getIndices_eq (h : m.OK) (c : Nat) :
    m.getIndices c = if m.cfg.Valid c then m.cfg.idx c else fun _ => errorIndex := by
  unfold getIndices errorCell
  rw [h.last]
  by_cases hv : m.cfg.Valid c
  · have hv' : 1 ≤ c ∧ c ≤ m.cfg.last := hv
    obtain ⟨hl, hb, hb2⟩ := Cfg.lvl_spec hv
    have hb1 : m.cfg.base (m.cfg.lvl c + 1) ≤ m.cfg.last := Cfg.base_mono (by omega)
    have hf := h.fits
    obtain ⟨hL, hL2⟩ := lens_lt h hl
    have hnn := h.nonneg
    have em : m.cfg.maxLvl = m.maxLvl.toNat := rfl
    have hs : (m.maxLvl - (m.cfg.lvl c : Int)).toNat = m.cfg.maxLvl - m.cfg.lvl c := by omega
    rw [if_neg (by omega), if_pos hv, getLevel_eq h, if_pos hv]
    have e3 : m.len 0 * m.len 1 * 2 ^ (2 * m.cfg.lvl c)
        = (m.len 0 * 2 ^ m.cfg.lvl c) * (m.len 1 * 2 ^ m.cfg.lvl c) := by
      rw [Nat.two_mul, Nat.pow_add]; simp only [Nat.mul_assoc, Nat.mul_left_comm]
    have h2l : wshl1 (2 * m.cfg.lvl c) = 2 ^ (2 * m.cfg.lvl c) := by
      apply wshl1_eq
      have h1 := pow8_lt h hl
      have : 2 ^ (2 * m.cfg.lvl c) ≤ 2 ^ (m.cfg.lvl c * 3) :=
        Nat.pow_le_pow_right (by omega) (by omega)
      omega
    have h01 : m.len 0 * m.len 1 < W := by
      have := (lens_lt h (Nat.zero_le _)).2
      simpa using this
    simp only [Int.toNat_natCast, hs]
    rw [subLevels_eq h (by omega) (by omega) (by omega), wsub_eq (by omega) (by omega),
      shl_eq h hl, shl_eq h (by omega), wmul_eq (hL 0), wmul_eq (hL 1), wmul_eq h01, h2l,
      wmul_eq (a := m.len 0 * m.len 1) (by rw [e3]; exact hL2)]
    have er : c - m.cfg.base (m.cfg.lvl c) - 1 = c - 1 - m.cfg.base (m.cfg.lvl c) := by omega
    rw [er]
    have hn : ∀ d, m.cfg.idx c d < W := fun d => by
      have h1 := Cfg.idx_inGrid h.wf hv d
      have h2 := (lens_lt h (Nat.le_refl _)).1 d
      have e : m.cfg.n d = m.len d * 2 ^ m.cfg.maxLvl := rfl
      omega
    have h0 := hn 0
    have h1 := hn 1
    have h2 := hn 2
    unfold Cfg.idx at h0 h1 h2 ⊢
    simp only [v3_0, v3_1, v3_2] at h0 h1 h2
    have e : ∀ d, m.cfg.len d = m.len d := fun _ => rfl
    rw [e] at h0
    rw [e, e] at h1 h2
    rw [wmul_eq h0, wmul_eq h1, wmul_eq h2]
    rfl
  · have hv' : ¬ (1 ≤ c ∧ c ≤ m.cfg.last) := hv
    rw [if_pos (by omega), if_neg hv]

theorem cellLength_eq (h : m.OK) (c : Nat) :
    m.cellLength c = if m.cfg.Valid c then m.cfg.side c else errorIndex := by
  unfold cellLength errorCell
  rw [getLevel_eq h]
  by_cases hv : m.cfg.Valid c
  · have hv' : 1 ≤ c ∧ c ≤ m.cfg.last := hv
    have hl := Cfg.lvl_le hv
    have hnn := h.nonneg
    have em : m.cfg.maxLvl = m.maxLvl.toNat := rfl
    have hs : (m.maxLvl - (m.cfg.lvl c : Int)).toNat = m.cfg.maxLvl - m.cfg.lvl c := by omega
    rw [if_pos hv, if_pos hv, if_neg (by omega), if_neg (by omega), hs, shl_eq h (by omega)]
    rfl
  · rw [if_neg hv, if_neg hv, if_pos (show (-1 : Int) < 0 by omega)]
    split <;> rfl

end Mapping
end Dccrg
