import Verif.GeomSet
import Verif.Props.Stretched
/-!
# C48, C59: parameters of geometries
-/
namespace Dccrg
open Cfg

/-- Bits of 0, 1, 2, -1, infinity and a NaN. -/
example : (Bits.val 0, Bits.val 0x3ff0000000000000, Bits.val 0x4000000000000000, Bits.val 0xbff0000000000000,
    Bits.val 0x7ff0000000000000, Bits.val 0x7ff8000000000000) =
    (.fin 0, .fin 1, .fin 2, .fin (-1), .inf false, .nan) := by decide +kernel

/-- The smallest positive number. -/
example : Bits.val 1 = .fin (1 / 2 ^ 1074) ∧ (Val.fin 0).lt (Bits.val 1) := by decide +kernel

theorem Val.not_le {a b : Val} (ha : a ≠ .nan) (hb : b ≠ .nan) : ¬ a.le b ↔ b.lt a := by
  match a, b with
  | .nan, _ => exact absurd rfl ha
  | .inf x, .nan => exact absurd rfl hb
  | .fin x, .nan => exact absurd rfl hb
  | .inf a, .inf b => cases a <;> cases b <;> simp [Val.le, Val.lt]
  | .inf a, .fin b => cases a <;> simp [Val.le, Val.lt]
  | .fin a, .inf b => cases b <;> simp [Val.le, Val.lt]
  | .fin a, .fin b => simp only [Val.le, Val.lt]; exact Rat.not_le

theorem Val.lt_trans {a b c : Val} (h1 : a.lt b) (h2 : b.lt c) : a.lt c := by
  match a, b, c with
  | .nan, _, _ => exact absurd h1 id
  | .inf _, .nan, _ => exact absurd h1 id
  | .fin _, .nan, _ => exact absurd h1 id
  | .inf _, .inf _, .nan => exact absurd h2 id
  | .inf _, .fin _, .nan => exact absurd h2 id
  | .fin _, .inf _, .nan => exact absurd h2 id
  | .fin _, .fin _, .nan => exact absurd h2 id
  | .inf a, .inf b, .inf c => cases a <;> cases b <;> cases c <;> simp_all [Val.lt]
  | .inf a, .inf b, .fin c => cases a <;> cases b <;> simp_all [Val.lt]
  | .inf a, .fin b, .inf c => cases a <;> cases c <;> simp_all [Val.lt]
  | .inf a, .fin b, .fin c => cases a <;> simp_all [Val.lt]
  | .fin a, .inf b, .inf c => cases b <;> cases c <;> simp_all [Val.lt]
  | .fin a, .inf b, .fin c => cases b <;> simp_all [Val.lt]
  | .fin a, .fin b, .inf c => simp_all [Val.lt]
  | .fin a, .fin b, .fin c => simp only [Val.lt] at *; exact Std.lt_trans h1 h2

theorem CartPar.set_cases (old new : CartPar) :
    ((CartPar.set old new).1 = true ↔ ∀ d, ¬ (Bits.val (new.len d)).le (.fin 0)) ∧
    ((CartPar.set old new).1 = true → (CartPar.set old new).2 = new) ∧
    ((CartPar.set old new).1 = false → (CartPar.set old new).2 = old) := by
  unfold CartPar.set
  rw [forall_fin3]
  split
  · simp_all
  · split
    · simp_all
    · split <;> simp_all

/-- C48 for `Cartesian_Geometry`, the part that holds: given parameters in which no length is NaN, `set` succeeds exactly
if lengths are positive and then stores the parameters, otherwise the previous parameters are kept. Missing: NaN, see
`C48_false`. -/
theorem C48_cartesian_partial (old new : CartPar) (hn : ∀ d, Bits.val (new.len d) ≠ .nan) :
    ((CartPar.set old new).1 = true ↔ ∀ d, (Val.fin 0).lt (Bits.val (new.len d))) ∧
    ((CartPar.set old new).1 = true → (CartPar.set old new).2 = new) ∧
    ((CartPar.set old new).1 = false → (CartPar.set old new).2 = old) := by
  obtain ⟨h1, h2, h3⟩ := CartPar.set_cases old new
  refine ⟨?_, h2, h3⟩
  rw [h1]
  exact forall_congr' fun d => Val.not_le (hn d) (by intro e; cases e)

/-- C48: whether or not numbers are NaN, rejected parameters have no effect, and lengths of zero or less are rejected in
any dimension. -/
theorem C48_cartesian_rejects (old new : CartPar) :
    ((CartPar.set old new).1 = false → (CartPar.set old new).2 = old) ∧
    ((∃ d, (Bits.val (new.len d)).le (.fin 0)) → CartPar.set old new = (false, old)) := by
  obtain ⟨h1, h2, h3⟩ := CartPar.set_cases old new
  refine ⟨h3, ?_⟩
  rintro ⟨d, hd⟩
  have hf : (CartPar.set old new).1 = false := by
    cases h : (CartPar.set old new).1 with
    | false => rfl
    | true => exact absurd hd (h1.1 h d)
  exact Prod.ext hf (h3 hf)

/-- C48: the constructor with parameters aborts exactly if `set` rejects the parameters. -/
theorem C48_cartesian_constructor (old : CartPar) (start len : V3 Nat) :
    CartPar.make start len = none ↔ (CartPar.set old ⟨start, len⟩).1 = false := by
  unfold CartPar.make CartPar.set
  by_cases h0 : (Bits.val (len 0)).le (.fin 0) <;> by_cases h1 : (Bits.val (len 1)).le (.fin 0) <;>
    by_cases h2 : (Bits.val (len 2)).le (.fin 0) <;> simp [h0, h1, h2]

theorem increasing_iff {l : List Nat} (hn : ∀ b ∈ l, Bits.val b ≠ .nan) :
    increasing l = true ↔ l.Pairwise fun a b => (Bits.val a).lt (Bits.val b) := by
  induction l with
  | nil => simp [increasing]
  | cons a l ih =>
    cases l with
    | nil => simp [increasing]
    | cons b l =>
      unfold increasing
      have ih' := ih fun x hx => hn x (List.mem_cons_of_mem _ hx)
      have hab := Val.not_le (a := Bits.val b) (b := Bits.val a) (hn b (by simp)) (hn a (by simp))
      by_cases h : (Bits.val b).le (Bits.val a)
      · rw [if_pos h]
        constructor
        · intro e; cases e
        · intro e
          have := (List.pairwise_cons.1 e).1 b (by simp)
          exact absurd h (hab.2 this)
      · rw [if_neg h, ih', List.pairwise_cons (l := b :: l)]
        constructor
        · intro e
          refine ⟨fun x hx => ?_, e⟩
          have h1 := hab.1 h
          rcases List.mem_cons.1 hx with rfl | hx
          · exact h1
          · exact Val.lt_trans h1 ((List.pairwise_cons.1 e).1 x hx)
        · exact fun e => e.2

theorem StretchPar.set_cases (m : Mapping) (old new : StretchPar) :
    ((StretchPar.set m old new).1 = true ↔ ∀ d, dimOk (m.len d) (new.coords d) = true) ∧
    ((StretchPar.set m old new).1 = true → (StretchPar.set m old new).2 = new) ∧
    ((StretchPar.set m old new).1 = false → (StretchPar.set m old new).2 = old) := by
  unfold StretchPar.set
  rw [forall_fin3]
  split
  · split
    · split <;> simp_all
    · simp_all
  · simp_all

theorem dimOk_iff {len : Nat} (h0 : 0 < len) (hl : len < W) {l : List Nat} (hs : l.length < W)
    (hn : ∀ b ∈ l, Bits.val b ≠ .nan) :
    dimOk len l = true ↔ l.length = len + 1 ∧ l.Pairwise fun a b => (Bits.val a).lt (Bits.val b) := by
  unfold dimOk
  by_cases hw : len + 1 < W
  · rw [show wadd len 1 = len + 1 from Nat.mod_eq_of_lt hw]
    by_cases h2 : l.length = len + 1
    · rw [if_neg (by omega), if_neg (by simp [h2]), increasing_iff hn]
      simp [h2]
    · have : (if l.length < 2 then false else if l.length ≠ len + 1 then false else increasing l) = false := by
        simp [h2]
      rw [this]
      simp [h2]
  · have e : len + 1 = W := by omega
    rw [show wadd len 1 = 0 by unfold wadd; rw [e, Nat.mod_self]]
    have : (if l.length < 2 then false else if l.length ≠ 0 then false else increasing l) = false := by
      split
      · rfl
      · rw [if_pos (by omega)]
    rw [this]
    simp
    omega

theorem len_lt {m : Mapping} (h : m.OK) (d : Fin 3) : m.len d < W := by
  have h1 : m.cfg.n d < W := (Mapping.lens_lt h (Nat.le_refl _)).1 d
  have h2 : m.len d * 1 ≤ m.len d * 2 ^ m.cfg.maxLvl := Nat.mul_le_mul_left _ (Nat.pow_pos (by omega))
  have h3 : m.cfg.n d = m.len d * 2 ^ m.cfg.maxLvl := rfl
  omega

/-- C48 for `Stretched_Cartesian_Geometry`, the part that holds: given coordinates none of which is NaN, `set` succeeds
exactly if in each dimension there is one more coordinate than level 0 cells and they are strictly increasing, and then stores
them, otherwise the previous coordinates are kept. Missing: NaN, see `C48_false`. -/
theorem C48_stretched_partial {m : Mapping} (h : m.OK) (old new : StretchPar)
    (hs : ∀ d, (new.coords d).length < W) (hn : ∀ d, ∀ b ∈ new.coords d, Bits.val b ≠ .nan) :
    ((StretchPar.set m old new).1 = true ↔ ∀ d, (new.coords d).length = m.len d + 1 ∧
      (new.coords d).Pairwise fun a b => (Bits.val a).lt (Bits.val b)) ∧
    ((StretchPar.set m old new).1 = true → (StretchPar.set m old new).2 = new) ∧
    ((StretchPar.set m old new).1 = false → (StretchPar.set m old new).2 = old) := by
  obtain ⟨h1, h2, h3⟩ := StretchPar.set_cases m old new
  refine ⟨?_, h2, h3⟩
  rw [h1]
  exact forall_congr' fun d => dimOk_iff (h.pos d) (len_lt h d) (hs d) (hn d)

/-- C48: whether or not numbers are NaN, rejected coordinates have no effect, and too few coordinates, a wrong number of
coordinates or a coordinate that is not larger than the previous one are rejected in any dimension. -/
theorem C48_stretched_rejects (m : Mapping) (old new : StretchPar) :
    ((StretchPar.set m old new).1 = false → (StretchPar.set m old new).2 = old) ∧
    ((∃ d, (new.coords d).length < 2 ∨ (new.coords d).length ≠ m.len d + 1 ∨
      ∃ l a b l', new.coords d = l ++ a :: b :: l' ∧ (Bits.val b).le (Bits.val a)) →
      (∀ d, m.len d + 1 < W) → StretchPar.set m old new = (false, old)) := by
  obtain ⟨h1, h2, h3⟩ := StretchPar.set_cases m old new
  refine ⟨h3, ?_⟩
  rintro ⟨d, hd⟩ hW
  have hbad : ∀ (l : List Nat) (a b : Nat) (l' : List Nat), (Bits.val b).le (Bits.val a) →
      increasing (l ++ a :: b :: l') = false := by
    intro l a b l' hab
    induction l with
    | nil => show increasing (a :: b :: l') = false; unfold increasing; rw [if_pos hab]
    | cons x l ih =>
      cases l with
      | nil =>
        show increasing (x :: a :: b :: l') = false
        unfold increasing
        split
        · rfl
        · exact ih
      | cons y l =>
        show increasing (x :: y :: (l ++ a :: b :: l')) = false
        unfold increasing
        split
        · rfl
        · exact ih
  have hf : dimOk (m.len d) (new.coords d) = false := by
    unfold dimOk
    rw [show wadd (m.len d) 1 = m.len d + 1 from Nat.mod_eq_of_lt (hW d)]
    split
    · rfl
    · split
      · rfl
      · rename_i e1 e2
        rcases hd with hd | hd | ⟨l, a, b, l', e, hab⟩
        · exact absurd hd e1
        · exact absurd hd e2
        · rw [e]; exact hbad l a b l' hab
  have hr : (StretchPar.set m old new).1 = false := by
    cases hc : (StretchPar.set m old new).1 with
    | false => rfl
    | true => rw [h1.1 hc d] at hf; cases hf
  exact Prod.ext hr (h3 hr)

/-- Exact numbers of accepted parameters are as assumed in C44, C45 and C46. -/
theorem C48_cartesian_accepted {old new : CartPar} {G : Cartesian} (hset : (CartPar.set old new).1 = true)
    (hG : ∀ d, Bits.val (new.len d) = .fin (G.len d)) : ∀ d, 0 < G.len d := by
  intro d
  have := ((C48_cartesian_partial old new fun d => by rw [hG]; intro e; cases e).1.1 hset) d
  rw [hG] at this
  exact this

/-- Exact numbers of accepted coordinates are as assumed in C47. -/
theorem C48_stretched_accepted {m : Mapping} (h : m.OK) {old new : StretchPar} {G : Stretched}
    (hs : ∀ d, (new.coords d).length < W) (hset : (StretchPar.set m old new).1 = true)
    (hG : ∀ d, (new.coords d).map Bits.val = (G.coords d).map Val.fin) : G.Ok m := by
  have hn : ∀ d, ∀ b ∈ new.coords d, Bits.val b ≠ .nan := by
    intro d b hb e
    have : Bits.val b ∈ (G.coords d).map Val.fin := by rw [← hG]; exact List.mem_map_of_mem hb
    obtain ⟨q, -, hq⟩ := List.mem_map.1 this
    rw [e] at hq; cases hq
  intro d
  obtain ⟨h1, h2⟩ := (dimOk_iff (h.pos d) (len_lt h d) (hs d) (hn d)).1 ((StretchPar.set_cases m old new).1.1 hset d)
  have hlen := congrArg List.length (hG d)
  rw [List.length_map, List.length_map] at hlen
  refine ⟨by omega, ?_⟩
  have h3 : ((new.coords d).map Bits.val).Pairwise Val.lt := List.pairwise_map.2 h2
  rw [hG, List.pairwise_map] at h3
  exact h3

/-- C48 is false as stated: lengths that are NaN, which are not positive, and coordinates with NaN, which are not
increasing, are accepted. -/
theorem C48_false : (∃ old new : CartPar, (CartPar.set old new).1 = true ∧
      ¬ ∀ d, (Val.fin 0).lt (Bits.val (new.len d))) ∧
    (∃ (m : Mapping) (old new : StretchPar), m.OK ∧ (StretchPar.set m old new).1 = true ∧
      ¬ ∀ d, (new.coords d).Pairwise fun a b => (Bits.val a).lt (Bits.val b)) := by
  refine ⟨⟨⟨v3 0 0 0, v3 0x3ff0000000000000 0x3ff0000000000000 0x3ff0000000000000⟩,
    ⟨v3 0 0 0, v3 0x3ff0000000000000 0x7ff8000000000000 0x3ff0000000000000⟩, by decide +kernel, ?_⟩,
    ⟨tinyM, ⟨fun _ => []⟩, ⟨v3 [0x3ff0000000000000, 0x7ff8000000000000, 0] [0, 0x3ff0000000000000]
      [0, 0x3ff0000000000000]⟩, tinyM_ok, by decide +kernel, ?_⟩⟩
  · rw [forall_fin3]; decide +kernel
  · intro h
    have := h 0
    revert this
    show ¬ [0x3ff0000000000000, 0x7ff8000000000000, 0].Pairwise fun a b => (Bits.val a).lt (Bits.val b)
    rw [List.pairwise_cons]
    intro h
    have := h.1 0x7ff8000000000000 (by simp)
    revert this
    decide +kernel

/-- Parameters that are accepted and parameters that are rejected, in all cases with no NaN. -/
example : (CartPar.set ⟨v3 0 0 0, v3 0 0 0⟩ ⟨v3 0 0 0, v3 0x3ff0000000000000 0x4000000000000000 1⟩).1 = true ∧
    (CartPar.set ⟨v3 0 0 0, v3 0 0 0⟩ ⟨v3 0 0 0, v3 0x3ff0000000000000 0x4000000000000000 0⟩).1 = false ∧
    (StretchPar.set tinyM ⟨fun _ => []⟩ ⟨v3 [0xbff0000000000000, 0, 1] [0, 1] [0, 1]⟩).1 = true ∧
    (StretchPar.set tinyM ⟨fun _ => []⟩ ⟨v3 [0xbff0000000000000, 0, 1] [0, 1] [0, 0]⟩).1 = false := by
  decide +kernel

/-! ## Stretched geometry from Cartesian geometry -/

theorem range_coords {n : Nat} {a l : Rat} (hl : 0 < l) :
    (((List.range n).map fun i : Nat => a + (i : Rat) * l)).Pairwise (· < ·) := by
  rw [List.pairwise_map]
  refine List.pairwise_lt_range.imp ?_
  intro i j hij
  have : (i : Rat) < (j : Rat) := by exact_mod_cast hij
  have := Rat.mul_lt_mul_of_pos_right this hl
  grind

/-- C59: the same geometry as the given one: sizes and positions of all cells are equal. -/
theorem C59_of_cartesian {m : Mapping} (h : m.OK) {G : Cartesian} (hG : ∀ d, 0 < G.len d) :
    ∃ S, Stretched.ofCartesian m m G = some S ∧ S.Ok m ∧ S.getStart = G.getStart ∧ S.getEnd m = G.getEnd m ∧
      ∀ c, S.getMin m c = G.getMin m c ∧ S.getMax m c = G.getMax m c ∧ S.getLength m c = G.getLength m c ∧
        S.getCenter m c = G.getCenter m c := by
  refine ⟨{ coords := fun d => (List.range (m.len d + 1)).map fun i : Nat => G.getStart d + (i : Rat) * G.len d }, ?_, ?_, ?_⟩
  · unfold Stretched.ofCartesian
    rw [if_neg (by simp), if_neg (by simp), if_neg (by simp)]
  · intro d
    exact ⟨by simp, range_coords (hG d)⟩
  · generalize hS : ({ coords := fun d => (List.range (m.len d + 1)).map fun i : Nat => G.getStart d + (i : Rat) * G.len d } :
      Stretched) = S
    have hok : S.Ok m := by
      rw [← hS]
      intro d
      exact ⟨by simp, range_coords (hG d)⟩
    have hco : ∀ d i, i ≤ m.len d → S.coord d i = G.start d + (i : Rat) * G.len d := by
      intro d i hi
      rw [← hS]
      unfold Stretched.coord
      rw [List.getD_eq_getElem?_getD, List.getElem?_map, List.getElem?_range (by omega), Cartesian.getStart_eq]
      rfl
    have hpos : ∀ d a, a ≤ m.cfg.n d → S.pos m d a = G.pos m d a := by
      intro d a ha
      have hM0 : 0 < 2 ^ m.cfg.maxLvl := Nat.pow_pos (by omega)
      have hM := pow_cast_pos m.cfg.maxLvl
      have hdm := Nat.div_add_mod a (2 ^ m.cfg.maxLvl)
      by_cases hq : a / 2 ^ m.cfg.maxLvl < m.len d
      · unfold Stretched.pos Cartesian.pos
        rw [hco d _ (by omega), hco d _ (by omega)]
        have e : (a : Rat) = ((2 ^ m.cfg.maxLvl : Nat) : Rat) * ((a / 2 ^ m.cfg.maxLvl : Nat) : Rat) +
            ((a % 2 ^ m.cfg.maxLvl : Nat) : Rat) := by
          have := congrArg (fun n : Nat => (n : Rat)) hdm
          simp only [Rat.natCast_add, Rat.natCast_mul] at this
          exact this.symm
        rw [e, Rat.natCast_add]
        generalize ((2 ^ m.cfg.maxLvl : Nat) : Rat) = M at *
        generalize ((a / 2 ^ m.cfg.maxLvl : Nat) : Rat) = q at *
        generalize ((a % 2 ^ m.cfg.maxLvl : Nat) : Rat) = r at *
        have : M ≠ 0 := by grind
        push_cast
        grind
      · have e : a = m.cfg.n d := by
          have h1 : m.cfg.n d = m.len d * 2 ^ m.cfg.maxLvl := rfl
          have h2 : m.len d * 2 ^ m.cfg.maxLvl ≤ a / 2 ^ m.cfg.maxLvl * 2 ^ m.cfg.maxLvl :=
            Nat.mul_le_mul_right _ (by omega)
          rw [Nat.mul_comm (a / _)] at h2
          omega
        rw [e, Stretched.pos_end, Cartesian.pos_end, Stretched.getEnd_eq, Cartesian.getEnd_eq]
        exact hco d _ (Nat.le_refl _)
    have hb : ∀ c, S.getMin m c = G.getMin m c ∧ S.getMax m c = G.getMax m c := by
      intro c
      constructor
      · funext d
        rw [Stretched.getMin_eq h, Cartesian.getMin_eq h]
        by_cases hv : m.cfg.Valid c
        · rw [if_pos hv, if_pos hv, hpos d _ (Nat.le_of_lt (idx_inGrid h.wf hv d))]
        · rw [if_neg hv, if_neg hv]
      · funext d
        rw [Stretched.getMax_eq h, Cartesian.getMax_eq h]
        by_cases hv : m.cfg.Valid c
        · rw [if_pos hv, if_pos hv, hpos d _ (end_le h.wf hv d)]
        · rw [if_neg hv, if_neg hv]
    have h1 := C47_consistent h hok
    have h2 := C44_cartesian_consistent (G := G) h hG
    refine ⟨?_, ?_, fun c => ⟨(hb c).1, (hb c).2, ?_, ?_⟩⟩
    · funext d
      rw [← Stretched.pos_zero (m := m), ← Cartesian.pos_zero (m := m), hpos d 0 (Nat.zero_le _)]
    · funext d
      rw [← Stretched.pos_end (m := m), ← Cartesian.pos_end (m := m), hpos d _ (Nat.le_refl _)]
    · funext d
      by_cases hv : m.ValidId c
      · obtain ⟨lo, hi, a1, a2, -, -, -, a3, a4⟩ := h1.box c hv d
        obtain ⟨lo', hi', b1, b2, -, -, -, b3, b4⟩ := h2.box c hv d
        have e1 : S.getMin m c d = some lo := a1
        have e2 : S.getMax m c d = some hi := a2
        rw [(hb c).1] at e1
        rw [(hb c).2] at e2
        have e3 : G.getMin m c d = some lo' := b1
        have e4 : G.getMax m c d = some hi' := b2
        rw [e1] at e3; rw [e2] at e4
        injection e3 with e3; injection e4 with e4
        subst e3; subst e4
        exact Eq.trans a3 b3.symm
      · exact Eq.trans (h1.nan c hv d).2.2.1 (h2.nan c hv d).2.2.1.symm
    · funext d
      by_cases hv : m.ValidId c
      · obtain ⟨lo, hi, a1, a2, -, -, -, a3, a4⟩ := h1.box c hv d
        obtain ⟨lo', hi', b1, b2, -, -, -, b3, b4⟩ := h2.box c hv d
        have e1 : S.getMin m c d = some lo := a1
        have e2 : S.getMax m c d = some hi := a2
        rw [(hb c).1] at e1
        rw [(hb c).2] at e2
        have e3 : G.getMin m c d = some lo' := b1
        have e4 : G.getMax m c d = some hi' := b2
        rw [e1] at e3; rw [e2] at e4
        injection e3 with e3; injection e4 with e4
        subst e3; subst e4
        exact Eq.trans a4 b4.symm
      · exact Eq.trans (h1.nan c hv d).2.2.2 (h2.nan c hv d).2.2.2.symm

/-- The grid of other examples, with the same geometry in both forms. -/
example : tinyM.OK ∧ (∀ d, 0 < tinyCart.len d) ∧
    (Stretched.ofCartesian tinyM tinyM tinyCart).map (fun S => S.coords 0) = some [-1, 1, 3] :=
  ⟨tinyM_ok, tinyCart_ok, by decide +kernel⟩

/-- C59: grids of different length are rejected. -/
theorem C59_of_cartesian_length (m m' : Mapping) (G : Cartesian) :
    Stretched.ofCartesian m m' G = none ↔ m.len ≠ m'.len := by
  unfold Stretched.ofCartesian
  have : m.len = m'.len ↔ m.len 0 = m'.len 0 ∧ m.len 1 = m'.len 1 ∧ m.len 2 = m'.len 2 :=
    ⟨fun h => by rw [h]; exact ⟨rfl, rfl, rfl⟩, fun h => v3_ext h.1 h.2.1 h.2.2⟩
  by_cases h0 : m.len 0 = m'.len 0 <;> by_cases h1 : m.len 1 = m'.len 1 <;> by_cases h2 : m.len 2 = m'.len 2 <;>
    simp [this, h0, h1, h2]

/-- C59, the part that holds: after `reset` cells of level 0 have unit size and the grid starts at the origin, as with
`No_Geometry`. Missing: geometry that was constructed before the length of the grid was set, see `C59_false`. -/
theorem C59_reset_partial {m : Mapping} (h : m.OK) :
    (Stretched.reset m).Ok m ∧ (Stretched.reset m).getStart = NoGeometry.getStart ∧
    (Stretched.reset m).getEnd m = NoGeometry.getEnd m ∧
    ∀ c, (Stretched.reset m).getMin m c = NoGeometry.getMin m c ∧ (Stretched.reset m).getMax m c = NoGeometry.getMax m c := by
  have h1 : ∀ d, 0 < Cartesian.init.len d := fun d => by show (0 : Rat) < 1; decide
  obtain ⟨S, e, h2, h3, h4, h5⟩ := C59_of_cartesian h h1
  have hS : S = Stretched.reset m := by
    unfold Stretched.ofCartesian at e
    rw [if_neg (by simp), if_neg (by simp), if_neg (by simp)] at e
    injection e with e
    rw [← e]
    unfold Stretched.reset
    congr 1
    funext d
    congr 1
    funext i
    rw [Cartesian.getStart_eq]
    simp only [Cartesian.init]
    grind
  rw [← hS, NoGeometry.getStart_eq, NoGeometry.getEnd_eq]
  refine ⟨h2, h3, h4, fun c => ?_⟩
  rw [NoGeometry.getMin_eq, NoGeometry.getMax_eq]
  exact ⟨(h5 c).1, (h5 c).2.1⟩

theorem init_len : ∀ d, Mapping.init.len d = 1 := by rw [forall_fin3]; decide

/-- C59 is false as stated: a stretched geometry is constructed with the default mapping, of one cell, and is not changed when
the length of the grid is set, so that it has too few coordinates in every longer dimension. -/
theorem C59_default (m : Mapping) : (Stretched.reset Mapping.init).Ok m ↔ ∀ d, m.len d = 1 := by
  constructor
  · intro h d
    have := (h d).1
    unfold Stretched.reset at this
    rw [List.length_map, List.length_range] at this
    have e : Mapping.init.len d = 1 := init_len d
    omega
  · intro h d
    have e : Mapping.init.len d = 1 := init_len d
    refine ⟨?_, ?_⟩
    · rw [h d]
      unfold Stretched.reset
      rw [List.length_map, List.length_range, e]
    · have := range_coords (n := Mapping.init.len d + 1) (a := 0) (l := 1) (by decide)
      unfold Stretched.reset
      refine (congrArg (fun f => List.Pairwise (· < ·) (List.map f (List.range (Mapping.init.len d + 1)))) ?_).mp this
      funext i
      grind

theorem C59_false : ∃ m : Mapping, m.OK ∧ ¬ (Stretched.reset Mapping.init).Ok m :=
  ⟨tinyM, tinyM_ok, fun h => absurd ((C59_default tinyM).1 h 0) (by decide)⟩

end Dccrg
