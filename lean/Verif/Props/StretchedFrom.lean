import Verif.Props.StretchedError
import Verif.Props.GeomSet
/-!
# C94: stretched geometry from Cartesian geometry, with rounding

`set(const Cartesian_Geometry&)` calculates the coordinates (`StretchedD.ofCartesian`) and then calls `set`
(`StretchPar.set`), which checks them.
-/
namespace Dccrg
open Cfg

section
variable {m : Mapping} {G : Cartesian} {k : V3 Nat}

theorem ofCartesian_toD {S : Stretched} (hS : ∀ d, (S.coords d).length = m.len d + 1)
    (hc : ∀ d i, i ≤ m.len d → (G.toD.getStart d).add ((Val.ofNat i).mul (G.toD.len d)) = .fin (S.coord d i)) :
    StretchedD.ofCartesian m G.toD = S.toD := by
  unfold StretchedD.ofCartesian Stretched.toD
  congr 1
  funext d
  apply List.ext_getElem?
  intro i
  rw [List.getElem?_map, List.getElem?_map]
  by_cases hi : i < m.len d + 1
  · rw [List.getElem?_range hi, List.getElem?_eq_getElem (show i < (S.coords d).length by rw [hS]; exact hi)]
    show some ((G.toD.getStart d).add ((Val.ofNat i).mul (G.toD.len d))) = some _
    rw [hc d i (by omega)]
    unfold Stretched.coord
    rw [List.getD_eq_getElem?_getD, List.getElem?_eq_getElem (show i < (S.coords d).length by rw [hS]; exact hi)]
    rfl
  · rw [List.getElem?_eq_none (by simpa using hi), List.getElem?_eq_none (by rw [hS]; omega)]
    rfl

/-- Parameters of increasing coordinates are accepted. -/
theorem set_accepts (h : m.OK) {S : Stretched} (hS : S.Ok m) (hW : ∀ d, m.len d + 1 < W) {old q : StretchPar} (hq : q.toD = S.toD) :
    StretchPar.set m old q = (true, q) := by
  have he : ∀ d, (q.coords d).map Bits.val = (S.coords d).map Val.fin := fun d => congrFun (congrArg StretchedD.coords hq) d
  have hn : ∀ d, ∀ b ∈ q.coords d, Bits.val b ≠ .nan := by
    intro d b hb e
    have : Bits.val b ∈ (S.coords d).map Val.fin := by rw [← he]; exact List.mem_map_of_mem hb
    obtain ⟨z, -, hz⟩ := List.mem_map.1 this
    rw [e] at hz; cases hz
  have hl : ∀ d, (q.coords d).length = m.len d + 1 := by
    intro d
    have := congrArg List.length (he d)
    rw [List.length_map, List.length_map, (hS d).1] at this
    exact this
  obtain ⟨h1, h2, -⟩ := C48_stretched_partial h old q (fun d => by rw [hl]; exact hW d) hn
  have ht : (StretchPar.set m old q).1 = true := by
    refine h1.2 fun d => ⟨hl d, ?_⟩
    have hp : ((q.coords d).map Bits.val).Pairwise Val.lt := by
      rw [he, List.pairwise_map]
      exact (hS d).2
    rw [List.pairwise_map] at hp
    exact hp
  exact Prod.ext ht (h2 ht)

theorem bin_of_cartesian {A : V3 Int} {B : V3 Nat} (hb : G.BinGrid m k A B) {S : Stretched}
    (hco : ∀ d i, i ≤ m.len d → S.coord d i = G.start d + (i : Rat) * G.len d) : S.BinGrid m k := by
  intro d i hi
  have hd := hb d
  refine ⟨A d + ((i * B d * 2 ^ (m.maxLvl.toNat + 1) : Nat) : Int), B d, ?_, ?_, hd.pos, by omega, ?_, hd.lvl, hd.exp⟩
  · rw [hco d i (by omega), Rat.intCast_add, natCast_int, Rat.natCast_mul, Rat.natCast_mul]
    have := hd.start
    have := hd.len
    grind
  · rw [hco d i (by omega), hco d (i + 1) (by omega), Rat.natCast_add]
    have := hd.len
    have e : ((1 : Nat) : Rat) = 1 := rfl
    show _ = (B d : Rat) * ((2 ^ (m.maxLvl.toNat + 1) : Nat) : Rat) * _
    grind
  · have hf := hd.fits
    have h1 : (i + 1) * B d * 2 ^ (m.maxLvl.toNat + 1) ≤ m.len d * B d * 2 ^ (m.maxLvl.toNat + 1) :=
      Nat.mul_le_mul_right _ (Nat.mul_le_mul_right _ hi)
    have e : (i + 1) * B d * 2 ^ (m.maxLvl.toNat + 1) = i * B d * 2 ^ (m.maxLvl.toNat + 1) + 1 * B d * 2 ^ (m.maxLvl.toNat + 1) := by
      rw [Nat.add_mul, Nat.add_mul]
    show _ + 1 * B d * 2 ^ (m.maxLvl.toNat + 1) ≤ _
    rw [e] at h1
    generalize i * B d * 2 ^ (m.maxLvl.toNat + 1) = x at *
    generalize 1 * B d * 2 ^ (m.maxLvl.toNat + 1) = y at *
    generalize m.len d * B d * 2 ^ (m.maxLvl.toNat + 1) = z at *
    omega

/-- C94, without rounding (C82): `set` accepts the coordinates, and start and end of the grid and length, center and corners
of every cell are the same numbers as in the given geometry. Missing: other parameters, see `C94_rounded_partial` and
`C94_false`. -/
theorem C94_exact_partial (h : m.OK) (hG : G.Dyadic m k) :
    (∀ old q : StretchPar, q.toD = StretchedD.ofCartesian m G.toD → StretchPar.set m old q = (true, q)) ∧
    ∀ d, (StretchedD.ofCartesian m G.toD).getStart d = G.toD.getStart d ∧
      (StretchedD.ofCartesian m G.toD).getEnd m d = G.toD.getEnd m d ∧
      ∀ c, (StretchedD.ofCartesian m G.toD).getLength m c d = G.toD.getLength m c d ∧
        (StretchedD.ofCartesian m G.toD).getCenter m c d = G.toD.getCenter m c d ∧
        (StretchedD.ofCartesian m G.toD).getMin m c d = G.toD.getMin m c d ∧
        (StretchedD.ofCartesian m G.toD).getMax m c d = G.toD.getMax m c d := by
  obtain ⟨A, B, hb⟩ := hG.bin h
  obtain ⟨S, e1, hok, e3, e4, e5⟩ := C59_of_cartesian h hG.len
  have hS : S = { coords := fun d => (List.range (m.len d + 1)).map fun i : Nat => G.getStart d + (i : Rat) * G.len d } := by
    unfold Stretched.ofCartesian at e1
    rw [if_neg (by simp), if_neg (by simp), if_neg (by simp)] at e1
    injection e1 with e1
    exact e1.symm
  have hco : ∀ d i, i ≤ m.len d → S.coord d i = G.start d + (i : Rat) * G.len d := by
    intro d i hi
    rw [hS]
    unfold Stretched.coord
    rw [List.getD_eq_getElem?_getD, List.getElem?_map, List.getElem?_range (by omega), Cartesian.getStart_eq]
    rfl
  have hD : StretchedD.ofCartesian m G.toD = S.toD := by
    refine ofCartesian_toD (fun d => (hok d).1) fun d i hi => ?_
    rw [hco d i hi, Cartesian.toD_start]
    show (Val.fin (G.start d)).add ((Val.ofNat i).mul (.fin (G.len d))) = _
    by_cases h0 : i = 0
    · subst h0
      have hz := (hb d).at_idx (p := 0) (Nat.zero_le _)
      have e0 : ((0 : Nat) : Rat) = 0 := rfl
      have x1 : (0 : Rat) * G.len d / ((2 ^ m.maxLvl.toNat : Nat) : Rat) = 0 := by
        have := pow_pos' m.maxLvl.toNat; grind
      rw [e0, x1] at hz
      rw [ofNat_exact (by omega), Val.mul_fin, e0, show ∀ y : Rat, 0 * y = 0 from fun y => by grind,
        show Val.ofRat 0 = .fin 0 by decide +kernel]
      exact hz
    · have hd := hb d
      have h1 : i * B d * 2 ^ (m.maxLvl.toNat + 1) ≤ m.len d * B d * 2 ^ (m.maxLvl.toNat + 1) :=
        Nat.mul_le_mul_right _ (Nat.mul_le_mul_right _ hi)
      have hd' : BinDim m.maxLvl.toNat i (G.start d) (G.len d) (k d) (A d) (B d) :=
        ⟨hd.start, hd.len, hd.pos, by omega, Nat.le_trans (Nat.add_le_add_left h1 _) hd.fits, hd.lvl, hd.exp⟩
      exact hd'.end_eq
  have hbS := bin_of_cartesian hb hco
  rw [hD]
  have hW : ∀ d, m.len d + 1 < W := by
    intro d
    have h1 := (hb d).fits
    have h2 : m.len d * 1 * 1 ≤ m.len d * B d * 2 ^ (m.maxLvl.toNat + 1) :=
      Nat.mul_le_mul (Nat.mul_le_mul_left _ (hb d).pos) (Nat.pow_pos (by omega))
    have h3 : 2 ^ 51 + 1 < W := by decide
    omega
  refine ⟨fun old q hq => set_accepts h hok hW hq, fun d => ?_⟩
  obtain ⟨c1, c2, c3, -⟩ := C82_cells h hG d
  refine ⟨?_, ?_, fun c => ?_⟩
  · rw [Stretched.toD_start hok, e3, c1]
  · rw [Stretched.toD_end hok, e4, c2]
  · obtain ⟨f1, f2, f3, f4⟩ := c3 c
    obtain ⟨g1, g2, g3, g4⟩ := e5 c
    rw [f1, f2, f3, f4, Stretched.bin_length h hok hbS, Stretched.bin_center h hok hbS,
      (Stretched.bin_min_max h hok hbS c d).1, (Stretched.bin_min_max h hok hbS c d).2, g1, g2, g3, g4]
    exact ⟨rfl, rfl, rfl, rfl⟩

theorem SafeDim.fewer {M n i : Nat} {a l : Rat} (h : SafeDim M n a l) (h0 : 0 < i) (hi : i ≤ n) : SafeDim M i a l := by
  have hl := h.len_pos
  refine ⟨h.start, h.len, h0, h.small, Nat.le_trans (Nat.mul_le_mul_right _ hi) h.idx, ?_, h.lvl⟩
  have h1 := Rat.mul_le_mul_of_nonneg_right (Rat.natCast_le_natCast.2 (Nat.mul_le_mul_right (2 ^ M) hi)) (Rat.le_of_lt hl)
  have h2 := h.big
  generalize (2 : Rat) ^ 1000 = P at *
  grind

/-- C94, for cells of level 0 whose length is at least five errors (`2^-53` times the distance of the start of the grid
from zero plus the length of the grid): `set` accepts the coordinates, the first is the start of the given geometry, and all
are within three errors of exact ones. Missing: shorter cells, for which `set` can fail (`C94_false`). -/
theorem C94_rounded_partial (h : m.OK) (hG : G.Moderate m) (hl : ∀ d, 5 * G.err m d ≤ G.len d) :
    (∀ old q : StretchPar, q.toD = StretchedD.ofCartesian m G.toD → StretchPar.set m old q = (true, q)) ∧
    ∀ d, (StretchedD.ofCartesian m G.toD).getStart d = G.toD.getStart d ∧
      ∀ i, i ≤ m.len d → Within (3 * G.err m d) ((StretchedD.ofCartesian m G.toD).coord d i) (some (G.start d + (i : Rat) * G.len d)) := by
  have hs := hG.safe h
  have key : ∀ d i, i ≤ m.len d → ∃ t : Rat, (G.toD.getStart d).add ((Val.ofNat i).mul (G.toD.len d)) = .fin t ∧
      (i = 0 → t = G.start d) ∧ mag (t - (G.start d + (i : Rat) * G.len d)) ≤ G.err m d * (21 / 10) := by
    intro d i hi
    have hE := Cartesian.err_pos h hG d
    rw [Cartesian.toD_start]
    show ∃ t : Rat, (Val.fin (G.start d)).add ((Val.ofNat i).mul (.fin (G.len d))) = .fin t ∧ _
    by_cases h0 : i = 0
    · subst h0
      have e0 : ((0 : Nat) : Rat) = 0 := rfl
      refine ⟨G.start d, ?_, fun _ => rfl, ?_⟩
      · rw [ofNat_exact (by omega), Val.mul_fin, e0, show ∀ y : Rat, 0 * y = 0 from fun y => by grind,
          show Val.ofRat 0 = .fin 0 by decide +kernel, Val.add_fin, show G.start d + 0 = G.start d by grind, ofRat_bound (by
            have h1 := (hs d).big
            have h2 := (hs d).len_pos
            have h3 : (0 : Rat) ≤ ((m.len d * 2 ^ m.maxLvl.toNat : Nat) : Rat) := by exact_mod_cast Nat.zero_le _
            have h4 := Rat.mul_nonneg h3 (Rat.le_of_lt h2)
            have : (2 : Rat) ^ 1000 ≤ 2 ^ 1001 := by decide +kernel
            generalize (2 : Rat) ^ 1000 = P at *
            generalize (2 : Rat) ^ 1001 = Q at *
            grind), rnd_exact (hs d).start]
      · rw [e0, show G.start d - (G.start d + 0 * G.len d) = 0 by grind, mag_of_nonneg (by decide)]
        grind
    · obtain ⟨t, t1, -, t3⟩ := ((hs d).fewer (i := i) (by omega) hi).end_close
      refine ⟨t, t1, fun e => absurd e h0, ?_⟩
      have h1 := (hs d).len_pos
      have h2 := Rat.mul_le_mul_of_nonneg_right (Rat.natCast_le_natCast.2 hi) (Rat.le_of_lt h1)
      have h3 := Rat.mul_le_mul_of_nonneg_left (show mag (G.start d) + (i : Rat) * G.len d ≤
        mag (G.start d) + (m.len d : Rat) * G.len d by grind) (Rat.le_of_lt eps_pos)
      rw [Cartesian.err_eq]
      unfold Cartesian.scaleOf
      grind
  let f : Fin 3 → Nat → Rat := fun d i => if hi : i ≤ m.len d then Classical.choose (key d i hi) else 0
  have hf : ∀ d i, i ≤ m.len d → (G.toD.getStart d).add ((Val.ofNat i).mul (G.toD.len d)) = .fin (f d i) ∧
      (i = 0 → f d i = G.start d) ∧ mag (f d i - (G.start d + (i : Rat) * G.len d)) ≤ G.err m d * (21 / 10) := by
    intro d i hi
    have := Classical.choose_spec (key d i hi)
    show (G.toD.getStart d).add _ = .fin (dite _ _ _) ∧ (_ → dite _ _ _ = _) ∧ mag (dite _ _ _ - _) ≤ _
    rw [dif_pos hi]
    exact this
  clear_value f
  generalize hS : ({ coords := fun d => (List.range (m.len d + 1)).map (f d) } : Stretched) = S
  have hlen : ∀ d, (S.coords d).length = m.len d + 1 := by
    intro d; rw [← hS]; simp
  have hco : ∀ d i, i ≤ m.len d → S.coord d i = f d i := by
    intro d i hi
    rw [← hS]
    unfold Stretched.coord
    rw [List.getD_eq_getElem?_getD, List.getElem?_map, List.getElem?_range (by omega)]
    rfl
  have hD : StretchedD.ofCartesian m G.toD = S.toD := ofCartesian_toD hlen fun d i hi => by rw [hco d i hi]; exact (hf d i hi).1
  have hok : S.Ok m := by
    intro d
    refine ⟨hlen d, ?_⟩
    rw [List.pairwise_iff_getElem]
    intro i j hi hj hij
    rw [hlen] at hi hj
    have e : ∀ i (hi : i < (S.coords d).length), (S.coords d)[i] = S.coord d i := by
      intro i hi
      unfold Stretched.coord
      rw [List.getD_eq_getElem?_getD, List.getElem?_eq_getElem hi]; rfl
    rw [e, e, hco d i (by omega), hco d j (by omega)]
    have m1 := mag_le_iff.1 (hf d i (by omega)).2.2
    have m2 := mag_le_iff.1 (hf d j (by omega)).2.2
    have hE := Cartesian.err_pos h hG d
    have h1 := (hs d).len_pos
    have h2 := Rat.mul_le_mul_of_nonneg_right (show ((i + 1 : Nat) : Rat) ≤ (j : Rat) from Rat.natCast_le_natCast.2 hij) (Rat.le_of_lt h1)
    rw [Rat.natCast_add] at h2
    have e1 : ((1 : Nat) : Rat) = 1 := rfl
    have := hl d
    grind
  rw [hD]
  have hW : ∀ d, m.len d + 1 < W := by
    intro d
    have h1 := (hs d).idx
    have h2 : m.len d * 1 ≤ m.len d * 2 ^ m.maxLvl.toNat := Nat.mul_le_mul_left _ (Nat.pow_pos (by omega))
    have h3 : 2 ^ 53 + 1 < W := by decide
    omega
  refine ⟨fun old q hq => set_accepts h hok hW hq, fun d => ⟨?_, fun i hi => ?_⟩⟩
  · rw [Stretched.toD_start hok, Stretched.getStart_eq]
    show Val.fin (S.coord d 0) = _
    rw [hco d 0 (Nat.zero_le _), (hf d 0 (Nat.zero_le _)).2.1 rfl, Cartesian.toD_start]
  · refine ⟨f d i, _, by rw [Stretched.toD_coord hok hi, hco d i hi], rfl, ?_⟩
    have := (hf d i hi).2.2
    have hE := Cartesian.err_pos h hG d
    grind

/-- C94 is false: `Cartesian_Geometry` accepts two cells of length 1 from `2^60`, but a stretched geometry can't be set from
it: the second coordinate is rounded to the first. -/
theorem C94_false : ∃ (m : Mapping) (old p : CartPar) (q : StretchPar), m.OK ∧ (old.set p).1 = true ∧
    (∀ d, q.toD.coords d = (StretchedD.ofCartesian m p.toD).coords d) ∧ ∀ old', StretchPar.set m old' q = (false, old') := by
  refine ⟨pairM, ⟨fun _ => 0, fun _ => 0x3ff0000000000000⟩, ⟨fun _ => 1083 * 2 ^ 52, fun _ => 0x3ff0000000000000⟩,
    ⟨v3 [1083 * 2 ^ 52, 1083 * 2 ^ 52, 1083 * 2 ^ 52] [1083 * 2 ^ 52, 1083 * 2 ^ 52] [1083 * 2 ^ 52, 1083 * 2 ^ 52]⟩,
    pairM_ok, by decide +kernel, ?_, fun old' => ?_⟩
  · rw [forall_fin3]; decide +kernel
  · unfold StretchPar.set
    rw [if_neg (by decide +kernel)]

end

/-- Hypotheses for evenly spaced cells with and without rounding. -/
example : tinyM.OK ∧ tinyCart.Dyadic tinyM (fun _ => 1068) ∧ tenthCart.Moderate tinyM ∧
    (∀ d, 5 * tenthCart.err tinyM d ≤ tenthCart.len d) := by
  refine ⟨tinyM_ok, tinyCart_dyadic, tenthCart_moderate, ?_⟩
  rw [forall_fin3]; decide +kernel

example : (StretchedD.ofCartesian tinyM tenthCart.toD).coord 0 2 ≠ .fin (tenthCart.start 0 + 2 * tenthCart.len 0) := by
  decide +kernel

end Dccrg
