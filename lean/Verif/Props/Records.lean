import Verif.Records
import Verif.Props.GeomSet
/-!
# C09: grid metadata survives writing and reading

`Order` is the byte order of computers, `File` the bytes of a file, `Chain a l b` says that writes `l` follow each other
without gaps from offset `a` to offset `b` (Verif/Bytes.lean).
-/
namespace Dccrg

theorem chain_self_holds (f : File) {a b : Nat} {l : List Write} (h : Chain a l b) : (f.writes l).Holds a (contents l) :=
  chain_holds f h (List.Perm.refl l)

/-! ## Sizes -/

theorem C09_mapping_size (e : Order) (m : Mapping) (off : Nat) : Chain off (m.writes e off) (off + m.dataSize) := by
  refine ⟨rfl, ?_, ?_⟩
  · rw [enc64_length]; rfl
  · rw [enc64_length, encInt_length]; rfl

theorem C09_topology_size (per : V3 Bool) (off : Nat) : Chain off (topologyWrites per off) (off + topologySize) :=
  ⟨rfl, rfl⟩

theorem C09_geometry_size (e : Order) (G : GeomPar) (off : Nat) : Chain off (G.writes e off) (off + G.dataSize) := by
  unfold GeomPar.writes GeomPar.dataSize
  refine ⟨rfl, ?_⟩
  simp only [encInt_length]
  cases G with
  | no => rfl
  | cartesian p =>
    refine ⟨rfl, ?_, ?_⟩ <;> simp only [enc64_length] <;> rfl
  | stretched p =>
    simp only [Chain, enc64_length, List.length_cons, List.length_nil]
    generalize (p.coords 0).length = a
    generalize (p.coords 1).length = b
    generalize (p.coords 2).length = c
    refine ⟨trivial, trivial, ?_, ?_, ?_⟩ <;> omega

/-! ## Mapping -/

/-- Length and maximum refinement level of the mapping are accepted in this order. -/
structure Mapping.Accepted (m : Mapping) : Prop where
  small : ∀ d, m.len d < 2 ^ 64
  range : -2 ^ 31 ≤ m.maxLvl ∧ m.maxLvl < 2 ^ 31
  len : Mapping.gridLengthSet m.len = some m.len
  lvl : m.maxLvl ≤ m.maxPossible
  last : m.updateLastCell = m

theorem gridLengthSet_eq {l l' : V3 Nat} (h : Mapping.gridLengthSet l = some l') : l' = l := by
  unfold Mapping.gridLengthSet at h
  split at h
  · cases h
  · split at h
    · cases h
    · injection h with h; exact h.symm

theorem sumLevels_congr {m m' : Mapping} (h : m.len = m'.len) (a k : Nat) : m.sumLevels a k = m'.sumLevels a k := by
  induction k with
  | zero => rfl
  | succ k ih =>
    unfold Mapping.sumLevels
    rw [ih]
    unfold Mapping.total
    rw [h]

theorem updateLastCell_twice (m : Mapping) : m.updateLastCell.updateLastCell = m.updateLastCell := by
  unfold Mapping.updateLastCell
  congr 1
  apply sumLevels_congr
  rfl

/-- Setting an accepted maximum refinement level after length. -/
theorem Mapping.Accepted.setMaxLvl {m : Mapping} (h : m.Accepted) {m1 : Mapping} (h1 : m1.len = m.len) :
    m1.setMaxLvl m.maxLvl = (true, m) := by
  have h2 := h.lvl
  have h3 := h.last
  unfold Mapping.maxPossible Mapping.total at h2
  unfold Mapping.setMaxLvl Mapping.maxPossible Mapping.total
  rw [h1, if_pos h2]
  refine Prod.ext rfl (Eq.trans ?_ h3)
  unfold Mapping.updateLastCell
  simp only []
  congr 1
  apply sumLevels_congr
  rfl

theorem enc3_length (e : Order) (a b c : Nat) : (enc64 e [a, b, c]).length = 24 := enc64_length ..

/-- Mappings whose length and then maximum refinement level have been set. -/
theorem Mapping.accepted {m0 m1 m : Mapping} {l : V3 Nat} {k : Int} (hl : ∀ d, l d < 2 ^ 64)
    (hk : -2 ^ 31 ≤ k ∧ k < 2 ^ 31) (h1 : m0.setLength l = (true, m1)) (h2 : m1.setMaxLvl k = (true, m)) :
    m.Accepted ∧ m.len = l ∧ m.maxLvl = k := by
  unfold Mapping.setLength at h1
  cases hg : Mapping.gridLengthSet l with
  | none => rw [hg] at h1; cases h1
  | some l' =>
    rw [hg] at h1
    have := gridLengthSet_eq hg
    subst this
    injection h1 with _ h1
    unfold Mapping.setMaxLvl at h2
    split at h2
    · rename_i hle
      injection h2 with _ h2
      subst h1 h2
      exact ⟨⟨hl, hk, hg, hle, updateLastCell_twice _⟩, rfl, rfl⟩
    · cases h2

theorem triple_list3 (v : V3 Nat) : triple [v 0, v 1, v 2] = v := by
  funext d
  match d with
  | 0 => rfl
  | 1 => rfl
  | 2 => rfl

theorem dec_triple (e : Order) {v : V3 Nat} (h : ∀ d, v d < 2 ^ 64) {f : File} {off : Nat}
    (hf : f.Holds off (enc64 e [v 0, v 1, v 2])) {buf : List Nat} (hb : buf.length = 24) :
    triple (dec64 e 3 (f.read off buf)) = v := by
  rw [Holds.read hf (by rw [enc64_length, hb]; rfl), show dec64 e 3 _ = _ from dec64_enc64 e [v 0, v 1, v 2] ?_, triple_list3]
  intro x hx
  simp only [List.mem_cons, List.not_mem_nil, or_false] at hx
  rcases hx with rfl | rfl | rfl <;> exact h _

theorem Mapping.read_holds (e : Order) {m m' : Mapping} (h : m.Accepted) {f : File} {off : Nat}
    (hf : f.Holds off (contents (m.writes e off))) : m'.read e f off = (true, m) := by
  have : contents (m.writes e off) = enc64 e [m.len 0, m.len 1, m.len 2] ++ encInt e m.maxLvl := by
    unfold contents Mapping.writes
    simp
  rw [this, holds_append, enc3_length] at hf
  unfold Mapping.read File.get
  simp only []
  rw [dec_triple e h.small hf.1 (List.length_replicate ..)]
  unfold Mapping.setLength
  rw [h.len]
  simp only [Bool.true_eq_false, if_false]
  rw [Holds.read hf.2 (by rw [encInt_length, encInt_length]), decInt_encInt e h.range.1 h.range.2]
  exact h.setMaxLvl rfl

/-- C09: a mapping whose length and then maximum refinement level have been accepted is restored from what it has written
to a file, whatever else is in the file and whatever mapping reads it. -/
theorem C09_mapping_partial (e : Order) (f : File) (off : Nat) {m0 m1 m : Mapping} {l : V3 Nat} {k : Int}
    (hl : ∀ d, l d < 2 ^ 64) (hk : -2 ^ 31 ≤ k ∧ k < 2 ^ 31) (h1 : m0.setLength l = (true, m1))
    (h2 : m1.setMaxLvl k = (true, m)) (m' : Mapping) :
    Mapping.read e (f.writes (m.writes e off)) off m' = (true, m) :=
  Mapping.read_holds e (Mapping.accepted hl hk h1 h2).1 (chain_self_holds f (C09_mapping_size e m off))

/-- C09: as above for streams, which are left after the mapping. -/
theorem C09_mapping_stream_partial (e : Order) (off : Nat) {m0 m1 m : Mapping} {l : V3 Nat} {k : Int}
    (hl : ∀ d, l d < 2 ^ 64) (hk : -2 ^ 31 ≤ k ∧ k < 2 ^ 31) (h1 : m0.setLength l = (true, m1))
    (h2 : m1.setMaxLvl k = (true, m)) (m' : Mapping) (rest : List Nat) :
    Mapping.readStream e (contents (m.writes e off) ++ rest) m' = (true, m, rest) := by
  have h := (Mapping.accepted hl hk h1 h2).1
  have hc : contents (m.writes e off) ++ rest =
      enc64 e [m.len 0, m.len 1, m.len 2] ++ (encInt e m.maxLvl ++ rest) := by
    unfold contents Mapping.writes
    simp
  have h24 : (enc64 e [m.len 0, m.len 1, m.len 2]).length = 24 := by rw [enc64_length]; rfl
  have h4 := encInt_length e m.maxLvl
  rw [hc]
  unfold Mapping.readStream
  rw [if_neg (by rw [List.length_append]; omega), List.take_left' h24, List.drop_left' h24,
    show dec64 e 3 _ = _ from dec64_enc64 e [m.len 0, m.len 1, m.len 2] (by
      intro x hx
      simp only [List.mem_cons, List.not_mem_nil, or_false] at hx
      rcases hx with rfl | rfl | rfl <;> exact h.small _), triple_list3]
  unfold Mapping.setLength
  rw [h.len]
  simp only [Bool.true_eq_false, if_false]
  rw [if_neg (by rw [List.length_append]; omega), List.take_left' h4, List.drop_left' h4,
    decInt_encInt e h.range.1 h.range.2]
  rw [h.setMaxLvl (m1 := Mapping.updateLastCell { m' with len := m.len }) rfl]

/-- A grid of 10 x 20 x 30 cells with 3 levels of refinement. -/
example : ∃ m1 m, Mapping.setLength Mapping.init (v3 10 20 30) = (true, m1) ∧ m1.setMaxLvl 3 = (true, m) ∧
    (∀ d, v3 10 20 30 d < 2 ^ 64) :=
  ⟨(Mapping.setLength Mapping.init (v3 10 20 30)).2, ((Mapping.setLength Mapping.init (v3 10 20 30)).2.setMaxLvl 3).2,
    by decide +kernel, by decide +kernel, by decide⟩

/-- C09 is false of the code: when maximum refinement level is set before a length with which it would not be possible,
both are accepted but the mapping cannot be read from what it has written. -/
theorem C09_false : ∃ (m1 m : Mapping), Mapping.init.setMaxLvl 20 = (true, m1) ∧
    m1.setLength (v3 1000000 1 1) = (true, m) ∧
    ∀ (e : Order) (f : File) (off : Nat) (m' : Mapping), (Mapping.read e (f.writes (m.writes e off)) off m').1 = false := by
  refine ⟨_, _, rfl, rfl, fun e f off m' => ?_⟩
  generalize hm : Mapping.updateLastCell _ = m
  have hlen : m.len = v3 1000000 1 1 := by rw [← hm]; rfl
  have hlvl : m.maxLvl = 20 := by rw [← hm]; rfl
  have hf := chain_self_holds f (C09_mapping_size e m off)
  have : contents (m.writes e off) = enc64 e [m.len 0, m.len 1, m.len 2] ++ encInt e m.maxLvl := by
    unfold contents Mapping.writes
    simp
  rw [this, holds_append, enc3_length] at hf
  unfold Mapping.read File.get
  simp only []
  rw [dec_triple e (v := m.len) (by rw [hlen]; decide) hf.1 (List.length_replicate ..), hlen]
  unfold Mapping.setLength
  rw [show Mapping.gridLengthSet (v3 1000000 1 1) = some (v3 1000000 1 1) by decide +kernel]
  simp only [Bool.true_eq_false, if_false]
  rw [Holds.read hf.2 (by rw [encInt_length, encInt_length]), decInt_encInt e (by omega) (by omega), hlvl]
  unfold Mapping.setMaxLvl
  rw [if_neg]
  have h0 : ∀ k a, Mapping.total { len := v3 1000000 1 1, maxLvl := a, lastCell := k : Mapping } = 1000000 := by
    intro k a
    show wmul (wmul 1000000 1) 1 = 1000000
    decide +kernel
  have h1 : ¬ (20 : Int) ≤ (Mapping.maxPossibleLoop 1000000 343 0 0 : Int) - 2 := by decide +kernel
  show ¬ (20 : Int) ≤ Mapping.maxPossible _
  unfold Mapping.maxPossible
  have h2 : (Mapping.updateLastCell { m' with len := v3 1000000 1 1 }).total = 1000000 := h0 _ _
  rw [h2]
  exact h1

/-! ## Topology -/

theorem topologyRead_holds {per : V3 Bool} {f : File} {off : Nat}
    (hf : f.Holds off (contents (topologyWrites per off))) : topologyRead f off = per := by
  unfold topologyRead
  rw [Holds.get hf (k := 3) rfl]
  funext d
  match d with
  | 0 => cases h : per 0 <;> simp [contents, topologyWrites, h]
  | 1 => cases h : per 1 <;> simp [contents, topologyWrites, h]
  | 2 => cases h : per 2 <;> simp [contents, topologyWrites, h]

/-- C09: periodicity is restored. -/
theorem C09_topology (f : File) (per : V3 Bool) (off : Nat) :
    topologyRead (f.writes (topologyWrites per off)) off = per :=
  topologyRead_holds (chain_self_holds f (C09_topology_size per off))

theorem C09_topology_stream (per per' : V3 Bool) (off : Nat) (rest : List Nat) :
    topologyReadStream (contents (topologyWrites per off) ++ rest) per' = (true, per, rest) := by
  unfold topologyReadStream contents topologyWrites
  rw [if_neg (by simp)]
  refine Prod.ext rfl (Prod.ext ?_ rfl)
  funext d
  match d with
  | 0 => cases h : per 0 <;> simp [h]
  | 1 => cases h : per 1 <;> simp [h]
  | 2 => cases h : per 2 <;> simp [h]

/-! ## Geometry -/

/-- Parameters are 64-bit numbers and there are not too many. -/
def GeomPar.Small : GeomPar → Prop
  | .no => True
  | .cartesian p => ∀ d, p.start d < 2 ^ 64 ∧ p.len d < 2 ^ 64
  | .stretched p => ∀ d, (p.coords d).length ≤ intMax ∧ ∀ x ∈ p.coords d, x < 2 ^ 64

/-- Result of setting parameters `new` of a geometry of a grid with mapping `m`. -/
def GeomPar.set (m : Mapping) : GeomPar → GeomPar → Bool × GeomPar
  | .no, .no => (true, .no)
  | .cartesian p, .cartesian q => ((p.set q).1, .cartesian (p.set q).2)
  | .stretched p, .stretched q => ((p.set m q).1, .stretched (p.set m q).2)
  | old, _ => (false, old)

theorem GeomPar.id_range (G : GeomPar) : -2 ^ 31 ≤ G.id ∧ G.id < 2 ^ 31 := by
  cases G <;> simp [GeomPar.id]

theorem GeomPar.read_holds (e : Order) {m : Mapping} {G G' : GeomPar} (hG : G.Small) {f : File} {off : Nat}
    (hf : f.Holds off (contents (G.writes e off))) : GeomPar.read e f off m G' = GeomPar.set m G' G := by
  have hid : decInt e (f.read off (encInt e (G'.id + 1))) = G.id := by
    have : contents (G.writes e off) = encInt e G.id ++ contents (G.writes e off).tail := rfl
    rw [this, holds_append] at hf
    rw [Holds.read hf.1 (by rw [encInt_length, encInt_length]), decInt_encInt e G.id_range.1 G.id_range.2]
  unfold GeomPar.read
  simp only [hid]
  cases G' with
  | no =>
    cases G with
    | no => rfl
    | cartesian p => rw [if_pos (by simp [GeomPar.id])]; rfl
    | stretched p => rw [if_pos (by simp [GeomPar.id])]; rfl
  | cartesian q =>
    cases G with
    | no => rw [if_pos (by simp [GeomPar.id])]; rfl
    | stretched p => rw [if_pos (by simp [GeomPar.id])]; rfl
    | cartesian p =>
      rw [if_neg (by simp [GeomPar.id])]
      have : contents ((GeomPar.cartesian p).writes e off) =
          encInt e 1 ++ (enc64 e [p.start 0, p.start 1, p.start 2] ++ enc64 e [p.len 0, p.len 1, p.len 2]) := by
        simp [contents, GeomPar.writes, GeomPar.id, list3]
      rw [this, holds_append, holds_append, enc64_length, encInt_length] at hf
      have e1 : triple (dec64 e 3 (f.get (off + 4) 24)) = p.start :=
        dec_triple e (fun d => (hG d).1) hf.2.1 (List.length_replicate ..)
      have e2 : triple (dec64 e 3 (f.read (off + 4 + 24) (enc64 e [oneBits, oneBits, oneBits]))) = p.len :=
        dec_triple e (fun d => (hG d).2) hf.2.2 (enc64_length ..)
      simp only [e1, e2]
      rfl
  | stretched q =>
    cases G with
    | no => rw [if_pos (by simp [GeomPar.id])]; rfl
    | cartesian p => rw [if_pos (by simp [GeomPar.id])]; rfl
    | stretched p =>
      rw [if_neg (by simp [GeomPar.id])]
      have : contents ((GeomPar.stretched p).writes e off) =
          encInt e 2 ++ (enc64 e [(p.coords 0).length, (p.coords 1).length, (p.coords 2).length] ++
            (enc64 e (p.coords 0) ++ (enc64 e (p.coords 1) ++ enc64 e (p.coords 2)))) := by
        simp [contents, GeomPar.writes, GeomPar.id]
      rw [this] at hf
      simp only [holds_append, enc64_length, encInt_length] at hf
      obtain ⟨-, h1, h2, h3, h4⟩ := hf
      have e1 : triple (dec64 e 3 (f.get (off + 4) 24)) = fun d => (p.coords d).length :=
        dec_triple e (v := fun d => (p.coords d).length)
          (fun d => Nat.lt_of_le_of_lt (hG d).1 (by decide)) h1 (List.length_replicate ..)
      simp only [e1]
      have h24 : 8 * [(p.coords 0).length, (p.coords 1).length, (p.coords 2).length].length = 24 := rfl
      rw [h24] at h2 h3 h4
      rw [Holds.get h2 (by rw [enc64_length]; omega), dec64_enc64 e _ (hG 0).2]
      rw [Nat.mul_comm] at h3
      rw [Nat.mul_comm 8, Nat.mul_comm 8] at h4
      rw [Holds.get h3 (by rw [enc64_length]; omega), dec64_enc64 e _ (hG 1).2]
      rw [Holds.get h4 (by rw [enc64_length]; omega), dec64_enc64 e _ (hG 2).2]
      have : ({ coords := v3 (p.coords 0) (p.coords 1) (p.coords 2) } : StretchPar) = p := by
        cases p with
        | mk c => congr 1; funext d; match d with | 0 => rfl | 1 => rfl | 2 => rfl
      rw [this]
      rfl

/-- C09: reading parameters of a geometry that it has written is the same as setting them. -/
theorem C09_geometry (e : Order) (f : File) (off : Nat) (m : Mapping) (G G' : GeomPar) (hG : G.Small) :
    GeomPar.read e (f.writes (G.writes e off)) off m G' = GeomPar.set m G' G :=
  GeomPar.read_holds e hG (chain_self_holds f (C09_geometry_size e G off))

/-- C09: parameters of a geometry that can be set are restored, starting from any parameters. -/
theorem C09_geometry_accepted (e : Order) (f : File) (off : Nat) (m : Mapping) (hG : G.Small) {G0 : GeomPar}
    (h : (GeomPar.set m G0 G).1 = true) {G' : GeomPar} (hk : G'.id = G.id) :
    GeomPar.read e (f.writes (G.writes e off)) off m G' = (true, G) := by
  rw [C09_geometry e f off m G G' hG]
  cases G' with
  | no =>
    cases G with
    | no => rfl
    | _ => cases hk
  | cartesian q =>
    cases G with
    | cartesian p =>
      cases G0 with
      | cartesian p0 =>
        have h' : (CartPar.set p0 p).1 = true := h
        have e1 : CartPar.set q p = (true, p) := by
          unfold CartPar.set at h' ⊢
          split at h'
          · cases h'
          · split at h'
            · cases h'
            · split at h'
              · cases h'
              · rw [if_neg ‹_›, if_neg ‹_›, if_neg ‹_›]
        show ((CartPar.set q p).1, GeomPar.cartesian (CartPar.set q p).2) = _
        rw [e1]
      | _ => cases h
    | _ => cases hk
  | stretched q =>
    cases G with
    | stretched p =>
      cases G0 with
      | stretched p0 =>
        have h' : (StretchPar.set m p0 p).1 = true := h
        have h2 := (StretchPar.set_cases m q p).1.2 ((StretchPar.set_cases m p0 p).1.1 h')
        show ((StretchPar.set m q p).1, GeomPar.stretched (StretchPar.set m q p).2) = _
        rw [h2, (StretchPar.set_cases m q p).2.1 h2]
      | _ => cases h
    | _ => cases hk

/-- C09: geometries of another kind are not read. -/
theorem C09_geometry_kind (e : Order) (f : File) (off : Nat) (m : Mapping) {G G' : GeomPar} (hG : G.Small)
    (hk : G'.id ≠ G.id) : GeomPar.read e (f.writes (G.writes e off)) off m G' = (false, G') := by
  rw [C09_geometry e f off m G G' hG]
  cases G' <;> cases G <;> first | rfl | exact absurd rfl hk

/-- C09: Cartesian geometry from a stream. -/
theorem C09_cartesian_stream (e : Order) (off : Nat) {p p0 p' : CartPar} (hp : (GeomPar.cartesian p).Small)
    (h : (CartPar.set p0 p).1 = true) (rest : List Nat) :
    CartPar.readStream e (contents ((GeomPar.cartesian p).writes e off) ++ rest) p' = (true, p, rest) := by
  have hc : contents ((GeomPar.cartesian p).writes e off) ++ rest = encInt e 1 ++
      (enc64 e [p.start 0, p.start 1, p.start 2] ++ (enc64 e [p.len 0, p.len 1, p.len 2] ++ rest)) := by
    simp [contents, GeomPar.writes, GeomPar.id, list3]
  have h24 : ∀ v : V3 Nat, (enc64 e [v 0, v 1, v 2]).length = 24 := fun v => by rw [enc64_length]; rfl
  have hd : ∀ v : V3 Nat, (∀ d, v d < 2 ^ 64) → triple (dec64 e 3 (enc64 e [v 0, v 1, v 2])) = v := fun v hv => by
    rw [show dec64 e 3 _ = _ from dec64_enc64 e [v 0, v 1, v 2] (by
      intro x hx
      simp only [List.mem_cons, List.not_mem_nil, or_false] at hx
      rcases hx with rfl | rfl | rfl <;> exact hv _), triple_list3]
  have h4 := encInt_length e 1
  have h1 := h24 p.start
  have h2 := h24 p.len
  rw [hc]
  unfold CartPar.readStream
  rw [if_neg (by rw [List.length_append]; omega), List.take_left' h4, List.drop_left' h4,
    decInt_encInt e (by decide) (by decide), if_neg (by decide), if_neg (by rw [List.length_append]; omega),
    List.drop_left' h1, if_neg (by rw [List.length_append]; omega), List.take_left' h1, List.take_left' h2,
    List.drop_left' h2, hd _ fun d => (hp d).1, hd _ fun d => (hp d).2]
  have e1 : CartPar.set p' p = (true, p) := by
    unfold CartPar.set at h ⊢
    split at h
    · cases h
    · split at h
      · cases h
      · split at h
        · cases h
        · rw [if_neg ‹_›, if_neg ‹_›, if_neg ‹_›]
  show ((CartPar.set p' p).1, (CartPar.set p' p).2, rest) = _
  rw [e1]

/-- C09 is also false of the code for a `Stretched_Cartesian_Geometry` whose parameters have not been set: it has 2
coordinates in each dimension (C59) and is written but cannot be read if the grid is longer. -/
theorem C09_default_stretched (e : Order) (f : File) (off : Nat) {m : Mapping} {d : Fin 3} (hm : m.len d ≠ 1)
    (hw : m.len d + 1 < 2 ^ 64) (G' : GeomPar) :
    (GeomPar.read e (f.writes ((GeomPar.stretched ⟨fun _ => [0, oneBits]⟩).writes e off)) off m G').1 = false := by
  rw [C09_geometry e f off m _ G' (by
    intro d
    exact ⟨(by decide : [0, oneBits].length ≤ intMax), (by decide : ∀ x ∈ [0, oneBits], x < 2 ^ 64)⟩)]
  cases G' with
  | no => rfl
  | cartesian p => rfl
  | stretched p =>
    show (StretchPar.set m p _).1 = false
    apply Bool.eq_false_iff.2
    intro h
    have := (StretchPar.set_cases m p _).1.1 h d
    unfold dimOk at this
    rw [if_neg (by decide : ¬ [0, oneBits].length < 2), if_pos] at this
    · cases this
    · rw [wadd_eq hw]
      show 2 ≠ _
      omega

example : (GeomPar.set Mapping.init (.cartesian ⟨fun _ => 0, fun _ => oneBits⟩)
    (.cartesian ⟨v3 0 oneBits (oneBits + 1), v3 oneBits (oneBits + 5) oneBits⟩)).1 = true := by decide +kernel

example : (GeomPar.set { Mapping.init with len := v3 2 1 1 } (.stretched ⟨fun _ => []⟩)
    (.stretched ⟨v3 [0, oneBits, oneBits + 1] [0, oneBits] [0, oneBits]⟩)).1 = true := by decide +kernel

end Dccrg
