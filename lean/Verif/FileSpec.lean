import Verif.LoadGrid
import Verif.Props.Save
import Verif.Props.LoadCells
import Verif.Props.Geometry
/-!
# What is read from saved files
-/
namespace Dccrg
open Cfg
variable {n : Nat} {D W : Type}

theorem contents_append (a b : List Write) : contents (a ++ b) = contents a ++ contents b := List.flatMap_append

theorem contents_chain_length {a b : Nat} {l : List Write} (h : Chain a l b) : b = a + (contents l).length := by
  rw [contents_length]; exact chain_end h

/-- Parts of a chain are in the file. -/
theorem holds_chain_append {f : File} {a c : Nat} {l l' : List Write} (h : f.Holds a (contents (l ++ l')))
    (hc : Chain a l c) : f.Holds a (contents l) ∧ f.Holds c (contents l') := by
  rw [contents_append, holds_append, ← contents_chain_length hc] at h
  exact h

/-- Geometry can be read back. -/
structure Meta.Readable (M : Meta) : Prop where
  mapping : M.mapping.Accepted
  hood : M.hood < 2 ^ 32
  small : M.geom.Small
  settable : ∃ G0, (GeomPar.set M.mapping G0 M.geom).1 = true

theorem GeomPar.read_accepted (e : Order) {m : Mapping} {G G0 G' : GeomPar} (hG : G.Small)
    (h : (GeomPar.set m G0 G).1 = true) (hk : G'.id = G.id) {f : File} {off : Nat}
    (hf : f.Holds off (contents (G.writes e off))) : GeomPar.read e f off m G' = (true, G) := by
  rw [GeomPar.read_holds e hG hf, ← C09_geometry e (fun _ => none) 0 m G G' hG]
  exact C09_geometry_accepted e _ 0 m hG h hk

/-- Members of the grid are read back. -/
theorem readMeta_holds (e : Order) {M M0 : Meta} (hM : M.Readable) (hk : M0.geom.id = M.geom.id) {f : File}
    {a : SaveArgs n} {mine : Fin n → List Nat} (ha : a.info = true)
    (hf : f.Holds (afterHeader a) (contents (infoWrites e M a mine))) :
    ∃ o, readMeta e f (afterHeader a) M0 = some (M, o) ∧ o + 8 = afterInfo M a ∧
      f.Holds o (enc e 8 (totalCells a mine)) := by
  unfold infoWrites at hf
  simp only [List.append_assoc] at hf
  obtain ⟨f1, hf⟩ := holds_chain_append hf (c := afterHeader a + 8) ⟨rfl, by rw [enc_length]; rfl⟩
  obtain ⟨f2, hf⟩ := holds_chain_append hf (C09_mapping_size e M.mapping _)
  obtain ⟨f3, hf⟩ := holds_chain_append hf (c := afterHeader a + 8 + M.mapping.dataSize + 4)
    ⟨rfl, by rw [enc_length]; rfl⟩
  obtain ⟨f4, hf⟩ := holds_chain_append hf (C09_topology_size M.per _)
  obtain ⟨f5, hf⟩ := holds_chain_append hf (C09_geometry_size e M.geom _)
  have hs : ∀ o x, contents [(o, x)] = x := fun o x => by simp [contents]
  rw [hs] at f1 f3 hf
  refine ⟨_, ?_, ?_, hf⟩
  · unfold readMeta
    rw [Holds.get f1 (enc_length ..).symm, dec_enc e (by decide), if_neg (by simp)]
    simp only [Mapping.read_holds e hM.mapping f2]
    rw [if_neg (by simp), Holds.get f3 (enc_length ..).symm, dec_enc e (by have := hM.hood; omega),
      topologyRead_holds f4]
    obtain ⟨G0, hG0⟩ := hM.settable
    rw [GeomPar.read_accepted e hM.small hG0 hk f5, if_neg (by simp)]
  · unfold afterInfo
    rw [if_pos ha]

theorem pairsOf_flatMap (l : List (Nat × Nat)) : pairsOf (l.flatMap fun x => [x.1, x.2]) = l := by
  induction l with
  | nil => rfl
  | cons x l ih => rw [List.flatMap_cons]; show (x.1, x.2) :: pairsOf (l.flatMap fun x => [x.1, x.2]) = _; rw [ih]

theorem enc64_flatMap (e : Order) {α : Type} (l : List α) (f : α → List Nat) :
    l.flatMap (fun x => enc64 e (f x)) = enc64 e (l.flatMap f) := by
  induction l with
  | nil => rfl
  | cons x l ih => rw [List.flatMap_cons, List.flatMap_cons, enc64_append, ih]

section
variable {e : Order} {M : Meta} {a : SaveArgs n} {mine : Fin n → List Nat} {piece : Fin n → Nat → Option Piece}
  {ws : Fin n → List Write}

/-- All cells and where their data are. -/
def table (M : Meta) (a : SaveArgs n) (mine : Fin n → List Nat) (piece : Fin n → Nat → Option Piece) : List (Nat × Nat) :=
  (List.finRange n).flatMap fun i => List.zip (cellsOf a mine i) (positions M a mine piece i)

theorem table_length (h : ∀ i, ∀ c ∈ cellsOf a mine i, (piece i c).isSome = true) :
    (table M a mine piece).length = totalCells a mine := by
  unfold table totalCells total
  rw [List.length_flatMap]
  congr 1
  apply List.map_congr_left
  intro i _
  rw [List.length_zip, positions_length h, Nat.min_self]

theorem mem_table (h : ∀ i, ∀ c ∈ cellsOf a mine i, (piece i c).isSome = true) {x : Nat × Nat}
    (hx : x ∈ table M a mine piece) :
    ∃ i p, x.1 ∈ cellsOf a mine i ∧ piece i x.1 = some p ∧ (x.2, p.bytes) ∈ dataWrites M a mine piece i := by
  unfold table at hx
  obtain ⟨i, -, hx⟩ := List.mem_flatMap.1 hx
  have key : ∀ (cs ps : List Nat), (∀ c ∈ cs, (piece i c).isSome = true) → x ∈ List.zip cs ps →
      ∃ p, x.1 ∈ cs ∧ piece i x.1 = some p ∧
        (x.2, p.bytes) ∈ List.zipWith (fun d p => (d, Piece.bytes p)) ps (cs.filterMap (piece i)) := by
    intro cs
    induction cs with
    | nil => intro ps _ hx; cases hx
    | cons c cs ih =>
      intro ps hc hx
      cases ps with
      | nil => cases hx
      | cons p ps =>
        obtain ⟨q, hq⟩ := Option.isSome_iff_exists.1 (hc c (List.mem_cons_self ..))
        rw [List.filterMap_cons, hq]
        simp only [List.zipWith_cons_cons]
        rw [List.zip_cons_cons] at hx
        rcases List.mem_cons.1 hx with rfl | hx
        · exact ⟨q, List.mem_cons_self .., hq, List.mem_cons_self ..⟩
        · obtain ⟨r, r1, r2, r3⟩ := ih ps (fun x hx => hc x (List.mem_cons_of_mem _ hx)) hx
          exact ⟨r, List.mem_cons_of_mem _ r1, r2, List.mem_cons_of_mem _ r3⟩
  obtain ⟨p, p1, p2, p3⟩ := key _ _ (h i) hx
  exact ⟨i, p, p1, p2, p3⟩

theorem table_cells (h : ∀ i, ∀ c ∈ cellsOf a mine i, (piece i c).isSome = true) :
    (table M a mine piece).map Prod.fst = (List.finRange n).flatMap (cellsOf a mine) := by
  unfold table
  rw [List.map_flatMap]
  congr 1
  funext i
  exact List.map_fst_zip (by rw [positions_length h]; exact Nat.le_refl _)

/-- What a file has after saving. -/
theorem file_parts (hn : 0 < n) (h : save e M a mine piece = .ok ws) (hh : a.header.Ok) (h1 : a.info = true)
    (h2 : a.ids = true) (h3 : a.offsets = true)
    (hp : ∀ i c p, c ∈ cellsOf a mine i → piece i c = some p → p.Ok ∧ (p.named = true ∨ p.count = 1))
    {l : List Write} (hl : l.Perm ((List.finRange n).flatMap ws)) (f : File) :
    (f.writes l).Holds a.offset a.header.bytes ∧
    (f.writes l).Holds (afterHeader a) (contents (infoWrites e M a mine)) ∧
    (f.writes l).Holds (afterInfo M a) (enc64 e ((table M a mine piece).flatMap fun x => [x.1, x.2])) ∧
    (∀ x ∈ table M a mine piece, ∃ i p, x.1 ∈ cellsOf a mine i ∧ piece i x.1 = some p ∧
      (f.writes l).Holds x.2 p.bytes) ∧
    ∀ x ∈ table M a mine piece, x.2 ≤ fileEnd M a mine piece := by
  have hch := save_chain hn h hh hp
  have hall := chain_holds f hch (hl.trans (save_perm hn h))
  obtain ⟨g1, g2, g3, g4⟩ := save_inv h
  rw [chain_append] at hch
  obtain ⟨c1, hch1, hch2⟩ := hch
  obtain ⟨p1, p2⟩ := holds_chain_append hall hch1
  rw [chain_append] at hch1
  obtain ⟨c2, hch3, hch4⟩ := hch1
  obtain ⟨p3, p4⟩ := holds_chain_append p1 hch3
  have hc2 : c2 = afterInfo M a := by
    rw [contents_chain_length hch3, ← contents_chain_length (chain_head (e := e) (M := M) (mine := mine) hn hh)]
  subst hc2
  have hhead : headWrites e M a mine ⟨0, hn⟩ = [(a.offset, a.header.bytes)] ++ infoWrites e M a mine := by
    unfold headWrites; rw [if_pos rfl, h1]; rfl
  rw [hhead] at p3
  obtain ⟨p5, p6⟩ := holds_chain_append p3 (c := afterHeader a) ⟨rfl, by
    show _ + a.header.bytes.length = _
    unfold afterHeader; rw [hh, Nat.mul_comm]⟩
  have hcl : contents (listWrites e M a mine piece) =
      enc64 e ((table M a mine piece).flatMap fun x => [x.1, x.2]) := by
    have : contents (listWrites e M a mine piece) = (List.finRange n).flatMap fun i => enc64 e (listOf M a mine piece i) := by
      unfold contents listWrites
      rw [List.flatMap_assoc]
      congr 1
      funext i
      simp
    rw [this, enc64_flatMap]
    congr 1
    unfold table
    rw [List.flatMap_assoc]
    congr 1
    funext i
    unfold listOf
    rw [h2, h3]
    rfl
  rw [hcl] at p4
  have hdisj := C42_file_partial hn h hh hp hl f
  refine ⟨by simpa [contents] using p5, p6, p4, fun x hx => ?_, fun x hx => ?_⟩
  · obtain ⟨i, p, q1, q2, q3⟩ := mem_table g1 hx
    exact ⟨i, p, q1, q2, hdisj.1 i _ (by rw [g4]; exact List.mem_append_right _ q3)⟩
  · obtain ⟨i, p, q1, q2, q3⟩ := mem_table g1 hx
    have := chain_start hch2 _ (List.mem_flatMap.2 ⟨i, List.mem_finRange i, q3⟩)
    have e1 := this.2
    simp only [] at e1
    omega

end

/-! ## Reading data of cells -/

/-- Given number of calls of `continue_loading_grid_data` turn a cell with data `d` to one with data `d'` when bytes `bs` are
where its data are in the file. All of datatype must have been read before the next call: its count must be 1 unless it is the
last call. -/
def Feeds (K : CellClass D) : Nat → D → List Nat → D → Prop
  | 0, d, _, d' => d = d'
  | k + 1, d, bs, d' =>
    (K.loaded d).bytes.length ≤ bs.length ∧ (k = 0 ∨ (K.loaded d).bytes.length = (K.loaded d).size) ∧
      Feeds K k (K.fill d (bs.take (K.loaded d).bytes.length)) (bs.drop (K.loaded d).bytes.length) d'

theorem lookup_iff {l : List (Nat × Nat)} (h : (l.map Prod.fst).Nodup) {c o : Nat} :
    l.lookup c = some o ↔ (c, o) ∈ l := by
  induction l with
  | nil => simp
  | cons x l ih =>
    rw [List.map_cons, List.nodup_cons] at h
    rw [List.lookup_cons, List.mem_cons]
    by_cases e : c = x.1
    · subst e
      rw [beq_self_eq_true]
      constructor
      · intro h; injection h with h; subst h; exact Or.inl rfl
      · rintro (h1 | h1)
        · rw [← h1]
        · exact absurd (List.mem_map.2 ⟨_, h1, rfl⟩) h.1
    · rw [show (c == x.1) = false by simpa using e]
      simp only []
      rw [ih h.2]
      constructor
      · exact Or.inr
      · rintro (h1 | h1)
        · exact absurd (by rw [← h1]) e
        · exact h1

theorem take_holds {f : File} {o k : Nat} {bs : List Nat} (h : f.Holds o bs) (hk : k ≤ bs.length) :
    f.Holds o (bs.take k) ∧ f.Holds (o + k) (bs.drop k) := by
  have : (bs.take k).length = k := by rw [List.length_take]; omega
  rw [← List.take_append_drop k bs, holds_append, this] at h
  exact h

/-- Calls to `continue_loading_grid_data`. -/
theorem continueAll_ok {K : CellClass D} {f : File} {k : Nat} {s : Sys n D W} {l : Fin n → List (Nat × Nat)}
    (hl : ∀ i, ((l i).map Prod.fst).Nodup) (hd : ∀ i c, ((s i).data c).isSome = true ↔ c ∈ (l i).map Prod.fst)
    {bs : Fin n → Nat → List Nat} {fin : Nat → D} (hb : ∀ i, ∀ x ∈ l i, f.Holds x.2 (bs i x.1))
    (hf : ∀ i c d, (s i).data c = some d → Feeds K k d (bs i c) (fin c)) :
    continueAll K f k s l = .ok fun i => { s i with data := fun c => (((s i).data c).map fun _ => fin c) } := by
  induction k generalizing s l bs with
  | zero =>
    unfold continueAll
    congr 1
    funext i
    have : (s i).data = fun c => ((s i).data c).map fun _ => fin c := by
      funext c
      cases h : (s i).data c with
      | none => rfl
      | some d => rw [show d = fin c from hf i c d h]; rfl
    rw [← this]
  | succ k ih =>
    unfold continueAll
    have hstep : ∀ i, continueLoading K f (s i) (l i) = .ok
        ({ s i with data := fun c => ((s i).data c).map fun d => K.fill d ((bs i c).take (K.loaded d).bytes.length) },
        (l i).map fun x => (x.1, match (s i).data x.1 with
        | some d => x.2 + (K.loaded d).size
        | none => x.2)) := by
      intro i
      unfold continueLoading
      rw [if_neg]
      · congr 3
        funext c
        cases h : (s i).data c with
        | none => rfl
        | some d =>
          obtain ⟨x, hx, hxc⟩ := List.mem_map.1 ((hd i c).1 (by rw [h]; rfl))
          subst hxc
          rw [Option.map_some, Option.map_some, (lookup_iff (hl i)).2 (show (x.1, x.2) ∈ l i from hx)]
          simp only []
          obtain ⟨f1, -⟩ := hf i x.1 d h
          have := (take_holds (hb i x hx) f1).1
          rw [Holds.read this (by rw [List.length_take]; omega)]
      · rintro ⟨x, hx, hn⟩
        have := (hd i x.1).2 (List.mem_map.2 ⟨x, hx, rfl⟩)
        cases h : (s i).data x.1 with
        | none => rw [h] at this; cases this
        | some d => rw [h] at hn; cases hn
    rw [Out.collect_ok hstep]
    show continueAll K f k _ _ = _
    by_cases hk : k = 0
    · subst hk
      show Out.ok _ = _
      congr 1
      funext i
      have : (fun c => ((s i).data c).map fun d => K.fill d ((bs i c).take (K.loaded d).bytes.length)) =
          fun c => ((s i).data c).map fun _ => fin c := by
        funext c
        cases h : (s i).data c with
        | none => rfl
        | some d =>
          obtain ⟨-, -, f3⟩ := hf i c d h
          rw [Option.map_some, Option.map_some, show K.fill d _ = _ from f3]
      simp only [this]
    · have hm : ∀ i, ((l i).map fun x => (x.1, match (s i).data x.1 with
          | some d => x.2 + (K.loaded d).size
          | none => x.2)).map Prod.fst = (l i).map Prod.fst := by
        intro i; rw [List.map_map]; rfl
      refine (ih (bs := fun i c => match (s i).data c with
        | some d => (bs i c).drop (K.loaded d).bytes.length
        | none => []) (fun i => by rw [hm]; exact hl i) ?_ ?_ ?_).trans ?_
      · intro i c
        rw [hm, ← hd]
        simp only [Option.isSome_map]
      · intro i x hx
        obtain ⟨y, hy, rfl⟩ := List.mem_map.1 hx
        simp only []
        obtain ⟨d, h⟩ := Option.isSome_iff_exists.1 ((hd i y.1).2 (List.mem_map.2 ⟨y, hy, rfl⟩))
        rw [h]
        simp only []
        obtain ⟨f1, f2, -⟩ := hf i y.1 d h
        have := (take_holds (hb i y hy) f1).2
        rwa [f2.resolve_left hk] at this ⊢
      · intro i c d' h
        simp only [] at h ⊢
        cases hc : (s i).data c with
        | none => rw [hc] at h; cases h
        | some d =>
          rw [hc] at h
          injection h with h
          obtain ⟨-, -, f3⟩ := hf i c d hc
          rw [← h]
          exact f3
      · congr 1
        funext i
        simp only [Option.map_map]
        rfl

end Dccrg
