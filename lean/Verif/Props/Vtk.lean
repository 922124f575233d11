import Verif.Vtk
import Verif.Props.Select
/-!
# C78: files for visualization
-/
namespace Dccrg
open Cfg
variable {n : Nat} {D W T : Type} {g : Cfg} {s : Sys n D W} {dflt : D} {maxTag : Nat}

/-- Corner number `b` of a VTK voxel: bits 0, 1 and 2 of `b` say on which side the corner is in dimensions x, y
and z. -/
def voxelCorner (fmt : Num → T) (lo hi : V3 Num) (b : Nat) : V3 T :=
  fun d => fmt (if b.testBit d then hi d else lo d)

/-- Specification: the file is an unstructured grid in legacy VTK format with `points` and `conn` (numbers of points
of every cell), all cells being voxels (type 11). -/
def IsVtkFile (file : List (List (VtkWord T))) (points : List (V3 T)) (conn : List (List Nat)) : Prop :=
  file =
    [[.text "#", .text "vtk", .text "DataFile", .text "Version", .text "2.0"],
      [.text "Cartesian", .text "cell", .text "refinable", .text "grid"], [.text "ASCII"], [.text "DATASET", .text "UNSTRUCTURED_GRID"]] ++
    [[.text "POINTS", .int points.length, .text "float"]] ++
    points.map (fun x => [.real (x 0), .real (x 1), .real (x 2)]) ++
    [[.text "CELLS", .int conn.length, .int (conn.map fun r => r.length + 1).sum]] ++
    conn.map (fun r => .int r.length :: r.map .int) ++
    [[.text "CELL_TYPES", .int conn.length]] ++ List.replicate conn.length [.int 11]

/-- Specification: `cells` are drawn in this order, each as the box between its two corners. -/
def Draws (fmt : Num → T) (lo hi : Nat → V3 Num) (cells : List Nat) (points : List (V3 T)) (conn : List (List Nat)) :
    Prop :=
  points.length = 8 * cells.length ∧ conn.length = cells.length ∧
  ∀ (k : Nat) (hk : k < cells.length), ∃ r, conn[k]? = some r ∧ r.length = 8 ∧
    ∀ b, b < 8 → ∃ x, r[b]? = some x ∧ points[x]? = some (voxelCorner fmt (lo cells[k]) (hi cells[k]) b)

theorem range8 : List.range 8 = [0, 1, 2, 3, 4, 5, 6, 7] := rfl

theorem vtkCorners_eq (fmt : Num → T) (lo hi : V3 Num) : vtkCorners fmt lo hi =
    ((List.range 8).map (voxelCorner fmt lo hi)).map (fun x => [.real (x 0), .real (x 1), .real (x 2)]) := by
  rw [range8]
  rfl

/-- Position of an item in a list of blocks of 8. -/
theorem flatten8 {α β : Type} (f : β → Nat → α) (l : List β) (k : Nat) (hk : k < l.length) (b : Nat) (hb : b < 8) :
    (l.map fun c => (List.range 8).map (f c)).flatten[k * 8 + b]? = some (f l[k] b) := by
  induction l generalizing k with
  | nil => simp at hk
  | cons a l ih =>
    rw [List.map_cons, List.flatten_cons]
    cases k with
    | zero =>
      rw [List.getElem?_append_left (by rw [List.length_map, List.length_range]; omega)]
      rw [List.getElem?_map, List.getElem?_range (by omega)]
      simp
    | succ k =>
      rw [List.getElem?_append_right (by rw [List.length_map, List.length_range]; omega), List.length_map,
        List.length_range, show (k + 1) * 8 + b - 8 = k * 8 + b by omega]
      exact ih k (by simpa using hk)

theorem flatten8_length {α β : Type} (f : β → Nat → α) (l : List β) :
    (l.map fun c => (List.range 8).map (f c)).flatten.length = 8 * l.length := by
  induction l with
  | nil => rfl
  | cons a l ih =>
    rw [List.map_cons, List.flatten_cons, List.length_append, ih, List.length_map, List.length_range, List.length_cons]
    omega

theorem sum_nine (l : List Nat) (f : Nat → List Nat) (hf : ∀ j, (f j).length = 8) :
    ((l.map f).map fun r => r.length + 1).sum = l.length * 9 := by
  induction l with
  | nil => rfl
  | cons a l ih => rw [List.map_cons, List.map_cons, List.sum_cons, ih, hf, List.length_cons]; omega

/-- What is written for a list of cells. -/
theorem vtkLines_spec (fmt : Num → T) (lo hi : Nat → V3 Num) (cells : List Nat) (h : cells.length < 2 ^ 32) :
    ∃ file points conn, vtkLines fmt lo hi cells = .ok file ∧ IsVtkFile file points conn ∧
      points.length = 8 * cells.length ∧ conn.length = cells.length ∧
      (∀ (k : Nat) (hk : k < cells.length) b, b < 8 →
        points[k * 8 + b]? = some (voxelCorner fmt (lo cells[k]) (hi cells[k]) b)) ∧
      ∀ k, k < cells.length → conn[k]? = some ((List.range 8).map fun i => (k * 8 + i) % 2 ^ 32) := by
  refine ⟨_, (cells.map fun c => (List.range 8).map (voxelCorner fmt (lo c) (hi c))).flatten,
    (List.range cells.length).map fun k => (List.range 8).map fun i => (k * 8 + i) % 2 ^ 32, if_pos h, ?_, ?_, ?_, ?_, ?_⟩
  · unfold IsVtkFile
    rw [flatten8_length, sum_nine _ _ (fun j => by rw [List.length_map, List.length_range]), List.length_map,
      List.length_range, Nat.mul_comm 8]
    congr 1
    · congr 1
      congr 1
      · rw [List.map_flatten, List.map_map]
        congr 1
      · rw [List.map_map]
        apply List.map_congr_left
        intro j _
        show _ = VtkWord.int _ :: _
        rw [List.length_map, List.length_range, List.map_map]
        rfl
    · rw [List.map_const', List.length_range]
  · exact flatten8_length _ _
  · rw [List.length_map, List.length_range]
  · intro k hk b hb
    exact flatten8 (fun c => voxelCorner fmt (lo c) (hi c)) cells k hk b hb
  · intro k hk
    rw [List.getElem?_map, List.getElem?_range hk]
    rfl

/-- `cells` are the cells of process `i`, each once, in ascending order. -/
def LocalInOrder (s : Sys n D W) (i : Fin n) (cells : List Nat) : Prop :=
  cells.Nodup ∧ cells.Pairwise (· ≤ ·) ∧ ∀ c, c ∈ cells ↔ (s i).owner c = some i

theorem vtk_cells (hw : g.WF) (h : Reachable g dflt maxTag s) (i : Fin n) {cells : List Nat} (hc : LocalInOrder s i cells) :
    sortIf true (getCells g i (s i) [] false defaultId false) = cells := by
  obtain ⟨h1, h2⟩ := C37_get_cells (id := defaultId) hw h i [] false
  have hp : (sortIf true (getCells g i (s i) [] false defaultId false)).Perm cells := by
    refine (List.perm_ext_iff_of_nodup (nodup_sortIf (h1 false).1) hc.1).2 fun c => ?_
    rw [mem_sortIf, hc.2.2 c]
    exact (h2 (by unfold hoodFor; rfl) c).1 false rfl
  exact hp.eq_of_pairwise (fun a b _ _ => Nat.le_antisymm) sorted_sortIf hc.2.1

/-- C78: on every process the file lists exactly the cells of the process, each once, in ascending order, and draws
each as the box between its minimum and maximum, if the process has at most 2^29 cells. Missing: more cells, see
`C78_many_false`, and precision of coordinates, see `C78_precision_false`. -/
theorem C78_file_partial (hw : g.WF) (h : Reachable g dflt maxTag s) (fmt : Num → T) (lo hi : Nat → V3 Num) (i : Fin n)
    {cells : List Nat} (hc : LocalInOrder s i cells) (hl : cells.length ≤ 2 ^ 29) :
    ∃ file points conn, writeVtkFile g fmt lo hi i (s i) = .ok file ∧ IsVtkFile file points conn ∧
      Draws fmt lo hi cells points conn := by
  unfold writeVtkFile
  rw [vtk_cells hw h i hc]
  obtain ⟨file, points, conn, e, hf, hp, hc, h3, h4⟩ := vtkLines_spec fmt lo hi cells (by omega)
  refine ⟨file, points, conn, e, hf, hp, hc, fun k hk => ⟨_, h4 k hk, by rw [List.length_map, List.length_range], ?_⟩⟩
  intro b hb
  refine ⟨k * 8 + b, ?_, h3 k hk b hb⟩
  rw [List.getElem?_map, List.getElem?_range hb]
  show some ((k * 8 + b) % 2 ^ 32) = _
  rw [Nat.mod_eq_of_lt (by omega)]

theorem vtk_first {α : Type} {x y : α} {a b : List α} (h : [x] ++ a = [y] ++ b) : x = y ∧ a = b := List.cons.inj h

/-- A process of the small grid, its only cell and the corners of the cell. -/
example : ∃ s : Sys 2 Nat Nat, tinyG.WF ∧ Reachable tinyG 0 146 s ∧ LocalInOrder s 1 [2] ∧
    voxelCorner id (tinyCart.getMin tinyM 2) (tinyCart.getMax tinyM 2) 5 = v3 (some 3) (some 0) (some (3 / 4)) := by
  obtain ⟨s, -, h2, h3, -, -, -, -, h5⟩ := tiny_init
  refine ⟨s, tiny_wf, h2, ⟨by simp, by simp, fun c => ?_⟩, ?_⟩
  · rw [h3.sys.owner 1]
    constructor
    · intro h
      rw [List.mem_singleton.1 h]; exact h5
    · intro h
      rw [createLevel0_owner (by omega)] at h
      have e1 : firstOf 2 2 1 = 2 := by decide
      have e2 : firstOf 2 2 2 = 3 := by decide
      have h6 : firstOf 2 2 1 ≤ c ∧ c < firstOf 2 2 2 := h
      rw [List.mem_singleton]
      omega
  · have e : ∀ d, voxelCorner id (tinyCart.getMin tinyM 2) (tinyCart.getMax tinyM 2) 5 d =
        v3 (some 3) (some 0) (some (3 / 4)) d := by
      rw [forall_fin3]
      decide +kernel
    exact funext e

/-- A file is one list of points and cells at most. -/
theorem IsVtkFile.unique {file : List (List (VtkWord T))} {p q : List (V3 T)} {c e : List (List Nat)}
    (h1 : IsVtkFile file p c) (h2 : IsVtkFile file q e) : p = q ∧ c = e := by
  unfold IsVtkFile at h1 h2
  have h := h1.symm.trans h2
  simp only [List.append_assoc] at h
  have h3 := vtk_first (List.append_inj h rfl).2
  have hl : p.length = q.length := by
    have := h3.1
    simp only [List.cons.injEq, VtkWord.int.injEq] at this
    exact this.2.1
  have h4 := List.append_inj h3.2 (by rw [List.length_map, List.length_map, hl])
  have h5 := vtk_first h4.2
  have hk : c.length = e.length := by
    have := h5.1
    simp only [List.cons.injEq, VtkWord.int.injEq] at this
    exact this.2.1
  have h6 := List.append_inj h5.2 (by rw [List.length_map, List.length_map, hk])
  constructor
  · refine (List.map_inj_right ?_).1 h4.1
    intro x y hxy
    simp only [List.cons.injEq, VtkWord.real.injEq] at hxy
    exact v3_ext hxy.1 hxy.2.1 hxy.2.2.1
  · refine (List.map_inj_right ?_).1 h6.1
    intro x y hxy
    rw [List.cons.injEq] at hxy
    exact (List.map_inj_right fun a b hab => by simpa using hab).1 hxy.2

/-- C78 is false of the code: the file of a process with more than 2^29 cells doesn't draw its cells, and with 2^32
cells or more writing doesn't end, however precisely coordinates are printed. -/
theorem C78_many_false {m : Mapping} {per : V3 Bool} {hood : Nat} (hm : m.OK)
    (h : Reachable (m.grid per hood) dflt maxTag s) {fmt : Num → T} (hf : ∀ x y, fmt x = fmt y → x = y)
    {G : Geo} {i : Fin n} (hC : G.Consistent m) (hT : G.Tiles (exist (s i).owner))
    {cells : List Nat} (hc : LocalInOrder s i cells) (hl : 2 ^ 29 < cells.length) :
    (cells.length < 2 ^ 32 → ∃ file, writeVtkFile (m.grid per hood) fmt G.min G.max i (s i) = .ok file ∧
      ¬ ∃ points conn, IsVtkFile file points conn ∧ Draws fmt G.min G.max cells points conn) ∧
    (2 ^ 32 ≤ cells.length → writeVtkFile (m.grid per hood) fmt G.min G.max i (s i) = .hangs) := by
  unfold writeVtkFile
  rw [vtk_cells (grid_wf hm) h i hc]
  constructor
  · intro hl2
    obtain ⟨file, points, conn, e, hF, hp, hq, h3, h4⟩ := vtkLines_spec fmt G.min G.max cells hl2
    refine ⟨file, e, ?_⟩
    rintro ⟨points', conn', hF', -, -, hD⟩
    obtain ⟨rfl, rfl⟩ := hF.unique hF'
    obtain ⟨r, hr, -, hb⟩ := hD (2 ^ 29) hl
    rw [h4 _ hl] at hr
    obtain ⟨x, hx, hx2⟩ := hb 0 (by omega)
    rw [← Option.some.inj hr, List.getElem?_map, List.getElem?_range (by omega)] at hx
    have hx0 : 0 = x := by simpa using hx
    subst hx0
    have h5 := h3 0 (by omega) 0 (by omega)
    rw [Nat.zero_mul, Nat.zero_add, hx2] at h5
    have h6 : G.min cells[2 ^ 29] = G.min cells[0] := by
      funext d
      have := congrFun (Option.some.inj h5) d
      unfold voxelCorner at this
      simpa using hf _ _ this
    have hv : ∀ c, c ∈ cells → m.ValidId c ∧ exist (s i).owner c = true := by
      intro c hcm
      have h7 := exist_of ((hc.2.2 c).1 hcm)
      obtain ⟨w, hi⟩ := h.inv (grid_wf hm) (by have := i.2; omega)
      rw [hi.sys.owner i] at h7 ⊢
      exact ⟨(Mapping.validId_iff hm).2 (grid_valid.1 (hi.sys.tiled.valid c h7)), h7⟩
    obtain ⟨v1, e1⟩ := hv _ (List.getElem_mem hl)
    obtain ⟨v2, e2⟩ := hv _ (List.getElem_mem (show 0 < cells.length by omega))
    have b1 := hC.box _ v1
    have b2 := hC.box _ v2
    have hx : ∃ x : V3 Rat, ∀ d, G.min cells[2 ^ 29] d = some (x d) := by
      refine ⟨fun d => (G.min cells[2 ^ 29] d).getD 0, fun d => ?_⟩
      obtain ⟨lo, hi, q, -⟩ := b1 d
      show G.min cells[2 ^ 29] d = some ((G.min cells[2 ^ 29] d).getD 0)
      rw [q]; rfl
    obtain ⟨x, hx⟩ := hx
    have i1 : InBoxQ (G.min cells[2 ^ 29]) (G.max cells[2 ^ 29]) x := by
      intro d
      obtain ⟨lo, hi, q1, q2, q3, q4, q5, -⟩ := b1 d
      have := hx d
      rw [q1] at this
      exact ⟨lo, hi, q1, q2, by rw [← Option.some.inj this]; exact Rat.le_refl, by rw [← Option.some.inj this]; exact q4⟩
    have i2 : InBoxQ (G.min cells[0]) (G.max cells[0]) x := by
      intro d
      obtain ⟨lo, hi, q1, q2, q3, q4, q5, -⟩ := b2 d
      have := hx d
      rw [h6, q1] at this
      exact ⟨lo, hi, q1, q2, by rw [← Option.some.inj this]; exact Rat.le_refl, by rw [← Option.some.inj this]; exact q4⟩
    have hin : ∀ d, G.start d ≤ x d ∧ x d < G.fin d := by
      intro d
      obtain ⟨lo, hi, q1, q2, q3, q4, q5, -⟩ := b1 d
      have := hx d
      rw [q1] at this
      rw [← Option.some.inj this]
      exact ⟨q3, by grind⟩
    obtain ⟨c, -, -, hu⟩ := hT.one x hin
    have hE := (hu _ e1 i1).trans (hu _ e2 i2).symm
    have := (List.getElem_inj hc.1).1 hE
    omega
  · intro hl2
    exact if_neg (by omega)

/-- Grid with more cells than can be numbered. -/
def longM : Mapping := { len := v3 (2 ^ 29 + 1) 1 1, maxLvl := 0, lastCell := 2 ^ 29 + 1 }

theorem longM_ok : longM.OK where
  pos := by rw [forall_fin3]; decide
  nonneg := by decide
  fits := by decide
  last := by decide

/-- The hypotheses of `C78_many_false` are met by a new grid of one process. -/
example : ∃ (s : Sys 1 Nat Nat) (cells : List Nat), Reachable (longM.grid (fun _ => false) 1) 0 (2 ^ 29 + 1) s ∧
    (Cartesian.init.geo longM).Consistent longM ∧ (Cartesian.init.geo longM).Tiles (exist (s (0 : Fin 1)).owner) ∧
    LocalInOrder s (0 : Fin 1) cells ∧ cells.length = 2 ^ 29 + 1 := by
  have hw : (longM.grid (fun _ => false) 1).WF := grid_wf longM_ok
  have ht : (longM.grid (fun _ => false) 1).total = 2 ^ 29 + 1 := by decide +kernel
  have hlast : (longM.grid (fun _ => false) 1).last = 2 ^ 29 + 1 := by decide +kernel
  obtain ⟨s, h1, h2, -⟩ := createGrid_spec (n := 1) (W := Nat) (maxTag := 2 ^ 29 + 1) hw (by omega) (0 : Nat)
    (fitsTags_mono (by rw [hlast]; exact Nat.le_refl _)
      (fitsTags_last (createLevel0_tiled hw (by omega)).valid))
  have hpos : ∀ d, 0 < Cartesian.init.len d := fun d => by show (0 : Rat) < 1; decide
  have hr : Reachable (longM.grid (fun _ => false) 1) 0 (2 ^ 29 + 1) s := .init h1
  refine ⟨s, List.range' 1 (2 ^ 29 + 1), hr, C44_cartesian_consistent longM_ok hpos,
    C44_cartesian_tiles longM_ok hpos hr 0, ⟨List.nodup_range', ?_, ?_⟩, List.length_range'⟩
  · exact List.pairwise_le_range'
  · intro c
    rw [h2.owner 0, List.mem_range'_1, createLevel0_owner (by omega), ht]
    have hl := firstOf_last (n := 1) (t := 2 ^ 29 + 1) (by omega)
    have : firstOf 1 (2 ^ 29 + 1) 0 = 1 := by unfold firstOf; omega
    show _ ↔ firstOf 1 (2 ^ 29 + 1) 0 ≤ c ∧ c < firstOf 1 (2 ^ 29 + 1) 1
    rw [this, hl]

/-- Integers as printed by `std::ostream` by default: exactly if they have at most six digits, otherwise rounded to
the closest number with six significant digits. -/
def PrintsSix (fmt : Num → Rat) : Prop :=
  ∀ k : Nat, 1 ≤ k → (k < 10 ^ 6 ∧ fmt (some k) = k) ∨
    ∃ q e : Nat, 10 ^ 5 ≤ q ∧ q < 10 ^ 6 ∧ fmt (some k) = (q * 10 ^ e : Nat) ∧
      2 * k ≤ 2 * q * 10 ^ e + 10 ^ e ∧ 2 * q * 10 ^ e ≤ 2 * k + 10 ^ e

theorem printsSix_near {fmt : Num → Rat} (h : PrintsSix fmt) {k : Nat} (h1 : 1000000 ≤ k) (h2 : k ≤ 1000004) :
    fmt (some k) = (1000000 : Nat) := by
  obtain ⟨h3, -⟩ | ⟨q, e, h3, h4, h5, h6, h7⟩ := h k (by omega)
  · omega
  · rw [h5]
    congr 1
    match e with
    | 0 => omega
    | 1 => omega
    | e + 2 =>
      exfalso
      have : 10 ^ (e + 2) = 100 * 10 ^ e := by rw [Nat.pow_add]; omega
      rw [this] at h7
      have hp : 1 ≤ 10 ^ e := Nat.pow_pos (by omega)
      have : 100000 * (100 * 10 ^ e) ≤ q * (100 * 10 ^ e) := Nat.mul_le_mul_right _ (by omega)
      rw [Nat.mul_assoc] at h7
      omega

/-- Geometry that begins far from the origin. -/
def farCart : Cartesian := { start := v3 1000001 0 0, len := fun _ => 1 }

/-- C78 is false of the code: coordinates are printed with six digits, hence cells of a grid that is far from the origin
are drawn as boxes without volume. -/
theorem C78_precision_false : ∃ (s : Sys 2 Nat Nat) (G : Cartesian), (∀ d, 0 < G.len d) ∧ Reachable tinyG 0 146 s ∧
    (s 0).owner 1 = some 0 ∧ ∀ fmt, PrintsSix fmt → ∀ b, b < 8 →
      voxelCorner fmt (G.getMin tinyM 1) (G.getMax tinyM 1) b 0 = voxelCorner fmt (G.getMin tinyM 1) (G.getMax tinyM 1) 0 0 := by
  obtain ⟨s, -, h2, h3, -, -, -, h4, -⟩ := tiny_init
  refine ⟨s, farCart, fun d => by show (0 : Rat) < 1; decide, h2, ?_, ?_⟩
  · rw [h3.sys.owner 0]; exact h4
  · intro fmt hf
    have e : ∀ d, farCart.getMin tinyM 1 d = v3 (some ((1000001 : Nat) : Rat)) (some 0) (some 0) d ∧
        farCart.getMax tinyM 1 d = v3 (some ((1000002 : Nat) : Rat)) (some 1) (some 1) d := by
      rw [forall_fin3]
      decide +kernel
    intro b _
    unfold voxelCorner
    rw [(e 0).1, (e 0).2]
    have h5 : ∀ b : Bool, fmt (if b = true then v3 (some ((1000002 : Nat) : Rat)) (some 1) (some 1) 0
        else v3 (some ((1000001 : Nat) : Rat)) (some 0) (some 0) 0) = (1000000 : Nat) := by
      intro b
      cases b
      · exact printsSix_near hf (by omega) (by omega)
      · exact printsSix_near hf (by omega) (by omega)
    rw [h5, h5]

end Dccrg
