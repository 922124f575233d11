import Verif.FileSpec
/-!
# C41: saving and loading a grid restores it

`Feeds K k d bs d'` (Verif/FileSpec.lean) says that `k` calls to `continue_loading_grid_data` turn data `d` of a default
constructed cell to `d'` when they read bytes `bs`; this is what a user's class of cell data must do.
`Meta.Readable` are members of the grid that survive writing and reading (C09).
-/
namespace Dccrg
open Cfg
variable {n n' : Nat} {D W : Type} {g : Cfg} {dflt : D} {maxTag : Nat}

theorem Unasked.write {s : Sys n D W} (h : Unasked g dflt maxTag s) (j : Fin n) (b : Nat) (d : D) :
    Unasked g dflt maxTag (s.set j (write (s j) b d)) := by
  obtain ⟨k, h, h1, h2, h3, h4⟩ := h
  refine ⟨_, .call (.write j b d) h trivial rfl, fun c => ⟨?_, fun e => e.elim⟩, fun c => ?_, fun c => ?_, fun c => ?_⟩
  · rintro (e | ⟨i, e, -⟩)
    · exact (h1 c).1 e
    · cases e
  · rintro (e | ⟨i, e, -⟩)
    · exact h2 c e
    · cases e
  · rintro (e | ⟨i, e, -⟩)
    · exact h3 c e
    · cases e
  · rintro (e | ⟨i, e, -⟩)
    · exact h4 c e
    · cases e

/-- Data of any cells may be replaced. -/
theorem filled_data {P : Sys n D W → Prop} {s : Sys n D W} (hP : ∀ s j b d, P s → P (s.set j (write (s j) b d)))
    (hv : ∀ i c, ((s i).data c).isSome = true → c ≤ g.last) (h : P s) (fin : Nat → D) :
    P fun i => { s i with data := fun c => ((s i).data c).map fun _ => fin c } := by
  have key : ∀ L : List (Fin n × Nat), ∃ s', P s' ∧
      s' = fun i => { s i with data := fun c => if (i, c) ∈ L then ((s i).data c).map (fun _ => fin c) else (s i).data c } := by
    intro L
    induction L with
    | nil =>
      refine ⟨s, h, ?_⟩
      funext i
      simp
    | cons x L ih =>
      obtain ⟨s', h1, h2⟩ := ih
      obtain ⟨j, b⟩ := x
      by_cases hb : ((s j).data b).isSome = true
      · have hb' : ((s' j).data b).isSome = true := by
          rw [h2]
          simp only []
          split
          · simpa using hb
          · exact hb
        refine ⟨_, hP s' j b (fin b) h1, ?_⟩
        funext i
        unfold Sys.set
        split
        · rename_i e
          subst e
          unfold Dccrg.write
          rw [if_pos hb', h2]
          simp only []
          congr 1
          funext c
          by_cases e : c = b
          · subst e
            rw [if_pos rfl, if_pos (List.mem_cons_self ..)]
            obtain ⟨d, hd⟩ := Option.isSome_iff_exists.1 hb
            rw [hd]; rfl
          · rw [if_neg e]
            have : (i, c) ∈ (i, b) :: L ↔ (i, c) ∈ L := by
              rw [List.mem_cons]
              exact ⟨fun h => h.resolve_left (fun h => e (by injection h)), Or.inr⟩
            simp only [this]
        · rename_i e
          rw [h2]
          have : ∀ c, (i, c) ∈ (j, b) :: L ↔ (i, c) ∈ L := by
            intro c
            rw [List.mem_cons]
            exact ⟨fun h => h.resolve_left (fun h => e (by injection h)), Or.inr⟩
          simp only [this]
      · refine ⟨s', h1, ?_⟩
        rw [h2]
        funext i
        have : (fun c => if (i, c) ∈ L then ((s i).data c).map (fun _ => fin c) else (s i).data c) =
            fun c => if (i, c) ∈ (j, b) :: L then ((s i).data c).map (fun _ => fin c) else (s i).data c := by
          funext c
          by_cases e : (i, c) = (j, b)
          · injection e with e1 e2
            subst e1 e2
            have : (s i).data c = none := by
              cases hx : (s i).data c with
              | none => rfl
              | some d => rw [hx] at hb; exact absurd rfl hb
            rw [this]
            simp
          · have : (i, c) ∈ (j, b) :: L ↔ (i, c) ∈ L := by
              rw [List.mem_cons]
              exact ⟨fun h => h.resolve_left e, Or.inr⟩
            simp only [this]
        simp only [this]
  obtain ⟨s', h1, h2⟩ := key ((List.finRange n).flatMap fun i => (ids g).map fun c => (i, c))
  rw [h2] at h1
  generalize hL : ((List.finRange n).flatMap fun i => (ids g).map fun c => (i, c)) = L at h1
  have : ∀ i, (fun c => if (i, c) ∈ L then ((s i).data c).map (fun _ => fin c) else (s i).data c) =
      fun c => ((s i).data c).map fun _ => fin c := by
    intro i
    funext c
    split
    · rfl
    · rename_i hc
      cases hx : (s i).data c with
      | none => rfl
      | some d =>
        exfalso
        apply hc
        have := hv i c (by rw [hx]; rfl)
        rw [← hL]
        exact List.mem_flatMap.2 ⟨i, List.mem_finRange i, List.mem_map.2 ⟨c, mem_ids.2 this, rfl⟩⟩
  simp only [this] at h1
  exact h1

/-- C41 with steps of loading. Every saved cell is loaded by some process. -/

theorem Unasked.fill {s : Sys n D W} (h : Unasked g dflt maxTag s) (hw : g.WF) (hn : 0 < n) (fin : Nat → D) :
    Unasked g dflt maxTag fun i => { s i with data := fun c => ((s i).data c).map fun _ => fin c } := by
  obtain ⟨w, hi⟩ := h.reachable.inv hw hn
  exact filled_data (g := g) (fun _ j b d h => h.write j b d)
    (fun i c hx => (hi.sys.tiled.valid c (exist_of ((hi.sys.placed i c).1 hx))).2) h fin

theorem Reachable.fill {s : Sys n D W} (h : Reachable g dflt maxTag s) (hw : g.WF) (hn : 0 < n) (fin : Nat → D) :
    Reachable g dflt maxTag fun i => { s i with data := fun c => ((s i).data c).map fun _ => fin c } := by
  obtain ⟨w, hi⟩ := h.inv hw hn
  exact filled_data (g := g) (fun _ j b d h => .step (.write j b d) h trivial rfl)
    (fun i c hx => (hi.sys.tiled.valid c (exist_of ((hi.sys.placed i c).1 hx))).2) h fin

theorem load_saved {e : Order} {M M0 : Meta} (hn : 0 < n) (hn' : 0 < n') (hok : M.mapping.OK) (hM : M.Readable)
    (hk : M0.geom.id = M.geom.id) {s : Sys n D W} (hs : Reachable M.grid dflt maxTag s) {mine : Fin n → List Nat}
    (hmine : ∀ i, (mine i).Nodup ∧ ∀ c, c ∈ mine i ↔ ((s i).data c).isSome = true) {K : CellClass D}
    {off : Nat} {header header' : Piece} (hh : header.Ok) (hh' : header'.Ok)
    (hhh : header'.count = header.count ∧ header'.size = header.size)
    {ws : Fin n → List Write}
    (hsave : save e M { offset := off, header := header } mine (fun i c => ((s i).data c).map K.saved) = .ok ws)
    {l : List Write} (hl : l.Perm ((List.finRange n).flatMap ws)) (f : File)
    {d0 : D} {calls : Nat} (hK : ∀ i c d, (s i).data c = some d → (K.saved d).Ok ∧
      ((K.saved d).named = true ∨ (K.saved d).count = 1) ∧ Feeds K calls d0 (K.saved d).bytes d)
    {maxTag' : Nat} (htag : M.grid.last ≤ maxTag')
    (hcells : 2 * totalCells { offset := off, header := header } mine ≤ intMax)
    (hend : fileEnd M { offset := off, header := header } mine (fun i c => ((s i).data c).map K.saved) < 2 ^ 64)
    {ord : Fin n' → List Nat → List Nat} (hord : ∀ i l x, x ∈ ord i l ↔ x ∈ l) :
    ∃ (s' s2 : Sys n' D W) (l' : Fin n' → List (Nat × Nat)),
      startLoading e (f.writes l) (off + header.size * header.count) M0 d0 maxTag' ord = .ok (some (M, s2, l')) ∧
      continueAll K (f.writes l) calls s2 l' = .ok s' ∧
      (∀ i c, exist (s i).owner c = true ↔ ∃ j, ∃ x ∈ l' j, x.1 = c) ∧
      load e (f.writes l) off header' M0 d0 maxTag' ord K calls = .ok (some (header.bytes, M, s')) ∧
      (∀ j, (l' j).Sublist (table M { offset := off, header := header } mine fun i c => ((s i).data c).map K.saved) ∧
        (∀ c, ((s' j).data c).isSome = true → (s' j).owner c = some j) ∧
        (∀ c, c ∈ (l' j).map Prod.fst ↔ ((s' j).data c).isSome = true) ∧ ((l' j).map Prod.fst).Nodup) ∧
      ((∃ i c, exist (s i).owner c = true ∧ 0 < M.grid.lvl c) → Unasked M.grid d0 maxTag' s') ∧
      ((∀ i c, exist (s i).owner c = true → M.grid.lvl c = 0) →
        ∃ s'', Unasked M.grid d0 maxTag' s'' ∧ Bare M.grid d0 s'' ∧ s' = noCopies s'') ∧
      ∀ i j c, exist (s' j).owner c = exist (s i).owner c ∧
        ∀ d, (s i).data c = some d → (s' j).owner c = some j → (s' j).data c = some d := by
  have hw : M.grid.WF := grid_wf hok
  obtain ⟨w, hi⟩ := hs.inv hw hn
  -- what was saved
  let a : SaveArgs n := { offset := off, header := header }
  have hcells' : ∀ i, cellsOf a mine i = mine i := fun i => if_pos rfl
  have hp : ∀ i c p, c ∈ cellsOf a mine i → ((s i).data c).map K.saved = some p →
      p.Ok ∧ (p.named = true ∨ p.count = 1) := by
    intro i c p _ h
    cases hd : (s i).data c with
    | none => rw [hd] at h; cases h
    | some d =>
      rw [hd] at h
      injection h with h
      rw [← h]
      exact ⟨(hK i c d hd).1, (hK i c d hd).2.1⟩
  obtain ⟨p1, p2, p3, p4, p5⟩ := file_parts hn hsave hh rfl rfl rfl hp hl f
  have hsome := (save_inv hsave).1
  obtain ⟨o, q1, q2, q3⟩ := readMeta_holds e hM hk (a := a) rfl p2
  -- cells in the file
  have hT : ∀ c, c ∈ (table M a mine fun i c => ((s i).data c).map K.saved).map Prod.fst ↔ exist w c = true := by
    intro c
    rw [table_cells hsome, List.mem_flatMap]
    constructor
    · rintro ⟨i, -, h⟩
      rw [hcells', (hmine i).2, hi.sys.placed i c] at h
      exact exist_of h
    · intro h
      obtain ⟨i, h⟩ := Option.isSome_iff_exists.1 h
      exact ⟨i, List.mem_finRange i, by rw [hcells', (hmine i).2, hi.sys.placed i c]; exact h⟩
  have hTn : ((table M a mine fun i c => ((s i).data c).map K.saved).map Prod.fst).Nodup := by
    rw [table_cells hsome]
    apply flatMap_nodup
    · exact List.nodup_finRange n
    · intro i _
      rw [hcells']; exact (hmine i).1
    · intro i _ j _ x h1 h2
      rw [hcells', (hmine _).2, hi.sys.placed] at h1 h2
      rw [h1] at h2
      injection h2
  have hlen := table_length (M := M) hsome
  generalize hTT : (table M a mine fun i c => ((s i).data c).map K.saved) = T at hT hTn hlen p3 p4 p5
  have htot : dec e ((f.writes l).get o 8) = totalCells a mine := by
    rw [Holds.get q3 (enc_length ..).symm, dec_enc e]
    have h1 : intMax < 256 ^ 8 := by decide
    have h2 : 2 * totalCells a mine ≤ intMax := hcells
    omega
  have hpairs : pairsOf (dec64 e (2 * totalCells a mine) ((f.writes l).get (o + 8) (2 * totalCells a mine * 8))) = T := by
    have hfl : (T.flatMap fun x => [x.1, x.2]).length = 2 * totalCells a mine := by
      rw [List.length_flatMap]
      show (List.map (fun _ => 2) T).sum = _
      rw [List.map_const', List.sum_replicate_nat, hlen, Nat.mul_comm]
    rw [q2, Holds.get p3 (by rw [enc64_length, hfl]; omega), ← hfl, dec64_enc64, pairsOf_flatMap]
    intro x hx
    obtain ⟨y, hy, hx⟩ := List.mem_flatMap.1 hx
    simp only [List.mem_cons, List.not_mem_nil, or_false] at hx
    rcases hx with rfl | rfl
    · have hv := hi.sys.tiled.valid _ ((hT y.1).1 (List.mem_map.2 ⟨y, hy, rfl⟩))
      have h1 : M.grid.last = M.mapping.cfg.last := grid_last
      have h2 : M.mapping.cfg.last < 2 ^ 64 := hok.fits
      have h3 := hv.2
      omega
    · have h1 := p5 y hy
      have h2 : fileEnd M a mine (fun i c => ((s i).data c).map K.saved) < 2 ^ 64 := hend
      omega
  -- new grid
  obtain ⟨s0, a1, a2, a3⟩ := createGrid_spec (n := n') (W := W) (maxTag := maxTag') hw hn' d0
    (fitsTags_mono htag (fitsTags_last (createLevel0_tiled hw hn').valid))
  have hlvl : ∀ j c, exist (s0 j).owner c = true → M.grid.lvl c = 0 := by
    intro j c hc
    rw [a2.owner, createLevel0_exist hn'] at hc
    exact (lvl_level0 (g := M.grid) hc.1 hc.2).2
  have hX : Tiled M.grid (exist w) := hi.sys.tiled
  have hgiven : ∀ (i : Fin n') c, (s0 i).owner (M.grid.root c) = some i →
      (c ∈ (T.filter fun x => overlapsLocal M.grid i (s0 i).owner x.1).map Prod.fst ↔ exist w c = true) := by
    intro i c hc
    rw [← hT c]
    simp only [List.mem_map, List.mem_filter]
    constructor
    · rintro ⟨x, ⟨x1, -⟩, x2⟩; exact ⟨x, x1, x2⟩
    · rintro ⟨x, x1, x2⟩
      refine ⟨x, ⟨x1, ?_⟩, x2⟩
      unfold overlapsLocal
      rw [x2, decide_eq_true_eq]
      exact hc
  obtain ⟨s1, b1, b2, b3⟩ := loadCells_unasked hw hn' htag (.init a1) ⟨fun _ => Iff.rfl, fun _ h => h, fun _ h => h, fun _ h => h⟩
    hlvl hX ((balanced_iff hw hX).1 hi.sys.balanced) hord hgiven
  obtain ⟨w1, hi1⟩ := b2.reachable.inv hw hn'
  -- copies of remote neighbors
  obtain ⟨s2, c1, c2, c3, c4⟩ : ∃ s2, loadCells M.grid d0 maxTag' ord (noCopies s0)
      (fun i => (T.filter fun x => overlapsLocal M.grid i (s0 i).owner x.1).map Prod.fst) = .ok s2 ∧
      (∀ i, (s2 i).data = (s1 i).data ∧ (s2 i).owner = (s1 i).owner) ∧
      ((∃ c, exist w c = true ∧ 0 < M.grid.lvl c) → s2 = s1) ∧
      ((∀ c, exist w c = true → M.grid.lvl c = 0) → s2 = noCopies s1 ∧ Bare M.grid d0 s1) := by
    rcases loadCells_noCopies (g := M.grid) (dflt := d0) (maxTag := maxTag') (ord := ord)
        (given := fun i => (T.filter fun x => overlapsLocal M.grid i (s0 i).owner x.1).map Prod.fst) s0 with
      ⟨e1, e2⟩ | ⟨-, e2, e3⟩
    · refine ⟨s1, e2.trans b1, fun i => ⟨rfl, rfl⟩, fun _ => rfl, fun h => ?_⟩
      exfalso
      apply Nat.ne_of_gt e1
      apply maxOver_zero
      intro i
      apply maxLvlOf_zero
      intro c hc
      obtain ⟨h1, h2⟩ := List.mem_filter.1 hc
      unfold overlapsLocal at h2
      rw [decide_eq_true_eq] at h2
      exact h c ((hgiven i c h2).1 h1)
    · rw [b1] at e3
      injection e3 with e3
      subst e3
      refine ⟨noCopies s1, e2, fun i => ⟨rfl, rfl⟩, fun h => ?_, fun _ => ⟨rfl, createGrid_bare hw hn' a1⟩⟩
      exfalso
      obtain ⟨c, h1, h2⟩ := h
      have := hlvl ⟨0, hn'⟩ c (by rw [(b3 ⟨0, hn'⟩ c).1]; exact h1)
      omega
  have hlocal : ∀ i c, ((s1 i).data c).isSome = true ↔
      c ∈ (T.filter fun x => overlapsLocal M.grid i (s0 i).owner x.1).map Prod.fst := by
    intro i c
    rw [hi1.sys.placed, ← hi1.sys.owner i]
    constructor
    · intro h
      have he : exist w c = true := by rw [← (b3 i c).1]; exact exist_of h
      have := (b3 i c).2.1 he
      rw [h] at this
      exact (hgiven i c this.symm).2 he
    · intro h
      have h2 : c ∈ T.map Prod.fst := by
        simp only [List.mem_map, List.mem_filter] at h ⊢
        obtain ⟨x, ⟨x1, -⟩, x2⟩ := h; exact ⟨x, x1, x2⟩
      have he := (hT c).1 h2
      rw [(b3 i c).2.1 he]
      simp only [List.mem_map, List.mem_filter] at h
      obtain ⟨x, ⟨-, x1⟩, x2⟩ := h
      unfold overlapsLocal at x1
      rw [decide_eq_true_eq, x2] at x1
      exact x1
  have hnod : ∀ i : Fin n', ((T.filter fun x => overlapsLocal M.grid i (s0 i).owner x.1).map Prod.fst).Nodup := by
    intro i
    exact hTn.sublist (List.Sublist.map _ List.filter_sublist)
  have hcount : ∀ i, localCount M.grid (s1 i) = (T.filter fun x => overlapsLocal M.grid i (s0 i).owner x.1).length := by
    intro i
    unfold localCount
    rw [← List.length_map Prod.fst (as := T.filter _)]
    apply List.Perm.length_eq
    rw [List.perm_ext_iff_of_nodup (List.Pairwise.filter _ (show (ids M.grid).Nodup from List.nodup_range)) (hnod i)]
    intro c
    rw [List.mem_filter, ← hlocal]
    constructor
    · rintro ⟨-, h⟩; exact h
    · intro h
      exact ⟨mem_ids.2 (hi1.sys.tiled.valid c (exist_of ((hi1.sys.placed i c).1 h))).2, h⟩
  have hstart : startLoading e (f.writes l) (afterHeader a) M0 d0 maxTag' ord =
      .ok (some (M, s2, fun i => T.filter fun x => overlapsLocal M.grid i (s0 i).owner x.1)) := by
    unfold startLoading
    rw [q1]
    simp only []
    rw [a1]
    simp only [Out.bind]
    rw [htot, if_neg (by have h2 : 2 * totalCells a mine ≤ intMax := hcells; omega), hpairs, if_neg]
    · rw [show (fun i => ((T.filter fun x => overlapsLocal M.grid i (s0 i).owner x.1).map Prod.fst)) =
        fun i => (T.filter fun x => overlapsLocal M.grid i (s0 i).owner x.1).map Prod.fst from rfl, c1]
      simp only [Out.bind]
      rw [if_neg]
      rintro ⟨i, h⟩
      apply h
      rw [← hcount i]
      unfold localCount
      congr 2
      funext c
      unfold Proc.has
      rw [(c2 i).1]
    · intro h
      obtain ⟨x, x1, x2⟩ := List.any_eq_true.1 h
      have := (hi.sys.tiled.valid _ ((hT x.1).1 (List.mem_map.2 ⟨x, x1, rfl⟩))).1
      have := (beq_iff_eq.1 x2)
      omega
  -- data
  let fin : Nat → D := fun c => match w c with
    | some i => ((s i).data c).getD d0
    | none => d0
  have hfin : ∀ i c d, (s i).data c = some d → fin c = d := by
    intro i c d h
    have := (hi.sys.placed i c).1 (by rw [h]; rfl)
    show (match w c with | some i => ((s i).data c).getD d0 | none => d0) = d
    rw [this]
    simp only [h, Option.getD_some]
  have hcont : continueAll K (f.writes l) calls s2 (fun i => T.filter fun x => overlapsLocal M.grid i (s0 i).owner x.1) =
      .ok fun i => { s2 i with data := fun c => (((s2 i).data c).map fun _ => fin c) } := by
    refine continueAll_ok hnod (fun i c => by rw [(c2 i).1]; exact hlocal i c) (bs := fun _ c => (K.saved (fin c)).bytes) ?_ ?_
    · intro i x hx
      obtain ⟨j, p, r1, r2, r3⟩ := p4 x (List.mem_filter.1 hx).1
      cases hd : (s j).data x.1 with
      | none => rw [hd] at r2; cases r2
      | some d =>
        rw [hd] at r2
        injection r2 with r2
        rw [hfin j x.1 d hd, r2]
        exact r3
    · intro i c d h
      rw [(c2 i).1] at h
      have he : exist w c = true := by
        rw [← (b3 i c).1, hi1.sys.owner]
        exact exist_of ((hi1.sys.placed i c).1 (by rw [h]; rfl))
      have hd0 : d = d0 := by
        have h1 : (s1 i).owner c = some i := by
          rw [hi1.sys.owner]; exact (hi1.sys.placed i c).1 (by rw [h]; rfl)
        have h2 := (b3 i c).2.2 h1
        rw [h] at h2
        split at h2
        · rw [(a3 i).2.2.1] at h2
          split at h2
          · injection h2
          · cases h2
        · injection h2
      obtain ⟨j, hj⟩ := Option.isSome_iff_exists.1 he
      obtain ⟨d', hd'⟩ := Option.isSome_iff_exists.1 ((hi.sys.placed j c).2 hj)
      rw [hfin j c d' hd', hd0]
      exact (hK j c d' hd').2.2
  refine ⟨fun i => { s2 i with data := fun c => (((s2 i).data c).map fun _ => fin c) }, s2, _, hstart, hcont, ?_, ?_, ?_, ?_, ?_, ?_⟩
  · intro i c
    rw [hi.sys.owner]
    constructor
    · intro hc
      obtain ⟨j, hj⟩ := Option.isSome_iff_exists.1 (show (w1 c).isSome = true by
        have := (b3 ⟨0, hn'⟩ c).1
        rw [hc, hi1.sys.owner] at this
        exact this)
      obtain ⟨x, x1, x2⟩ := List.mem_map.1 ((hlocal j c).1 ((hi1.sys.placed j c).2 hj))
      exact ⟨j, x, x1, x2⟩
    · rintro ⟨j, x, x1, rfl⟩
      exact (hT x.1).1 (List.mem_map.2 ⟨x, (List.mem_filter.1 x1).1, rfl⟩)
  · unfold load
    have h1 : header'.size * header'.count = header.size * header.count := by rw [hhh.1, hhh.2]
    rw [h1, if_neg (by have := (save_inv hsave).2.1; simp only [] at this; omega)]
    rw [show off + header.size * header.count = afterHeader a from rfl, hstart]
    simp only [Out.bind]
    rw [hcont, Holds.read p1 (by show _ = header.bytes.length; rw [hh, hh', hhh.1, hhh.2])]
  · intro j
    refine ⟨hTT ▸ List.filter_sublist, fun c hc => ?_, fun c => ?_, hnod j⟩
    · have hc : (((s2 j).data c).map fun _ => fin c).isSome = true := hc
      rw [Option.isSome_map, (c2 j).1] at hc
      show (s2 j).owner c = some j
      rw [(c2 j).2, hi1.sys.owner]
      exact (hi1.sys.placed j c).1 hc
    · show _ ↔ (((s2 j).data c).map fun _ => fin c).isSome = true
      rw [Option.isSome_map, (c2 j).1]
      exact (hlocal j c).symm
  · rintro ⟨i, c, h1, h2⟩
    rw [c3 ⟨c, by rw [← hi.sys.owner i]; exact h1, h2⟩]
    exact b2.fill hw hn' fin
  · intro h
    obtain ⟨h1, h2⟩ := c4 fun c hc => h ⟨0, hn⟩ c (by rw [hi.sys.owner]; exact hc)
    refine ⟨_, b2.fill hw hn' fin, ⟨h2.lvl, h2.hoods, fun i c => ?_, h2.refined, h2.unrefined⟩, ?_⟩
    · simp only [Option.isSome_map]
      exact h2.remote i c
    · rw [h1]
      rfl
  · intro i j c
    refine ⟨?_, fun d hd hj => ?_⟩
    · show exist (s2 j).owner c = _
      rw [(c2 j).2, (b3 j c).1, hi.sys.owner]
    · show ((s2 j).data c).map _ = _
      have hj' : (s2 j).owner c = some j := hj
      rw [(c2 j).2] at hj'
      rw [(c2 j).1]
      rw [hi1.sys.owner] at hj'
      obtain ⟨x, hx⟩ := Option.isSome_iff_exists.1 ((hi1.sys.placed j c).2 hj')
      rw [hx, Option.map_some, hfin i c d hd]

/-- C41: a grid of any number `n` of processes, `s` of which is any state the user can get the grid to, is saved into a file,
whatever was in it and in whatever order processes write. It is loaded with any number `n'` of processes and any default
constructed cell `d0`. Header, members of the grid, existing cells and their data are then what they were when saved. If some
cell was refined the new grid is one that could be made without loading, otherwise it is such a grid without copies of remote
neighbors (C81). -/
theorem C41_load_partial {e : Order} {M M0 : Meta} (hn : 0 < n) (hn' : 0 < n') (hok : M.mapping.OK) (hM : M.Readable)
    (hk : M0.geom.id = M.geom.id) {s : Sys n D W} (hs : Reachable M.grid dflt maxTag s) {mine : Fin n → List Nat}
    (hmine : ∀ i, (mine i).Nodup ∧ ∀ c, c ∈ mine i ↔ ((s i).data c).isSome = true) {K : CellClass D}
    {off : Nat} {header header' : Piece} (hh : header.Ok) (hh' : header'.Ok)
    (hhh : header'.count = header.count ∧ header'.size = header.size)
    {ws : Fin n → List Write}
    (hsave : save e M { offset := off, header := header } mine (fun i c => ((s i).data c).map K.saved) = .ok ws)
    {l : List Write} (hl : l.Perm ((List.finRange n).flatMap ws)) (f : File)
    {d0 : D} {calls : Nat} (hK : ∀ i c d, (s i).data c = some d → (K.saved d).Ok ∧
      ((K.saved d).named = true ∨ (K.saved d).count = 1) ∧ Feeds K calls d0 (K.saved d).bytes d)
    {maxTag' : Nat} (htag : M.grid.last ≤ maxTag')
    (hcells : 2 * totalCells { offset := off, header := header } mine ≤ intMax)
    (hend : fileEnd M { offset := off, header := header } mine (fun i c => ((s i).data c).map K.saved) < 2 ^ 64)
    {ord : Fin n' → List Nat → List Nat} (hord : ∀ i l x, x ∈ ord i l ↔ x ∈ l) :
    ∃ s' : Sys n' D W, load e (f.writes l) off header' M0 d0 maxTag' ord K calls = .ok (some (header.bytes, M, s')) ∧
      ((∃ i c, exist (s i).owner c = true ∧ 0 < M.grid.lvl c) → Reachable M.grid d0 maxTag' s') ∧
      ((∀ i c, exist (s i).owner c = true → M.grid.lvl c = 0) →
        ∃ s'', Reachable M.grid d0 maxTag' s'' ∧ Bare M.grid d0 s'' ∧ s' = noCopies s'') ∧
      ∀ i j c, exist (s' j).owner c = exist (s i).owner c ∧
        ∀ d, (s i).data c = some d → (s' j).owner c = some j → (s' j).data c = some d := by
  obtain ⟨s', -, -, -, -, -, h4, -, h5, h6, h7⟩ :=
    load_saved hn hn' hok hM hk hs hmine hh hh' hhh hsave hl f hK htag hcells hend hord
  refine ⟨s', h4, fun h => (h5 h).reachable, fun h => ?_, h7⟩
  obtain ⟨s'', e1, e2⟩ := h6 h
  exact ⟨s'', e1.reachable, e2⟩

/-- C41: saving succeeds if sizes fit into `int`. -/
theorem C41_save {e : Order} {M : Meta} {s : Sys n D W} {mine : Fin n → List Nat}
    (hmine : ∀ i, (mine i).Nodup ∧ ∀ c, c ∈ mine i ↔ ((s i).data c).isSome = true) {K : CellClass D}
    {off : Nat} {header : Piece} (hh : header.size * header.count ≤ intMax) (hc : ∀ i, (mine i).length * 2 ≤ intMax) :
    ∃ ws, save e M { offset := off, header := header } mine (fun i c => ((s i).data c).map K.saved) = .ok ws := by
  have h1 : ∀ i, ∀ c ∈ cellsOf { offset := off, header := header : SaveArgs n } mine i,
      (((s i).data c).map K.saved).isSome = true := by
    intro i c h
    rw [show cellsOf { offset := off, header := header : SaveArgs n } mine i = mine i from if_pos rfl, (hmine i).2] at h
    simpa using h
  unfold save
  rw [if_neg, if_neg, if_neg]
  · exact ⟨_, rfl⟩
  · rintro ⟨i, h⟩
    rw [listOf_length h1] at h
    have : (cellsOf { offset := off, header := header : SaveArgs n } mine i).length * 2 ≤ intMax := by
      rw [show cellsOf { offset := off, header := header : SaveArgs n } mine i = mine i from if_pos rfl]; exact hc i
    exact absurd h (Nat.not_lt.2 this)
  · show ¬ header.size * header.count > intMax
    omega
  · rintro ⟨i, c, h2, h3⟩
    have := h1 i c h2
    rw [show ((s i).data c).map K.saved = none from Option.isNone_iff_eq_none.1 h3] at this
    cases this

/-- C60: a file that was written by a machine with other byte order is not loaded. -/
theorem C60_other_order {e e' : Order} (he : e' ≠ e) {M M0 : Meta} (hn : 0 < n)
    {mine : Fin n → List Nat} {piece : Fin n → Nat → Option Piece} {off : Nat} {header header' : Piece} (hh : header.Ok)
    (hhh : header'.count = header.count ∧ header'.size = header.size) {ws : Fin n → List Write}
    (hsave : save e M { offset := off, header := header } mine piece = .ok ws)
    (hp : ∀ i c p, c ∈ mine i → piece i c = some p → p.Ok ∧ (p.named = true ∨ p.count = 1))
    {l : List Write} (hl : l.Perm ((List.finRange n).flatMap ws)) (f : File) (d0 : D) (maxTag' : Nat)
    (ord : Fin n' → List Nat → List Nat) (K : CellClass D) (calls : Nat) :
    load (W := W) e' (f.writes l) off header' M0 d0 maxTag' ord K calls = .ok none := by
  obtain ⟨p1, p2, -⟩ := file_parts hn hsave hh rfl rfl rfl (by
    intro i c p h
    rw [show cellsOf { offset := off, header := header : SaveArgs n } mine i = mine i from if_pos rfl] at h
    exact hp i c p h) hl f
  unfold infoWrites at p2
  simp only [List.append_assoc] at p2
  obtain ⟨f1, -⟩ := holds_chain_append p2 (c := afterHeader { offset := off, header := header : SaveArgs n } + 8)
    ⟨rfl, by rw [enc_length]; rfl⟩
  have f1 : (f.writes l).Holds (off + header.size * header.count) (enc e 8 endiannessCheck) := by
    simpa [contents, afterHeader] using f1
  unfold load
  rw [hhh.1, hhh.2, if_neg (by have := (save_inv hsave).2.1; simp only [] at this; omega)]
  unfold startLoading readMeta
  rw [Holds.get f1 (enc_length ..).symm, if_pos]
  · rfl
  · cases e <;> cases e' <;> first | exact absurd rfl he | decide

/-! ## Examples -/

/-- Cells with 64-bit numbers. -/
def wordClass : CellClass Nat where
  saved d := { named := true, count := 1, size := 8, bytes := enc .little 8 d }
  loaded d := { named := true, count := 1, size := 8, bytes := enc .little 8 d }
  fill _ l := dec .little l

def tinyMeta : Meta := { mapping := tinyM, hood := 1, per := v3 false false true, geom := .no }

theorem tinyMeta_readable : tinyMeta.Readable where
  mapping := by
    have h := Mapping.accepted (m0 := Mapping.init) (m1 := { len := v3 2 1 1, maxLvl := 0, lastCell := 2 }) (m := tinyM)
      (l := v3 2 1 1) (k := 2) (by rw [forall_fin3]; decide) (by decide) rfl rfl
    exact h.1
  hood := by decide
  small := trivial
  settable := ⟨.no, rfl⟩

theorem displEnd_word (l : List Nat) (f : Nat → Option Nat) :
    displEnd (l.filterMap fun c => (f c).map wordClass.saved) ≤ 8 * l.length := by
  induction l with
  | nil => exact Nat.le_refl 0
  | cons c l ih =>
    rw [List.filterMap_cons]
    cases f c with
    | none => simp only [Option.map_none, List.length_cons]; omega
    | some d =>
      simp only [Option.map_some]
      rw [displEnd_cons, List.length_cons]
      have : (wordClass.saved d).advance = 8 := rfl
      omega

/-- Any grid of the demo of which data of cells are 64-bit numbers. -/
theorem tiny_savable {s : Sys 2 Nat Nat} (hr : Reachable tinyG 0 146 s)
    (hd : ∀ i c d, (s i).data c = some d → d < 2 ^ 64) : ∃ (mine : Fin 2 → List Nat) (ws : Fin 2 → List Write),
    (∀ i, (mine i).Nodup ∧ ∀ c, c ∈ mine i ↔ ((s i).data c).isSome = true) ∧ (samplePiece 3).Ok ∧
    save .little tinyMeta { offset := 11, header := samplePiece 3 } mine (fun i c => ((s i).data c).map wordClass.saved) =
      .ok ws ∧
    (∀ i c d, (s i).data c = some d → (wordClass.saved d).Ok ∧
      ((wordClass.saved d).named = true ∨ (wordClass.saved d).count = 1) ∧
      Feeds wordClass 1 0 (wordClass.saved d).bytes d) ∧ tinyMeta.grid.last ≤ 146 ∧
    2 * totalCells { offset := 11, header := samplePiece 3 } mine ≤ intMax ∧
    fileEnd tinyMeta { offset := 11, header := samplePiece 3 } mine (fun i c => ((s i).data c).map wordClass.saved) < 2 ^ 64 := by
  obtain ⟨w, hi⟩ := hr.inv tiny_wf (by omega)
  have hm : ∀ i : Fin 2, ((ids tinyG).filter fun c => (s i).has c).length ≤ 147 := by
    intro i
    refine Nat.le_trans (List.length_filter_le ..) ?_
    unfold ids
    rw [List.length_range, tiny_last]
    exact Nat.le_refl _
  have hmine : ∀ i : Fin 2, ((ids tinyG).filter fun c => (s i).has c).Nodup ∧
      ∀ c, c ∈ ((ids tinyG).filter fun c => (s i).has c) ↔ ((s i).data c).isSome = true := by
    intro i
    refine ⟨List.Pairwise.filter _ (show (ids tinyG).Nodup from List.nodup_range), fun c => ?_⟩
    rw [List.mem_filter]
    exact ⟨fun h => h.2, fun h =>
      ⟨mem_ids.2 (hi.sys.tiled.valid c (exist_of ((hi.sys.placed i c).1 h))).2, h⟩⟩
  obtain ⟨ws, hws⟩ := C41_save (e := .little) (M := tinyMeta) (K := wordClass) (off := 11) (header := samplePiece 3) hmine
    (by decide) (fun i => Nat.le_trans (Nat.mul_le_mul_right 2 (hm i)) (by decide))
  have htot : totalCells { offset := 11, header := samplePiece 3 : SaveArgs 2 }
      (fun i => (ids tinyG).filter fun c => (s i).has c) ≤ 294 := by
    have h0 := hm 0
    have h1 := hm 1
    unfold totalCells total
    rw [show List.finRange 2 = [0, 1] by decide]
    simp only [List.map_cons, List.map_nil, List.sum_cons, List.sum_nil, cellsOf, if_pos]
    omega
  refine ⟨_, ws, hmine, by unfold Piece.Ok; decide, hws, ?_, by decide, ?_, ?_⟩
  · intro i c d h
    have h2 := hd i c d h
    refine ⟨by unfold Piece.Ok wordClass; simp, Or.inl rfl, ?_, Or.inl rfl, ?_⟩
    · unfold wordClass; simp
    · show dec .little ((enc .little 8 d).take _) = d
      rw [List.take_of_length_le (by unfold wordClass; simp), dec_enc _ (by omega)]
  · have : (588 : Nat) ≤ intMax := by decide
    omega
  · unfold fileEnd
    have hA : afterInfo tinyMeta { offset := 11, header := samplePiece 3 : SaveArgs 2 } + 0 ≤ 1000 := by decide
    have hE : entries { offset := 11, header := samplePiece 3 : SaveArgs 2 } = 2 := rfl
    have hD : (total fun i : Fin 2 => displEnd (piecesOf { offset := 11, header := samplePiece 3 : SaveArgs 2 }
        (fun i => (ids tinyG).filter fun c => (s i).has c) (fun i c => ((s i).data c).map wordClass.saved) i)) ≤ 8 * 294 := by
      have h0 := displEnd_word ((ids tinyG).filter fun c => (s 0).has c) (s 0).data
      have h1 := displEnd_word ((ids tinyG).filter fun c => (s 1).has c) (s 1).data
      have e0 := hm 0
      have e1 := hm 1
      unfold total
      rw [show List.finRange 2 = [0, 1] by decide]
      simp only [List.map_cons, List.map_nil, List.sum_cons, List.sum_nil, cellsOf, piecesOf, if_pos]
      omega
    rw [hE]
    omega

/-- Any grid of the demo of which data of cells are their ids. -/
theorem tiny_saved {t : Sys 2 Nat Nat} (ht : Reachable tinyG 0 146 t) : ∃ (s : Sys 2 Nat Nat) (mine : Fin 2 → List Nat) (ws : Fin 2 → List Write),
    tinyMeta.mapping.OK ∧ tinyMeta.Readable ∧ Reachable tinyMeta.grid 0 146 s ∧
    (∀ i, (mine i).Nodup ∧ ∀ c, c ∈ mine i ↔ ((s i).data c).isSome = true) ∧ (samplePiece 3).Ok ∧
    save .little tinyMeta { offset := 11, header := samplePiece 3 } mine (fun i c => ((s i).data c).map wordClass.saved) =
      .ok ws ∧
    (∀ i c d, (s i).data c = some d → (wordClass.saved d).Ok ∧
      ((wordClass.saved d).named = true ∨ (wordClass.saved d).count = 1) ∧
      Feeds wordClass 1 0 (wordClass.saved d).bytes d) ∧ tinyMeta.grid.last ≤ 146 ∧
    2 * totalCells { offset := 11, header := samplePiece 3 } mine ≤ intMax ∧
    fileEnd tinyMeta { offset := 11, header := samplePiece 3 } mine (fun i c => ((s i).data c).map wordClass.saved) < 2 ^ 64 ∧
    (∀ i, (s i).owner = (t i).owner) ∧ ∀ i c, (s i).data c = ((t i).data c).map fun _ => c := by
  have hr := ht.fill tiny_wf (by omega) (fun c => c)
  generalize hs : (fun i => { t i with data := fun c => ((t i).data c).map fun _ => c }) = s at hr
  obtain ⟨w, hi⟩ := hr.inv tiny_wf (by omega)
  obtain ⟨mine, ws, h1, h2, h3, h4, h5, h6, h7⟩ := tiny_savable hr (by
    intro i c d h
    have h1 := (hi.sys.tiled.valid c (exist_of ((hi.sys.placed i c).1 (by rw [h]; rfl)))).2
    rw [tiny_last] at h1
    rw [← hs] at h
    cases hx : (t i).data c with
    | none => simp only [hx] at h; cases h
    | some y => simp only [hx] at h; injection h with h; have h : c = d := h; omega)
  exact ⟨s, mine, ws, tinyM_ok, tinyMeta_readable, hr, h1, h2, h3, h4, h5, h6, h7, fun i => by rw [← hs],
    fun i c => by rw [← hs]⟩

/-- Two level 0 cells of which one has been refined, on two processes; data of cells are their ids. Loaded with any number
of processes. -/
theorem tiny_saved_refined : ∃ (s : Sys 2 Nat Nat) (mine : Fin 2 → List Nat) (ws : Fin 2 → List Write),
    tinyMeta.mapping.OK ∧ tinyMeta.Readable ∧ Reachable tinyMeta.grid 0 146 s ∧
    (∀ i, (mine i).Nodup ∧ ∀ c, c ∈ mine i ↔ ((s i).data c).isSome = true) ∧ (samplePiece 3).Ok ∧
    save .little tinyMeta { offset := 11, header := samplePiece 3 } mine (fun i c => ((s i).data c).map wordClass.saved) =
      .ok ws ∧
    (∀ i c d, (s i).data c = some d → (wordClass.saved d).Ok ∧
      ((wordClass.saved d).named = true ∨ (wordClass.saved d).count = 1) ∧
      Feeds wordClass 1 0 (wordClass.saved d).bytes d) ∧ tinyMeta.grid.last ≤ 146 ∧
    2 * totalCells { offset := 11, header := samplePiece 3 } mine ≤ intMax ∧
    fileEnd tinyMeta { offset := 11, header := samplePiece 3 } mine (fun i c => ((s i).data c).map wordClass.saved) < 2 ^ 64 ∧
    exist (s 0).owner 3 = true ∧ (s 0).data 3 = some 3 := by
  obtain ⟨k, t, t1, t2, t3, t4⟩ := tiny_family
  obtain ⟨s, mine, ws, h1, h2, h3, h4, h5, h6, h7, h8, h9, h10, h11, h12⟩ := tiny_saved t1.reachable
  obtain ⟨w, hi⟩ := t1.reachable.inv tiny_wf (by omega)
  have ht := t3 0 3 (by decide)
  refine ⟨s, mine, ws, h1, h2, h3, h4, h5, h6, h7, h8, h9, h10, exist_of (by rw [h11]; exact ht), ?_⟩
  rw [hi.sys.owner] at ht
  obtain ⟨d, hx⟩ := Option.isSome_iff_exists.1 ((hi.sys.placed 0 3).2 ht)
  rw [h12, hx]
  rfl

/-! ## Several calls -/

/-- Cells with a fixed part of two bytes and a byte of which the fixed part tells, as loaded by two calls. -/
def twoClass : CellClass (Nat × List Nat) where
  saved d := { named := false, count := 1, size := 3, bytes := d.2 }
  loaded d := if d.1 = 0 then { named := true, count := 2, size := 1, bytes := [0, 0] }
    else { named := true, count := 1, size := 1, bytes := [0] }
  fill d l := (d.1 + 1, d.2 ++ l)

/-- What happens to the data of the cell in a grid of one cell. -/
def twoTest (d : Nat × List Nat) (calls : Nat) : Option (Nat × List Nat) :=
  match createGrid (W := Nat) sampleMeta.grid 1 d 10 with
  | .ok s =>
    match save .little sampleMeta { offset := 0, header := samplePiece 0 } (fun _ => [1])
      (fun i c => ((s i).data c).map twoClass.saved) with
    | .ok ws =>
      match load (n := 1) (W := Nat) .little (File.writes (fun _ => none) (ws 0)) 0 (samplePiece 0) sampleMeta (0, []) 10
        (fun _ l => l) twoClass calls with
      | .ok (some x) => (x.2.2 0).data 1
      | _ => none
    | _ => none
  | _ => none

/-- C41 is false of the code if the datatype of a call other than the last has a count that is not 1: the next call reads
from a wrong place. Here bytes 7 8 9 of the cell are loaded as 7 8 8. -/
theorem C41_false : ∃ (s : Sys 1 (Nat × List Nat) Nat) (ws : Fin 1 → List Write) (h : List Nat) (M : Meta)
    (s' : Sys 1 (Nat × List Nat) Nat) (d : Nat × List Nat), Reachable sampleMeta.grid d 10 s ∧ (s 0).data 1 = some d ∧
    (twoClass.saved d).Ok ∧ (twoClass.saved d).count = 1 ∧
    twoClass.fill (twoClass.fill (0, []) (d.2.take 2)) (d.2.drop 2) = d ∧
    save .little sampleMeta { offset := 0, header := samplePiece 0 } (fun _ => [1])
      (fun i c => ((s i).data c).map twoClass.saved) = .ok ws ∧
    load .little (File.writes (fun _ => none) (ws 0)) 0 (samplePiece 0) sampleMeta (0, []) 10 (fun _ l => l) twoClass 2 =
      .ok (some (h, M, s')) ∧
    (s' 0).data 1 = some (2, [7, 8, 8]) := by
  have h : twoTest (2, [7, 8, 9]) 2 = some (2, [7, 8, 8]) := by decide +kernel
  unfold twoTest at h
  split at h
  · rename_i s hs
    split at h
    · rename_i ws hws
      split at h
      · rename_i x hx
        obtain ⟨s2, e1, -, e2⟩ := createGrid_spec (n := 1) (W := Nat) (g := sampleMeta.grid) (maxTag := 10)
          (by unfold Cfg.WF; rw [forall_fin3]; decide) (by omega) (2, [7, 8, 9])
          (fitsTags_mono (by decide) (fitsTags_last
            (createLevel0_tiled (by unfold Cfg.WF; rw [forall_fin3]; decide) (by omega)).valid))
        rw [hs] at e1
        injection e1 with e1
        subst e1
        refine ⟨s, ws, x.1, x.2.1, x.2.2, _, .init hs, ?_, rfl, rfl, rfl, hws, hx, h⟩
        rw [(e2 0).2.2.1]
        decide
      · cases h
    · cases h
  · cases h

end Dccrg
