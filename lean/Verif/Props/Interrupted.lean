import Verif.Props.LoadGrid
/-!
# C98: saving that is interrupted

`Torn f l F`: the file was `f`, writes `l` were being made when processes or the computer stopped, and the file is now `F`.
Any bytes of any of the writes may be in it.
-/
namespace Dccrg
open Cfg
variable {n n' m : Nat} {D W : Type}

/-- Every byte is what it was before or what one of the writes puts there. -/
def Torn (f : File) (l : List Write) (F : File) : Prop :=
  ∀ k, F k = f k ∨ ∃ w ∈ l, ∃ j b, k = w.1 + j ∧ w.2[j]? = some b ∧ F k = some b

theorem Torn.disjoint {f F : File} {l : List Write} (h : Torn f l F) (hd : l.Pairwise Write.Disjoint) (k : Nat) :
    F k = f k ∨ F k = f.writes l k := by
  rcases h k with h | ⟨w, hw, j, b, h1, h2, h3⟩
  · exact Or.inl h
  · right
    obtain ⟨hj, h2⟩ := List.getElem?_eq_some_iff.1 h2
    rw [h3, h1, writes_holds f hd w hw j hj, h2]

/-- Writes that are already there. -/
theorem writes_same {F : File} {l : List Write} (h : ∀ w ∈ l, F.Holds w.1 w.2) : F.writes l = F := by
  unfold File.writes
  induction l with
  | nil => rfl
  | cons w l ih =>
    rw [List.foldl_cons]
    have e : F.write w = F := by
      funext k
      unfold File.write
      split
      · cases hk : w.2[k - w.1]? with
        | none => rfl
        | some b =>
          obtain ⟨h1, h2⟩ := List.getElem?_eq_some_iff.1 hk
          have := h w (List.mem_cons_self ..) _ h1
          rw [show w.1 + (k - w.1) = k by omega, h2] at this
          exact this.symm
      · rfl
    rw [e]
    exact ih fun v hv => h v (List.mem_cons_of_mem _ hv)

section
variable {e : Order} {M : Meta} {a : SaveArgs n} {mine : Fin n → List Nat} {piece : Fin n → Nat → Option Piece}
  {ws : Fin n → List Write}

theorem save_within (hn : 0 < n) (h : save e M a mine piece = .ok ws) (hh : a.header.Ok)
    (hp : ∀ i c p, c ∈ cellsOf a mine i → piece i c = some p → p.Ok ∧ (p.named = true ∨ p.count = 1)) :
    ∀ w ∈ (List.finRange n).flatMap ws, a.offset ≤ w.1 ∧ w.1 + w.2.length ≤ fileEnd M a mine piece :=
  fun w hw => chain_start (save_chain hn h hh hp) w ((save_perm hn h).mem_iff.1 hw)

/-- C98: saving that is interrupted at any point has changed nothing before the offset given by the user, and nothing after
the place where it would have ended. -/
theorem C98_outside_partial (hn : 0 < n) (h : save e M a mine piece = .ok ws) (hh : a.header.Ok)
    (hp : ∀ i c p, c ∈ cellsOf a mine i → piece i c = some p → p.Ok ∧ (p.named = true ∨ p.count = 1))
    {f F : File} (ht : Torn f ((List.finRange n).flatMap ws) F) {k : Nat}
    (hk : k < a.offset ∨ fileEnd M a mine piece ≤ k) : F k = f k := by
  rcases ht k with ht | ⟨w, hw, j, b, h1, h2, -⟩
  · exact ht
  · have := save_within hn h hh hp w hw
    have := (List.getElem?_eq_some_iff.1 h2).1
    omega

end

/-- C98: a grid `s` that was saved earlier to the same file is loaded as before (C41) if saving another grid after or
before it, with any number `m` of processes, is interrupted at any point. -/
theorem C98_other_grid_partial {dflt : D} {maxTag : Nat} {e : Order} {M M0 : Meta} (hn : 0 < n) (hn' : 0 < n')
    (hok : M.mapping.OK) (hM : M.Readable) (hk : M0.geom.id = M.geom.id) {s : Sys n D W}
    (hs : Reachable M.grid dflt maxTag s) {mine : Fin n → List Nat}
    (hmine : ∀ i, (mine i).Nodup ∧ ∀ c, c ∈ mine i ↔ ((s i).data c).isSome = true) {K : CellClass D}
    {off : Nat} {header header' : Piece} (hh : header.Ok) (hh' : header'.Ok)
    (hhh : header'.count = header.count ∧ header'.size = header.size)
    {ws : Fin n → List Write}
    (hsave : save e M { offset := off, header := header } mine (fun i c => ((s i).data c).map K.saved) = .ok ws)
    {l : List Write} (hl : l.Perm ((List.finRange n).flatMap ws)) (f : File)
    {d0 : D} {calls : Nat} (hK : ∀ i c d, (s i).data c = some d → (K.saved d).Ok ∧
      ((K.saved d).named = true ∨ (K.saved d).count = 1) ∧ Feeds K calls d0 (K.saved d).bytes d)
    {maxTag' : Nat} (htag : M.grid.last ≤ maxTag')
    (hcells : 2 * totalCells { offset := off, header := header } mine ≤ intMax)
    (hend : fileEnd M { offset := off, header := header } mine (fun i c => ((s i).data c).map K.saved) < 2 ^ 64)
    {ord : Fin n' → List Nat → List Nat} (hord : ∀ i l x, x ∈ ord i l ↔ x ∈ l)
    -- the other grid
    (hm : 0 < m) {M2 : Meta} {a2 : SaveArgs m} {mine2 : Fin m → List Nat} {piece2 : Fin m → Nat → Option Piece}
    {ws2 : Fin m → List Write} (hsave2 : save e M2 a2 mine2 piece2 = .ok ws2) (hh2 : a2.header.Ok)
    (hp2 : ∀ i c p, c ∈ cellsOf a2 mine2 i → piece2 i c = some p → p.Ok ∧ (p.named = true ∨ p.count = 1))
    (hapart : fileEnd M { offset := off, header := header } mine (fun i c => ((s i).data c).map K.saved) ≤ a2.offset ∨
      fileEnd M2 a2 mine2 piece2 ≤ off)
    {F : File} (ht : Torn (f.writes l) ((List.finRange m).flatMap ws2) F) :
    ∃ s' : Sys n' D W, load e F off header' M0 d0 maxTag' ord K calls = .ok (some (header.bytes, M, s')) ∧
      ∀ i j c, exist (s' j).owner c = exist (s i).owner c ∧
        ∀ d, (s i).data c = some d → (s' j).owner c = some j → (s' j).data c = some d := by
  have hp : ∀ i c p, c ∈ cellsOf { offset := off, header := header : SaveArgs n } mine i →
      ((s i).data c).map K.saved = some p → p.Ok ∧ (p.named = true ∨ p.count = 1) := by
    intro i c p _ h
    cases hd : (s i).data c with
    | none => rw [hd] at h; cases h
    | some d =>
      rw [hd] at h
      injection h with h
      rw [← h]
      exact ⟨(hK i c d hd).1, (hK i c d hd).2.1⟩
  have hF : F.writes l = F := by
    apply writes_same
    intro w hw j hj
    obtain ⟨i, -, hi⟩ := List.mem_flatMap.1 (hl.mem_iff.1 hw)
    have h1 := (C42_file_partial hn hsave hh hp hl f).1 i w hi j hj
    have h2 := save_within hn hsave hh hp w (hl.mem_iff.1 hw)
    rw [C98_outside_partial hm hsave2 hh2 hp2 ht, h1]
    simp only [] at h2
    omega
  obtain ⟨s', h1, -, -, h2⟩ := C41_load_partial (d0 := d0) (n' := n') (M0 := M0) hn hn' hok hM hk hs hmine hh hh' hhh hsave hl F
    hK htag hcells hend hord
  rw [hF] at h1
  exact ⟨s', h1, h2⟩

/-- Numbers of smaller bytes are smaller. -/
theorem ofBytes_mono {l l' : List Nat} (hlen : l.length = l'.length) (h : ∀ (k : Nat) b b', l[k]? = some b → l'[k]? = some b' → b ≤ b') :
    ofBytes l ≤ ofBytes l' ∧ (∀ (j : Nat) b b', l[j]? = some b → l'[j]? = some b' → b < b' → ofBytes l < ofBytes l') := by
  induction l generalizing l' with
  | nil => cases l' with
    | nil => exact ⟨Nat.le_refl _, fun j b b' h => by cases j <;> cases h⟩
    | cons => cases hlen
  | cons x l ih =>
    cases l' with
    | nil => cases hlen
    | cons x' l' =>
      obtain ⟨h1, h2⟩ := ih (l' := l') (by simpa using hlen) (fun k b b' hb hb' => h (k + 1) b b' hb hb')
      have h0 := h 0 x x' rfl rfl
      unfold ofBytes
      refine ⟨by omega, fun j b b' hb hb' hlt => ?_⟩
      cases j with
      | zero =>
        injection hb with hb
        injection hb' with hb'
        omega
      | succ j =>
        have := h2 j b b' hb hb' hlt
        omega

theorem dec_lt (e : Order) {l l' : List Nat} (hlen : l.length = l'.length)
    (h : ∀ (k : Nat) b b', l[k]? = some b → l'[k]? = some b' → b ≤ b') {j b b' : Nat} (hb : l[j]? = some b)
    (hb' : l'[j]? = some b') (hlt : b < b') : dec e l < dec e l' := by
  have hj := (List.getElem?_eq_some_iff.1 hb).1
  cases e with
  | little => exact (ofBytes_mono hlen h).2 j b b' hb hb' hlt
  | big =>
    refine (ofBytes_mono (l := l.reverse) (l' := l'.reverse) (by simpa using hlen) ?_).2 (l.length - 1 - j) b b' ?_ ?_ hlt
    · intro k c c' hc hc'
      have hk : k < l.length := by
        have := (List.getElem?_eq_some_iff.1 hc).1
        simpa using this
      rw [List.getElem?_reverse hk] at hc
      rw [List.getElem?_reverse (by omega), ← hlen] at hc'
      exact h _ c c' hc hc'
    · rw [List.getElem?_reverse (by omega), ← hb]
      congr 1
      omega
    · rw [List.getElem?_reverse (by omega), ← hb', ← hlen]
      congr 1
      omega

theorem get_getElem? (F : File) (o len k : Nat) : (F.get o len)[k]? = if k < len then some ((F (o + k)).getD 0) else none := by
  unfold File.get File.read
  rw [List.getElem?_mapIdx, List.getElem?_replicate]
  split <;> rfl

theorem get_length (F : File) (o len : Nat) : (F.get o len).length = len := by
  unfold File.get File.read
  rw [List.length_mapIdx, List.length_replicate]

/-- C98: if nothing was in the file at the given offset and one of the bytes that follow the header has not been written,
the file is not loaded. -/
theorem C98_check_partial {e : Order} {M M0 : Meta} (hn : 0 < n) {mine : Fin n → List Nat}
    {piece : Fin n → Nat → Option Piece} {off : Nat} {header header' : Piece} (hh : header.Ok)
    (hhh : header'.count = header.count ∧ header'.size = header.size) {ws : Fin n → List Write}
    (hsave : save e M { offset := off, header := header } mine piece = .ok ws)
    (hp : ∀ i c p, c ∈ mine i → piece i c = some p → p.Ok ∧ (p.named = true ∨ p.count = 1))
    {f F : File} (hf : ∀ k, off ≤ k → f k = none) (ht : Torn f ((List.finRange n).flatMap ws) F)
    {j : Nat} (hj : j < 8) (hF : F (off + header.size * header.count + j) = none) (d0 : D) (maxTag' : Nat)
    (ord : Fin n' → List Nat → List Nat) (K : CellClass D) (calls : Nat) :
    load (W := W) e F off header' M0 d0 maxTag' ord K calls = .ok none := by
  unfold load
  rw [hhh.1, hhh.2, if_neg (by have := (save_inv hsave).2.1; simp only [] at this; omega)]
  unfold startLoading readMeta
  rw [if_pos]
  · rfl
  intro hdec
  have hp' : ∀ i c p, c ∈ cellsOf { offset := off, header := header : SaveArgs n } mine i → piece i c = some p →
      p.Ok ∧ (p.named = true ∨ p.count = 1) := by
    intro i c p h
    rw [show cellsOf { offset := off, header := header : SaveArgs n } mine i = mine i from if_pos rfl] at h
    exact hp i c p h
  obtain ⟨-, p2, -⟩ := file_parts hn hsave hh rfl rfl rfl hp' (List.Perm.refl _) f
  unfold infoWrites at p2
  simp only [List.append_assoc] at p2
  obtain ⟨f1, -⟩ := holds_chain_append p2 (c := afterHeader { offset := off, header := header : SaveArgs n } + 8)
    ⟨rfl, by rw [enc_length]; rfl⟩
  have f1 : (f.writes ((List.finRange n).flatMap ws)).Holds (off + header.size * header.count) (enc e 8 endiannessCheck) := by
    simpa [contents, afterHeader] using f1
  have hbyte : ∀ k b, (enc e 8 endiannessCheck)[k]? = some b → k < 8 ∧ (F (off + header.size * header.count + k) = none ∨
      F (off + header.size * header.count + k) = some b) := by
    intro k b hb
    obtain ⟨h1, h2⟩ := List.getElem?_eq_some_iff.1 hb
    refine ⟨by rwa [enc_length] at h1, ?_⟩
    rcases ht.disjoint (C42_disjoint_partial hn hsave hh hp') (off + header.size * header.count + k) with h | h
    · left; rw [h]; exact hf _ (by omega)
    · right; rw [h, f1 k h1, h2]
  have hpos : ∀ b ∈ enc e 8 endiannessCheck, 0 < b := by cases e <;> decide
  have hc : dec e (enc e 8 endiannessCheck) = endiannessCheck := dec_enc e (by decide)
  have hjj : j < (enc e 8 endiannessCheck).length := by rw [enc_length]; exact hj
  have := dec_lt e (l := F.get (off + header.size * header.count) 8) (l' := enc e 8 endiannessCheck)
    (by rw [get_length, enc_length]) (fun k b b' h1 h2 => by
      obtain ⟨h3, h4⟩ := hbyte k b' h2
      rw [get_getElem?, if_pos h3] at h1
      injection h1 with h1
      rcases h4 with h4 | h4 <;> rw [h4] at h1
      · have : b = 0 := h1.symm
        omega
      · have : b = b' := h1.symm
        omega)
    (j := j) (b := 0) (b' := (enc e 8 endiannessCheck)[j]) (by rw [get_getElem?, if_pos hj, hF]; rfl)
    (List.getElem?_eq_getElem hjj) (hpos _ (List.getElem_mem _))
  omega

theorem dec64_getElem? (e : Order) (k : Nat) (l : List Nat) (j : Nat) (hj : j < k) :
    (dec64 e k l)[j]? = some (dec e ((l.drop (8 * j)).take 8)) := by
  induction k generalizing l j with
  | zero => omega
  | succ k ih =>
    rw [dec64]
    cases j with
    | zero => rw [List.getElem?_cons_zero, Nat.mul_zero, List.drop_zero]
    | succ j =>
      rw [List.getElem?_cons_succ, ih _ j (by omega), List.drop_drop]
      congr 4
      omega

theorem mem_pairsOf {l : List Nat} {j a b : Nat} (ha : l[2 * j]? = some a) (hb : l[2 * j + 1]? = some b) :
    (a, b) ∈ pairsOf l := by
  induction j generalizing l with
  | zero =>
    match l, ha, hb with
    | x :: y :: l, ha, hb =>
      injection ha with ha
      injection hb with hb
      subst ha hb
      exact List.mem_cons_self ..
    | [x], _, hb => cases hb
    | [], ha, _ => cases ha
  | succ j ih =>
    match l, ha, hb with
    | x :: y :: l, ha, hb =>
      exact List.mem_cons_of_mem _ (ih ha hb)
    | [x], ha, _ => cases ha
    | [], ha, _ => cases ha

theorem ofBytes_zeros (l : List Nat) (h : ∀ b ∈ l, b = 0) : ofBytes l = 0 := by
  induction l with
  | nil => rfl
  | cons b l ih =>
    rw [ofBytes, h b (List.mem_cons_self ..), ih fun x hx => h x (List.mem_cons_of_mem _ hx)]

/-- C98: if nothing was in the file at the given offset, header and information of the grid have been written but the id of
some cell has not, the file is not loaded (the program is aborted). -/
theorem C98_list_partial {e : Order} {M M0 : Meta} (hn : 0 < n) (hM : M.Readable) (hk : M0.geom.id = M.geom.id)
    {mine : Fin n → List Nat} {piece : Fin n → Nat → Option Piece} {off : Nat} {header header' : Piece} (hh : header.Ok)
    (hhh : header'.count = header.count ∧ header'.size = header.size) {ws : Fin n → List Write}
    (hsave : save e M { offset := off, header := header } mine piece = .ok ws)
    (hp : ∀ i c p, c ∈ mine i → piece i c = some p → p.Ok ∧ (p.named = true ∨ p.count = 1))
    {f F : File} (hf : ∀ k, off ≤ k → f k = none) (ht : Torn f ((List.finRange n).flatMap ws) F)
    (hinfo : ∀ k, off ≤ k → k < afterInfo M { offset := off, header := header : SaveArgs n } → (F k).isSome = true)
    (hcells : 2 * totalCells { offset := off, header := header } mine ≤ intMax)
    {j : Nat} (hj : j < totalCells { offset := off, header := header } mine)
    (hF : ∀ k, k < 8 → F (afterInfo M { offset := off, header := header : SaveArgs n } + 16 * j + k) = none)
    (d0 : D) (maxTag' : Nat) (ord : Fin n' → List Nat → List Nat) (K : CellClass D) (calls : Nat) :
    ∀ x, load (W := W) e F off header' M0 d0 maxTag' ord K calls ≠ .ok x := by
  have hp' : ∀ i c p, c ∈ cellsOf { offset := off, header := header : SaveArgs n } mine i → piece i c = some p →
      p.Ok ∧ (p.named = true ∨ p.count = 1) := by
    intro i c p h
    rw [show cellsOf { offset := off, header := header : SaveArgs n } mine i = mine i from if_pos rfl] at h
    exact hp i c p h
  obtain ⟨-, p2, -⟩ := file_parts hn hsave hh rfl rfl rfl hp' (List.Perm.refl _) f
  have hafter : afterHeader { offset := off, header := header : SaveArgs n } +
      (contents (infoWrites e M { offset := off, header := header } mine)).length =
      afterInfo M { offset := off, header := header : SaveArgs n } := by
    have h1 := contents_chain_length (chain_head (e := e) (M := M) (a := { offset := off, header := header : SaveArgs n })
      (mine := mine) hn hh)
    have h2 : headWrites e M { offset := off, header := header : SaveArgs n } mine ⟨0, hn⟩ = [(off, header.bytes)] ++
        infoWrites e M { offset := off, header := header } mine := by
      unfold headWrites; rw [if_pos rfl]; rfl
    rw [h2, contents_append, List.length_append] at h1
    have h3 : (contents [(off, header.bytes)]).length = header.size * header.count := by
      simp [contents]; rw [hh, Nat.mul_comm]
    rw [h3] at h1
    unfold afterHeader
    simp only [] at h1 ⊢
    omega
  have p2' : F.Holds (afterHeader { offset := off, header := header : SaveArgs n })
      (contents (infoWrites e M { offset := off, header := header } mine)) := by
    intro k hk'
    rw [← p2 k hk']
    have hoff : off ≤ afterHeader { offset := off, header := header : SaveArgs n } := by unfold afterHeader; simp
    have h1 := hinfo (afterHeader { offset := off, header := header : SaveArgs n } + k) (by omega) (by omega)
    rcases ht.disjoint (C42_disjoint_partial hn hsave hh hp')
      (afterHeader { offset := off, header := header : SaveArgs n } + k) with h | h
    · rw [h, hf _ (by omega)] at h1; cases h1
    · exact h
  obtain ⟨o, q1, q2, q3⟩ := readMeta_holds e hM hk (a := { offset := off, header := header : SaveArgs n }) rfl p2'
  have htot : dec e (F.get o 8) = totalCells { offset := off, header := header } mine := by
    rw [Holds.get q3 (enc_length ..).symm, dec_enc e]
    have h1 : intMax < 256 ^ 8 := by decide
    omega
  intro x hx
  unfold load at hx
  rw [hhh.1, hhh.2, if_neg (by have := (save_inv hsave).2.1; simp only [] at this; omega)] at hx
  unfold startLoading at hx
  rw [show off + header.size * header.count = afterHeader { offset := off, header := header : SaveArgs n } from rfl, q1] at hx
  simp only [] at hx
  cases hg : createGrid (W := W) M.grid n' d0 maxTag' with
  | ok s =>
    rw [hg] at hx
    simp only [Out.bind] at hx
    rw [htot, if_neg (by omega), if_pos] at hx
    · cases hx
    · generalize totalCells { offset := off, header := header } mine = T at *
      rw [List.any_eq_true]
      refine ⟨_, mem_pairsOf (j := j) (dec64_getElem? e _ _ _ (by omega)) (dec64_getElem? e _ _ _ (by omega)), ?_⟩
      simp only [beq_iff_eq]
      have hz : ∀ b ∈ ((F.get (o + 8) (2 * T * 8)).drop (8 * (2 * j))).take 8, b = 0 := by
        intro b hb
        obtain ⟨k, hk1⟩ := List.mem_iff_getElem?.1 hb
        rw [List.getElem?_take] at hk1
        split at hk1
        · rename_i hk8
          rw [List.getElem?_drop, get_getElem?] at hk1
          split at hk1
          · injection hk1 with hk1
            rw [q2, show afterInfo M { offset := off, header := header : SaveArgs n } + (8 * (2 * j) + k) =
              afterInfo M { offset := off, header := header : SaveArgs n } + 16 * j + k by omega, hF k hk8] at hk1
            exact hk1.symm
          · cases hk1
        · cases hk1
      cases e with
      | little => exact ofBytes_zeros _ hz
      | big => exact ofBytes_zeros _ fun b hb => hz b (List.mem_reverse.1 hb)
  | throws => rw [hg] at hx; cases hx
  | hangs => rw [hg] at hx; cases hx
  | undef => rw [hg] at hx; cases hx

/-! ## Examples -/

theorem Torn.writes {f : File} {l l' : List Write} (h : ∀ w ∈ l', w ∈ l) : Torn f l (f.writes l') := by
  have key : ∀ (l' : List Write) (F : File), Torn f l F → (∀ w ∈ l', w ∈ l) → Torn f l (F.writes l') := by
    intro l'
    induction l' with
    | nil => intro F hF _; exact hF
    | cons w l' ih =>
      intro F hF hl'
      refine ih (F.write w) (fun k => ?_) fun v hv => hl' v (List.mem_cons_of_mem _ hv)
      unfold File.write
      split
      · rename_i hk
        cases hb : w.2[k - w.1]? with
        | none => exact hF k
        | some b => exact Or.inr ⟨w, hl' w (List.mem_cons_self ..), k - w.1, b, by omega, hb, rfl⟩
      · exact hF k
  exact key l' f (fun k => Or.inl rfl) h

/-- The hypotheses of C98_other_grid_partial are met by saving a grid of two processes after the refined grid of the example
of C41; only process 0 has written. -/
example {t : Sys 2 Nat Nat} (ht : Reachable tinyG 0 146 t) (f : File) : ∃ (s : Sys 2 Nat Nat) (mine : Fin 2 → List Nat)
    (ws ws2 : Fin 2 → List Write) (a2 : SaveArgs 2) (F : File), Reachable tinyMeta.grid 0 146 s ∧
    (∀ i, (mine i).Nodup ∧ ∀ c, c ∈ mine i ↔ ((s i).data c).isSome = true) ∧
    save .little tinyMeta { offset := 11, header := samplePiece 3 } mine (fun i c => ((s i).data c).map wordClass.saved) =
      .ok ws ∧
    save .little sampleMeta a2 (fun i => if i = 0 then [1, 3] else [2]) (fun _ c => some (samplePiece c)) = .ok ws2 ∧
    a2.header.Ok ∧ (∀ c, (samplePiece c).Ok ∧ (samplePiece c).named = true) ∧
    fileEnd tinyMeta { offset := 11, header := samplePiece 3 } mine (fun i c => ((s i).data c).map wordClass.saved) ≤
      a2.offset ∧
    Torn (f.writes ((List.finRange 2).flatMap ws)) ((List.finRange 2).flatMap ws2) F ∧
    F = (f.writes ((List.finRange 2).flatMap ws)).writes (ws2 0) := by
  obtain ⟨s, mine, ws, -, -, h1, h2, -, h3, -⟩ := tiny_saved ht
  generalize hE : fileEnd tinyMeta { offset := 11, header := samplePiece 3 } mine
    (fun i c => ((s i).data c).map wordClass.saved) = E
  have h4 : ∃ ws2, save .little sampleMeta { offset := E, header := samplePiece 3 : SaveArgs 2 }
      (fun i => if i = 0 then [1, 3] else [2]) (fun _ c => some (samplePiece c)) = .ok ws2 := by
    unfold save
    rw [if_neg, if_neg (by decide : ¬ (samplePiece 3).size * (samplePiece 3).count > intMax), if_neg]
    · exact ⟨_, rfl⟩
    rotate_left
    · rintro ⟨_, _, _, h⟩; cases h
    rintro ⟨i, h⟩
    rw [listOf_length (fun _ _ _ => rfl)] at h
    revert h
    show ¬ ((if [] = [] then (if i = 0 then [1, 3] else [2]) else []).length * 2 > intMax)
    revert i
    decide
  obtain ⟨ws2, h4⟩ := h4
  refine ⟨s, mine, ws, ws2, _, _, h1, h2, h3, h4,
    (rfl : (samplePiece 3).Ok), fun c => ⟨by unfold Piece.Ok samplePiece; simp, rfl⟩, by rw [hE]; exact Nat.le_refl _, ?_, rfl⟩
  · apply Torn.writes
    intro w hw
    exact List.mem_flatMap.2 ⟨0, List.mem_finRange _, hw⟩

/-- What process 0 writes first when a grid with cells 1 and 3 on process 0 and cell 2 on process 1 is saved. -/
def startWrites (k : Nat) : List Write :=
  (headWrites .little sampleMeta { offset := 5, header := samplePiece 3 : SaveArgs 2 }
    (fun i => if i = 0 then [1, 3] else [2]) 0).take k

/-- The hypotheses of C98_check_partial are met if only the header was written, those of C98_list_partial if header and
information were. -/
example : ∃ ws, save .little sampleMeta { offset := 5, header := samplePiece 3 : SaveArgs 2 }
      (fun i => if i = 0 then [1, 3] else [2]) (fun _ c => some (samplePiece c)) = .ok ws ∧
    Torn (fun _ => none) ((List.finRange 2).flatMap ws) (File.writes (fun _ => none) (startWrites 1)) ∧
    File.writes (fun _ => none) (startWrites 1) (5 + (samplePiece 3).size * (samplePiece 3).count + 0) = none ∧
    File.writes (fun _ => none) (startWrites 1) 7 = some 7 ∧
    Torn (fun _ => none) ((List.finRange 2).flatMap ws) (File.writes (fun _ => none) (startWrites 10)) ∧
    (∀ k, 5 ≤ k → k < afterInfo sampleMeta { offset := 5, header := samplePiece 3 : SaveArgs 2 } →
      (File.writes (fun _ => none) (startWrites 10) k).isSome = true) ∧
    2 * totalCells { offset := 5, header := samplePiece 3 : SaveArgs 2 } (fun i => if i = 0 then [1, 3] else [2]) ≤ intMax ∧
    1 < totalCells { offset := 5, header := samplePiece 3 : SaveArgs 2 } (fun i => if i = 0 then [1, 3] else [2]) ∧
    ∀ k, k < 8 → File.writes (fun _ => none) (startWrites 10)
      (afterInfo sampleMeta { offset := 5, header := samplePiece 3 : SaveArgs 2 } + 16 * 1 + k) = none := by
  have hin : ∀ {ws : Fin 2 → List Write} (k : Nat), save .little sampleMeta { offset := 5, header := samplePiece 3 : SaveArgs 2 }
      (fun i => if i = 0 then [1, 3] else [2]) (fun _ c => some (samplePiece c)) = .ok ws →
      Torn (fun _ => none) ((List.finRange 2).flatMap ws) (File.writes (fun _ => none) (startWrites k)) := by
    intro ws k h
    apply Torn.writes
    intro w hw
    refine List.mem_flatMap.2 ⟨0, List.mem_finRange _, ?_⟩
    rw [(save_inv h).2.2.2 0]
    exact List.mem_append_left _ (List.mem_append_left _ (List.mem_of_mem_take hw))
  obtain ⟨ws, hs⟩ : ∃ ws, save .little sampleMeta { offset := 5, header := samplePiece 3 : SaveArgs 2 }
      (fun i => if i = 0 then [1, 3] else [2]) (fun _ c => some (samplePiece c)) = .ok ws :=
    ⟨_, by unfold save; rw [if_neg (by decide), if_neg (by decide), if_neg (by decide)]⟩
  refine ⟨_, hs, hin 1 hs, by decide +kernel, by decide +kernel, hin 10 hs, ?_, by decide +kernel, by decide +kernel, by decide +kernel⟩
  intro k h1 h2
  have : afterInfo sampleMeta { offset := 5, header := samplePiece 3 : SaveArgs 2 } ≤ 120 := by decide +kernel
  have key : ∀ k : Fin 120, 5 ≤ k.1 → k.1 < afterInfo sampleMeta { offset := 5, header := samplePiece 3 : SaveArgs 2 } →
      (File.writes (fun _ => none) (startWrites 10) k.1).isSome = true := by decide +kernel
  exact key ⟨k, by omega⟩ h1 h2

/-! ## Interrupted saving that is not noticed -/

/-- Grid of two level 0 cells. -/
def pairMeta : Meta := { sampleMeta with mapping := { len := v3 2 1 1, maxLvl := 0, lastCell := 2 } }

/-- Save a grid with data `new` in both cells to file `f` but only first `k` writes are made; state and writes of the grid
and what is loaded from the file. -/
def pairTest (f : File) (new k : Nat) : Option (Option Nat × Option Nat) :=
  match createGrid (W := Nat) pairMeta.grid 1 new 10 with
  | .ok s =>
    match save .little pairMeta { offset := 0, header := samplePiece 0 } (fun _ => [1, 2])
      (fun i c => ((s i).data c).map wordClass.saved) with
    | .ok ws =>
      match load (n := 1) (W := Nat) .little (f.writes ((ws 0).take k)) 0 (samplePiece 0) pairMeta 0 10
        (fun _ l => l) wordClass 1 with
      | .ok (some x) => some ((x.2.2 0).data 1, (x.2.2 0).data 2)
      | _ => none
    | _ => none
  | _ => none

theorem pair_wf : pairMeta.grid.WF := by unfold Cfg.WF; rw [forall_fin3]; decide

theorem pairTest_spec {f : File} {new k : Nat} {r : Option Nat × Option Nat} (h : pairTest f new k = some r) :
    ∃ (s : Sys 1 Nat Nat) (ws : Fin 1 → List Write) (F : File) (hd : List Nat) (s' : Sys 1 Nat Nat) (M : Meta),
      Reachable pairMeta.grid new 10 s ∧ (s 0).data 1 = some new ∧ (s 0).data 2 = some new ∧
      save .little pairMeta { offset := 0, header := samplePiece 0 } (fun _ => [1, 2])
        (fun i c => ((s i).data c).map wordClass.saved) = .ok ws ∧
      F = f.writes ((ws 0).take k) ∧ Torn f ((List.finRange 1).flatMap ws) F ∧
      load .little F 0 (samplePiece 0) pairMeta 0 10 (fun _ l => l) wordClass 1 = .ok (some (hd, M, s')) ∧
      ((s' 0).data 1, (s' 0).data 2) = r := by
  unfold pairTest at h
  split at h
  · rename_i s hs
    split at h
    · rename_i ws hws
      split at h
      · rename_i x hx
        obtain ⟨s2, e1, -, e2⟩ := createGrid_spec (n := 1) (W := Nat) (g := pairMeta.grid) (maxTag := 10)
          pair_wf (by omega) new (fitsTags_mono (by decide) (fitsTags_last (createLevel0_tiled pair_wf (by omega)).valid))
        rw [hs] at e1
        injection e1 with e1
        subst e1
        injection h with h
        refine ⟨s, ws, _, x.1, x.2.2, x.2.1, .init hs, ?_, ?_, hws, rfl, ?_, hx, h⟩
        · rw [(e2 0).2.2.1, if_pos (by decide)]
        · rw [(e2 0).2.2.1, if_pos (by decide)]
        · apply Torn.writes
          intro w hw
          exact List.mem_flatMap.2 ⟨0, List.mem_finRange _, List.mem_of_mem_take hw⟩
      · cases h
    · cases h
  · cases h

/-- C98 is false of the code: when data of the last cell are not written the file is loaded without complaints, with data
that were not saved. -/
theorem C98_false : ∃ (s : Sys 1 Nat Nat) (ws : Fin 1 → List Write) (F : File) (hd : List Nat) (s' : Sys 1 Nat Nat)
    (M : Meta), Reachable pairMeta.grid 5 10 s ∧ (s 0).data 1 = some 5 ∧ (s 0).data 2 = some 5 ∧
      save .little pairMeta { offset := 0, header := samplePiece 0 } (fun _ => [1, 2])
        (fun i c => ((s i).data c).map wordClass.saved) = .ok ws ∧
      Torn (fun _ => none) ((List.finRange 1).flatMap ws) F ∧
      load .little F 0 (samplePiece 0) pairMeta 0 10 (fun _ l => l) wordClass 1 = .ok (some (hd, M, s')) ∧
      (s' 0).data 1 = some 5 ∧ (s' 0).data 2 = some 0 := by
  obtain ⟨s, ws, F, hd, s', M, h1, h2, h3, h4, -, h5, h6, h7⟩ := pairTest_spec
    (show pairTest (fun _ => none) 5 10 = some (some 5, some 0) by decide +kernel)
  injection h7 with h7 h8
  exact ⟨s, ws, F, hd, s', M, h1, h2, h3, h4, h5, h6, h7, h8⟩

/-- File with a grid whose cells have data `old`. -/
def pairFile (old : Nat) : File :=
  match createGrid (W := Nat) pairMeta.grid 1 old 10 with
  | .ok s =>
    match save .little pairMeta { offset := 0, header := samplePiece 0 } (fun _ => [1, 2])
      (fun i c => ((s i).data c).map wordClass.saved) with
    | .ok ws => File.writes (fun _ => none) (ws 0)
    | _ => fun _ => none
  | _ => fun _ => none

/-- C98 is false of the code: interrupted saving over an older file, here with 3 in both cells, leaves a grid that is loaded
without complaints and has never existed. -/
theorem C98_mixed_false : ∃ (s : Sys 1 Nat Nat) (ws : Fin 1 → List Write) (F : File) (hd : List Nat) (s' : Sys 1 Nat Nat)
    (M : Meta), Reachable pairMeta.grid 5 10 s ∧ (s 0).data 1 = some 5 ∧ (s 0).data 2 = some 5 ∧
      save .little pairMeta { offset := 0, header := samplePiece 0 } (fun _ => [1, 2])
        (fun i c => ((s i).data c).map wordClass.saved) = .ok ws ∧
      Torn (pairFile 3) ((List.finRange 1).flatMap ws) F ∧
      load .little F 0 (samplePiece 0) pairMeta 0 10 (fun _ l => l) wordClass 1 = .ok (some (hd, M, s')) ∧
      (s' 0).data 1 = some 5 ∧ (s' 0).data 2 = some 3 := by
  obtain ⟨s, ws, F, hd, s', M, h1, h2, h3, h4, -, h5, h6, h7⟩ := pairTest_spec
    (show pairTest (pairFile 3) 5 10 = some (some 5, some 3) by decide +kernel)
  injection h7 with h7 h8
  exact ⟨s, ws, F, hd, s', M, h1, h2, h3, h4, h5, h6, h7, h8⟩

end Dccrg
