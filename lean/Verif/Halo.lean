import Verif.Transfer
/-!
# Cells on process boundaries and updates of remote neighbors

Model of `update_remote_neighbor_info`, `recalculate_neighbor_update_send_receive_lists` and
`update_copies_of_remote_neighbors`. `H` is either the default neighborhood or one that has been added
by the user. Functions of process `i` use its `cell_process` (`w`) and the cells in its `cell_data`
(`has`).
-/
namespace Dccrg
open Cfg
variable {n : Nat} {D : Type}

/-- Neighbors of a cell, `neighbors_of` (dccrg.hpp:9107-9122) for the default neighborhood and
`user_neigh_of` (dccrg.hpp:9167-9174) for others, ids only. -/
def nbrsOfH (g : Cfg) (E : Nat → Bool) (H : List (V3 Int)) (c : Nat) : List Nat :=
  match findNeighborsOf g E c H with
  | .ok l => l.map (·.1)
  | _ => []

/-- `neighbors_to` (dccrg.hpp:9123) or `user_neigh_to` (dccrg.hpp:9172-9173) of a cell. -/
def nbrsToH (g : Cfg) (E : Nat → Bool) (H : List (V3 Int)) (c : Nat) : List Nat :=
  match findNeighborsTo g E c (negHood H) with
  | .ok l => l
  | _ => []

/-- `local_cells_on_process_boundary` (dccrg.hpp:9186-9289, 9432-9465) or
`user_local_cells_on_process_boundary` (dccrg.hpp:9300-9425, 9472-9504). -/
def localBoundaryH (g : Cfg) (H : List (V3 Int)) (i : Fin n) (w : Owner n) (has : Nat → Bool) :
    List Nat :=
  (ids g).filter fun c => has c && (getChild g (exist w) c == c) && (w c == some i) &&
    (nbrsOfH g (exist w) H c ++ nbrsToH g (exist w) H c).any fun b => b != 0 && w b != some i

/-- `remote_cells_on_process_boundary` or `user_remote_cells_on_process_boundary`. -/
def remoteBoundaryH (g : Cfg) (H : List (V3 Int)) (i : Fin n) (w : Owner n) (has : Nat → Bool) :
    List Nat :=
  (localBoundaryH g H i w has).flatMap fun c =>
    (nbrsOfH g (exist w) H c ++ nbrsToH g (exist w) H c).filter fun b => b != 0 && w b != some i

/-- Cells that process `i` sends to process `q` in an update of remote neighbors, `cells_to_send`
(dccrg.hpp:8784-8897) or `user_neigh_cells_to_send` (dccrg.hpp:8954-9045). Order of lists defines
tags of messages. -/
def sendList (g : Cfg) (H : List (V3 Int)) (i : Fin n) (w : Owner n) (has : Nat → Bool) (q : Fin n) :
    List Nat :=
  isort (dedup ((localBoundaryH g H i w has).filter fun c =>
    (nbrsToH g (exist w) H c).any fun b => b != 0 && w b != some i && w b == some q))

/-- Cells that process `i` receives from process `p`, `cells_to_receive` (dccrg.hpp:8784-8940)
or `user_neigh_cells_to_receive` (dccrg.hpp:8954-9082). -/
def recvList (g : Cfg) (H : List (V3 Int)) (i : Fin n) (w : Owner n) (has : Nat → Bool) (p : Fin n) :
    List Nat :=
  isort (dedup ((localBoundaryH g H i w has).flatMap fun c =>
    (nbrsOfH g (exist w) H c).filter fun b => b != 0 && w b != some i && w b == some p))

/-- `update_copies_of_remote_neighbors` (dccrg.hpp:978-1014): new `remote_neighbors` of every process.
Data of a cell is transferred as a whole. -/
def updateCopies (g : Cfg) (H : List (V3 Int)) (maxTag : Nat) (w : Fin n → Owner n)
    (data remote : Fin n → Nat → Option D) : Out (Fin n → Nat → Option D) :=
  transfer maxTag (fun p q => sendList g H p (w p) (fun c => (data p c).isSome) q)
    (fun q p => recvList g H q (w q) (fun c => (data q c).isSome) p) data remote

section
variable {g : Cfg} {E : Nat → Bool} {w : Owner n} {H : List (V3 Int)}

theorem nbrsOf_eq (g : Cfg) (E : Nat → Bool) (c : Nat) : nbrsOf g E c = nbrsOfH g E (hoodOf g) c := rfl

theorem nbrsTo_eq (g : Cfg) (E : Nat → Bool) (c : Nat) : nbrsTo g E c = nbrsToH g E (hoodOf g) c := rfl

theorem localBoundary_eq (g : Cfg) (i : Fin n) (w : Owner n) (has : Nat → Bool) :
    localBoundary g i w has = localBoundaryH g (hoodOf g) i w has := rfl

theorem remoteBoundary_eq (g : Cfg) (i : Fin n) (w : Owner n) (has : Nat → Bool) :
    remoteBoundary g i w has = remoteBoundaryH g (hoodOf g) i w has := rfl

theorem mem_nbrsOfH (hw : g.WF) (ht : Tiled g E) (hb : Balanced g E) (hH : ∀ o ∈ H, o ∈ hoodOf g)
    {b c : Nat} (hc : E c = true) :
    b ∈ nbrsOfH g E H c ↔ E b = true ∧ ∃ o ∈ H, Meets g c o b := by
  obtain ⟨f, h1, -, -, h4⟩ := C15_neighbors_of hw ht ((balanced_iff hw ht).1 hb) hc hH
  unfold nbrsOfH
  rw [h1, ← h4]
  simp only [List.mem_map]
  constructor
  · rintro ⟨⟨x, o⟩, hx, rfl⟩; exact ⟨o, hx⟩
  · rintro ⟨o, h⟩; exact ⟨(b, o), h, rfl⟩

theorem mem_nbrsToH (hw : g.WF) (ht : Tiled g E) (hb : Balanced g E) (hH : ∀ o ∈ H, o ∈ hoodOf g)
    {b c : Nat} (hc : E c = true) :
    b ∈ nbrsToH g E H c ↔ E b = true ∧ ∃ o ∈ H, Meets g b o c := by
  obtain ⟨r, h1, -, h4⟩ := C16_neighbors_to hw ht ((balanced_iff hw ht).1 hb) hc hH
  unfold nbrsToH
  rw [h1, ← h4]

theorem exist_iff {c : Nat} : exist w c = true ↔ ∃ i, w c = some i := by
  unfold exist
  rw [Option.isSome_iff_exists]

theorem exist_of {c : Nat} {i : Fin n} (h : w c = some i) : exist w c = true := exist_iff.2 ⟨i, h⟩

theorem mem_localBoundaryH (hw : g.WF) (ht : Tiled g (exist w)) {i : Fin n} {has : Nat → Bool}
    (hh : ∀ c, has c = true ↔ w c = some i) {c : Nat} :
    c ∈ localBoundaryH g H i w has ↔ w c = some i ∧
      ∃ b ∈ nbrsOfH g (exist w) H c ++ nbrsToH g (exist w) H c, b ≠ 0 ∧ w b ≠ some i := by
  unfold localBoundaryH
  simp only [List.mem_filter, Bool.and_eq_true, mem_ids, List.any_eq_true, bne_iff_ne, beq_iff_eq]
  constructor
  · rintro ⟨h1, ⟨⟨h2, h3⟩, h4⟩, h5⟩
    exact ⟨h4, h5⟩
  · rintro ⟨h4, h5⟩
    have he := exist_of h4
    have hv := ht.valid c he
    exact ⟨hv.2, ⟨⟨(hh c).2 h4, (ht.getChild_eq_iff hw (valid_ne_zero hv)).2 he⟩, h4⟩, h5⟩

/-- Existing cells that have each other in a neighborhood. -/
def Linked (g : Cfg) (H : List (V3 Int)) (a b : Nat) : Prop := ∃ o ∈ H, Meets g a o b

/-- Local cells that have a cell of another process as a neighbor or are neighbor of such cell. -/
theorem mem_localBoundaryH' (hw : g.WF) (ht : Tiled g (exist w)) (hb : Balanced g (exist w))
    (hH : ∀ o ∈ H, o ∈ hoodOf g) {i : Fin n} {has : Nat → Bool}
    (hh : ∀ c, has c = true ↔ w c = some i) {c : Nat} :
    c ∈ localBoundaryH g H i w has ↔ w c = some i ∧
      ∃ b j, w b = some j ∧ j ≠ i ∧ (Linked g H c b ∨ Linked g H b c) := by
  rw [mem_localBoundaryH hw ht hh]
  constructor
  · rintro ⟨h1, b, h2, h3, h4⟩
    have he := exist_of h1
    refine ⟨h1, b, ?_⟩
    rw [List.mem_append, mem_nbrsOfH hw ht hb hH he, mem_nbrsToH hw ht hb hH he] at h2
    have hbe : exist w b = true := by rcases h2 with h | h <;> exact h.1
    obtain ⟨j, hj⟩ := exist_iff.1 hbe
    refine ⟨j, hj, ?_, ?_⟩
    · rintro rfl; exact h4 hj
    · exact h2.imp (·.2) (·.2)
  · rintro ⟨h1, b, j, h2, h3, h4⟩
    have he := exist_of h1
    refine ⟨h1, b, ?_, ?_, ?_⟩
    · rw [List.mem_append, mem_nbrsOfH hw ht hb hH he, mem_nbrsToH hw ht hb hH he]
      exact h4.imp (fun h => ⟨exist_of h2, h⟩) (fun h => ⟨exist_of h2, h⟩)
    · exact valid_ne_zero (ht.valid b (exist_of h2))
    · rw [h2]
      intro e
      injection e with e
      exact h3 e

theorem mem_remoteBoundaryH (hw : g.WF) (ht : Tiled g (exist w)) (hb : Balanced g (exist w))
    (hH : ∀ o ∈ H, o ∈ hoodOf g) {i : Fin n} {has : Nat → Bool}
    (hh : ∀ c, has c = true ↔ w c = some i) {b : Nat} :
    b ∈ remoteBoundaryH g H i w has ↔ (∃ j, w b = some j ∧ j ≠ i) ∧
      ∃ c, w c = some i ∧ (Linked g H c b ∨ Linked g H b c) := by
  unfold remoteBoundaryH
  simp only [List.mem_flatMap, List.mem_filter, Bool.and_eq_true, bne_iff_ne,
    mem_localBoundaryH' hw ht hb hH hh]
  constructor
  · rintro ⟨c, ⟨h1, -⟩, h3, h4, h5⟩
    have he := exist_of h1
    rw [List.mem_append, mem_nbrsOfH hw ht hb hH he, mem_nbrsToH hw ht hb hH he] at h3
    have hbe : exist w b = true := by rcases h3 with h | h <;> exact h.1
    obtain ⟨j, hj⟩ := exist_iff.1 hbe
    refine ⟨⟨j, hj, ?_⟩, c, h1, h3.imp (·.2) (·.2)⟩
    rintro rfl; exact h5 hj
  · rintro ⟨⟨j, h1, h2⟩, c, h3, h4⟩
    have he := exist_of h3
    refine ⟨c, ⟨h3, b, j, h1, h2, h4⟩, ?_, ?_, ?_⟩
    · rw [List.mem_append, mem_nbrsOfH hw ht hb hH he, mem_nbrsToH hw ht hb hH he]
      exact h4.imp (fun h => ⟨exist_of h1, h⟩) (fun h => ⟨exist_of h1, h⟩)
    · exact valid_ne_zero (ht.valid b (exist_of h1))
    · rw [h1]
      intro e
      injection e with e
      exact h2 e

theorem mem_sendList (hw : g.WF) (ht : Tiled g (exist w)) (hb : Balanced g (exist w))
    (hH : ∀ o ∈ H, o ∈ hoodOf g) {i : Fin n} {has : Nat → Bool}
    (hh : ∀ c, has c = true ↔ w c = some i) {q : Fin n} {c : Nat} :
    c ∈ sendList g H i w has q ↔
      i ≠ q ∧ w c = some i ∧ ∃ b, w b = some q ∧ Linked g H b c := by
  unfold sendList
  simp only [mem_isort, mem_dedup, List.mem_filter, List.any_eq_true, Bool.and_eq_true, bne_iff_ne,
    beq_iff_eq, mem_localBoundaryH' hw ht hb hH hh]
  constructor
  · rintro ⟨⟨h1, -⟩, b, h2, ⟨h3, h4⟩, h5⟩
    rw [mem_nbrsToH hw ht hb hH (exist_of h1)] at h2
    refine ⟨?_, h1, b, h5, h2.2⟩
    rintro rfl; exact h4 h5
  · rintro ⟨h1, h2, b, h3, h4⟩
    refine ⟨⟨h2, b, q, h3, h1.symm, Or.inr h4⟩, b, ?_, ⟨?_, ?_⟩, h3⟩
    · rw [mem_nbrsToH hw ht hb hH (exist_of h2)]
      exact ⟨exist_of h3, h4⟩
    · exact valid_ne_zero (ht.valid b (exist_of h3))
    · rw [h3]
      intro e
      injection e with e
      exact h1 e.symm

theorem mem_recvList (hw : g.WF) (ht : Tiled g (exist w)) (hb : Balanced g (exist w))
    (hH : ∀ o ∈ H, o ∈ hoodOf g) {i : Fin n} {has : Nat → Bool}
    (hh : ∀ c, has c = true ↔ w c = some i) {p : Fin n} {b : Nat} :
    b ∈ recvList g H i w has p ↔
      p ≠ i ∧ w b = some p ∧ ∃ c, w c = some i ∧ Linked g H c b := by
  unfold recvList
  simp only [mem_isort, mem_dedup, List.mem_flatMap, List.mem_filter, Bool.and_eq_true, bne_iff_ne,
    beq_iff_eq, mem_localBoundaryH' hw ht hb hH hh]
  constructor
  · rintro ⟨c, ⟨h1, -⟩, h2, ⟨h3, h4⟩, h5⟩
    rw [mem_nbrsOfH hw ht hb hH (exist_of h1)] at h2
    refine ⟨?_, h5, c, h1, h2.2⟩
    rintro rfl; exact h4 h5
  · rintro ⟨h1, h2, c, h3, h4⟩
    refine ⟨c, ⟨h3, b, p, h2, h1, Or.inl h4⟩, ?_, ⟨?_, ?_⟩, h2⟩
    · rw [mem_nbrsOfH hw ht hb hH (exist_of h3)]
      exact ⟨exist_of h2, h4⟩
    · exact valid_ne_zero (ht.valid b (exist_of h2))
    · rw [h2]
      intro e
      injection e with e
      exact h1 e

/-- Every process knows the same owner of every cell and has data of exactly its cells. -/
structure Placed (w : Owner n) (data : Fin n → Nat → Option D) : Prop where
  has : ∀ i c, (data i c).isSome = true ↔ w c = some i

theorem lists_match (hw : g.WF) (ht : Tiled g (exist w)) (hb : Balanced g (exist w))
    (hH : ∀ o ∈ H, o ∈ hoodOf g) {has : Fin n → Nat → Bool}
    (hh : ∀ i c, has i c = true ↔ w c = some i) :
    ListsMatch (fun p q => sendList g H p w (has p) q) (fun q p => recvList g H q w (has q) p) := by
  constructor
  · intro p q
    apply isort_eq (nodup_dedup _) (nodup_dedup _)
    intro c
    rw [← mem_isort, ← mem_isort (l := dedup _)]
    exact (mem_sendList hw ht hb hH (hh p)).trans (mem_recvList hw ht hb hH (hh q)).symm
  · intro q p p' c h1 h2
    have h1 := (mem_recvList hw ht hb hH (hh q)).1 h1
    have h2 := (mem_recvList hw ht hb hH (hh q)).1 h2
    have := h1.2.1.symm.trans h2.2.1
    injection this

theorem sendList_nodup {i : Fin n} {has : Nat → Bool} {q : Fin n} :
    (sendList g H i w has q).Nodup := (isort_perm _).nodup_iff.2 (nodup_dedup _)

theorem recvList_nodup {i : Fin n} {has : Nat → Bool} {q : Fin n} :
    (recvList g H i w has q).Nodup := (isort_perm _).nodup_iff.2 (nodup_dedup _)

/-- No process owns more cells than there are tags. -/
def FitsTags (maxTag : Nat) (w : Owner n) : Prop :=
  ∀ i (l : List Nat), l.Nodup → (∀ c ∈ l, w c = some i) → l.length ≤ maxTag

/-- Remote neighbors after an update have data of their owner. -/
theorem updateCopies_spec (hw : g.WF) (ht : Tiled g (exist w)) (hb : Balanced g (exist w))
    (hH : ∀ o ∈ H, o ∈ hoodOf g) {maxTag : Nat} (hm : FitsTags maxTag w)
    {data remote : Fin n → Nat → Option D} (hp : Placed w data) :
    ∃ res, updateCopies g H maxTag (fun _ => w) data remote = .ok res ∧
      (∀ i p b, p ≠ i → w b = some p → (∃ c, w c = some i ∧ Linked g H c b) → res i b = data p b) ∧
      ∀ i b, (¬ ∃ c, w c = some i ∧ Linked g H c b) ∨ w b = some i ∨ w b = none →
        res i b = remote i b := by
  obtain ⟨res, h1, h2, h3⟩ := transfer_spec (dest := remote) (maxTag := maxTag)
    (lists_match (H := H) hw ht hb hH (has := fun i c => (data i c).isSome) hp.has) (data := data)
    (fun p q => hm p _ sendList_nodup fun c hc => ((mem_sendList hw ht hb hH (hp.has p)).1 hc).2.1)
    (fun p q c hc => (hp.has p c).2 ((mem_sendList hw ht hb hH (hp.has p)).1 hc).2.1)
  refine ⟨res, h1, ?_, ?_⟩
  · intro i p b e1 e2 e3
    exact h2 i p b ((mem_recvList hw ht hb hH (hp.has i)).2 ⟨e1, e2, e3⟩)
  · intro i b h
    apply h3
    intro p hm
    obtain ⟨e1, e2, e3⟩ := (mem_recvList hw ht hb hH (hp.has i)).1 hm
    rcases h with h | h | h
    · exact h e3
    · rw [h] at e2; injection e2 with e2; exact e1 e2.symm
    · rw [h] at e2; cases e2

end
end Dccrg
