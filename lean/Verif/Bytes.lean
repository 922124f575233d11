import Verif.Word
/-!
# Bytes and files

Numbers in files are bytes of their representation in memory, which depends on the byte order of the computer. Files are
functions from offsets to bytes; the parts of files that nobody has written are `none`.
-/
namespace Dccrg

/-- Byte order of a computer. -/
inductive Order where
  | little
  | big
deriving DecidableEq

/-- The `k` least significant bytes of `x`, least significant first. -/
def bytesOf : Nat → Nat → List Nat
  | 0, _ => []
  | k + 1, x => x % 256 :: bytesOf k (x / 256)

/-- Number with given bytes, least significant first. -/
def ofBytes : List Nat → Nat
  | [] => 0
  | b :: l => b + 256 * ofBytes l

/-- Unsigned integer of `k` bytes in memory. -/
def enc (e : Order) (k x : Nat) : List Nat :=
  match e with
  | .little => bytesOf k x
  | .big => (bytesOf k x).reverse

/-- Unsigned integer from its bytes in memory. -/
def dec (e : Order) (l : List Nat) : Nat :=
  match e with
  | .little => ofBytes l
  | .big => ofBytes l.reverse

/-- `int` in memory, of 4 bytes in two's complement. -/
def encInt (e : Order) (x : Int) : List Nat := enc e 4 (x % 2 ^ 32).toNat

/-- `int` from its bytes in memory. -/
def decInt (e : Order) (l : List Nat) : Int :=
  let x : Nat := dec e l
  if x < 2 ^ 31 then x else (x : Int) - 2 ^ 32

/-- Array of `uint64_t` (or bits of `double`) in memory. -/
def enc64 (e : Order) (l : List Nat) : List Nat := l.flatMap (enc e 8)

/-- Array of `uint64_t` (or bits of `double`) from its bytes in memory, first argument is its length. -/
def dec64 (e : Order) : Nat → List Nat → List Nat
  | 0, _ => []
  | k + 1, l => dec e (l.take 8) :: dec64 e k (l.drop 8)

theorem bytesOf_length (k x : Nat) : (bytesOf k x).length = k := by
  induction k generalizing x with
  | zero => rfl
  | succ k ih => rw [bytesOf, List.length_cons, ih]

@[simp] theorem enc_length (e : Order) (k x : Nat) : (enc e k x).length = k := by
  cases e
  · exact bytesOf_length k x
  · show (bytesOf k x).reverse.length = k
    rw [List.length_reverse, bytesOf_length]

@[simp] theorem encInt_length (e : Order) (x : Int) : (encInt e x).length = 4 := enc_length e 4 _

theorem ofBytes_bytesOf (k x : Nat) (h : x < 256 ^ k) : ofBytes (bytesOf k x) = x := by
  induction k generalizing x with
  | zero => rw [Nat.pow_zero] at h; show 0 = x; omega
  | succ k ih =>
    rw [bytesOf, ofBytes, ih]
    · omega
    · rw [Nat.pow_succ] at h; omega

theorem dec_enc (e : Order) {k x : Nat} (h : x < 256 ^ k) : dec e (enc e k x) = x := by
  cases e
  · exact ofBytes_bytesOf k x h
  · show ofBytes (bytesOf k x).reverse.reverse = x
    rw [List.reverse_reverse, ofBytes_bytesOf k x h]

theorem decInt_encInt (e : Order) {x : Int} (h1 : -2 ^ 31 ≤ x) (h2 : x < 2 ^ 31) : decInt e (encInt e x) = x := by
  have h : dec e (encInt e x) = (x % 2 ^ 32).toNat := dec_enc e (by omega)
  unfold decInt
  simp only [h]
  split <;> omega

theorem enc64_length (e : Order) (l : List Nat) : (enc64 e l).length = 8 * l.length := by
  unfold enc64
  induction l with
  | nil => rfl
  | cons a l ih => rw [List.flatMap_cons, List.length_append, ih, enc_length, List.length_cons]; omega

theorem enc64_append (e : Order) (a b : List Nat) : enc64 e (a ++ b) = enc64 e a ++ enc64 e b := by
  unfold enc64; exact List.flatMap_append

theorem dec64_enc64 (e : Order) (l : List Nat) (h : ∀ x ∈ l, x < 2 ^ 64) : dec64 e l.length (enc64 e l) = l := by
  induction l with
  | nil => rfl
  | cons a l ih =>
    have e1 : enc64 e (a :: l) = enc e 8 a ++ enc64 e l := rfl
    rw [List.length_cons, dec64, e1, List.take_left' (enc_length e 8 a), List.drop_left' (enc_length e 8 a),
      dec_enc e (by have := h a (List.mem_cons_self ..); omega), ih fun x hx => h x (List.mem_cons_of_mem _ hx)]

theorem dec64_length (e : Order) (k : Nat) (l : List Nat) : (dec64 e k l).length = k := by
  induction k generalizing l with
  | zero => rfl
  | succ k ih => rw [dec64, List.length_cons, ih]

/-! ## Files -/

/-- Bytes of a file. -/
abbrev File := Nat → Option Nat

/-- Bytes written at an offset. -/
abbrev Write := Nat × List Nat

/-- `MPI_File_write_at`. -/
def File.write (f : File) (w : Write) : File := fun k =>
  if w.1 ≤ k then (match w.2[k - w.1]? with | some b => some b | none => f k) else f k

/-- Several writes one after another. -/
def File.writes (f : File) (l : List Write) : File := l.foldl File.write f

/-- `MPI_File_read_at` into a buffer with contents `buf`: bytes that are not in the file do not change. -/
def File.read (f : File) (off : Nat) (buf : List Nat) : List Nat :=
  buf.mapIdx fun k b => (f (off + k)).getD b

/-- `MPI_File_read_at` of given number of bytes into a buffer filled with zeros. -/
def File.get (f : File) (off len : Nat) : List Nat := f.read off (List.replicate len 0)

/-- Bytes `l` are in the file at an offset. -/
def File.Holds (f : File) (off : Nat) (l : List Nat) : Prop := ∀ k, (h : k < l.length) → f (off + k) = some l[k]

theorem Holds.read {f : File} {off : Nat} {l : List Nat} (h : f.Holds off l) {buf : List Nat}
    (hb : buf.length = l.length) : f.read off buf = l := by
  unfold File.read
  apply List.ext_getElem
  · rw [List.length_mapIdx, hb]
  · intro k h1 h2
    rw [List.getElem_mapIdx, h k h2]
    rfl

theorem Holds.get {f : File} {off : Nat} {l : List Nat} (h : f.Holds off l) {k : Nat} (hk : k = l.length) :
    f.get off k = l := Holds.read h (by rw [List.length_replicate, hk])

theorem holds_append {f : File} {off : Nat} {a b : List Nat} :
    f.Holds off (a ++ b) ↔ f.Holds off a ∧ f.Holds (off + a.length) b := by
  constructor
  · intro h
    refine ⟨fun k hk => ?_, fun k hk => ?_⟩
    · have := h k (by rw [List.length_append]; omega)
      rwa [List.getElem_append_left hk] at this
    · have := h (a.length + k) (by rw [List.length_append]; omega)
      rw [List.getElem_append_right (by omega)] at this
      rw [Nat.add_assoc, this]
      congr 2
      omega
  · rintro ⟨h1, h2⟩ k hk
    rw [List.length_append] at hk
    by_cases h : k < a.length
    · rw [List.getElem_append_left h]; exact h1 k h
    · rw [List.getElem_append_right (by omega)]
      have := h2 (k - a.length) (by omega)
      rwa [show off + a.length + (k - a.length) = off + k by omega] at this

/-- Writes follow each other without gaps from offset `a` to offset `b`. -/
def Chain : Nat → List Write → Nat → Prop
  | a, [], b => a = b
  | a, w :: l, b => w.1 = a ∧ Chain (a + w.2.length) l b

theorem chain_append {a b : Nat} {l l' : List Write} :
    Chain a (l ++ l') b ↔ ∃ c, Chain a l c ∧ Chain c l' b := by
  induction l generalizing a with
  | nil =>
    constructor
    · intro h; exact ⟨a, rfl, h⟩
    · rintro ⟨c, rfl, h⟩; exact h
  | cons w l ih =>
    show w.1 = a ∧ Chain (a + w.2.length) (l ++ l') b ↔ _
    rw [ih]
    constructor
    · rintro ⟨h, c, h1, h2⟩; exact ⟨c, ⟨h, h1⟩, h2⟩
    · rintro ⟨c, ⟨h, h1⟩, h2⟩; exact ⟨h, c, h1, h2⟩

theorem chain_end {a b : Nat} {l : List Write} (h : Chain a l b) : b = a + (l.map fun w => w.2.length).sum := by
  induction l generalizing a with
  | nil => exact h.symm
  | cons w l ih => rw [List.map_cons, List.sum_cons, ih h.2]; omega

/-- All bytes of a chain. -/
def contents (l : List Write) : List Nat := l.flatMap Prod.snd

theorem contents_length (l : List Write) : (contents l).length = (l.map fun w => w.2.length).sum := by
  unfold contents; rw [List.length_flatMap]

/-- Writes to different bytes. -/
def Write.Disjoint (v w : Write) : Prop := v.1 + v.2.length ≤ w.1 ∨ w.1 + w.2.length ≤ v.1 ∨ v.2 = [] ∨ w.2 = []

theorem Write.Disjoint.symm {v w : Write} (h : v.Disjoint w) : w.Disjoint v := by
  rcases h with h | h | h | h
  · exact Or.inr (Or.inl h)
  · exact Or.inl h
  · exact Or.inr (Or.inr (Or.inr h))
  · exact Or.inr (Or.inr (Or.inl h))

theorem chain_start {a b : Nat} {l : List Write} (h : Chain a l b) : ∀ w ∈ l, a ≤ w.1 ∧ w.1 + w.2.length ≤ b := by
  induction l generalizing a with
  | nil => intro w hw; cases hw
  | cons v l ih =>
    intro w hw
    rcases List.mem_cons.1 hw with e | e
    · subst e
      have := chain_end h.2
      have := h.1
      omega
    · have := ih h.2 w e; omega

theorem chain_disjoint {a b : Nat} {l : List Write} (h : Chain a l b) : l.Pairwise Write.Disjoint := by
  induction l generalizing a with
  | nil => exact .nil
  | cons v l ih =>
    refine .cons (fun w hw => ?_) (ih h.2)
    have := chain_start h.2 w hw
    have := h.1
    left; omega

theorem write_holds (f : File) (w : Write) : (f.write w).Holds w.1 w.2 := by
  intro k hk
  unfold File.write
  rw [if_pos (by omega), Nat.add_sub_cancel_left, List.getElem?_eq_getElem hk]

theorem Holds.write {f : File} {v w : Write} (h : f.Holds v.1 v.2) (hd : v.Disjoint w) : (f.write w).Holds v.1 v.2 := by
  intro k hk
  unfold File.write
  split
  · rename_i hw
    rw [List.getElem?_eq_none]
    · exact h k hk
    · rcases hd with h1 | h1 | h1 | h1
      · omega
      · omega
      · rw [h1] at hk; exact absurd hk (by rw [List.length_nil]; omega)
      · rw [h1]; exact Nat.zero_le _
  · exact h k hk

theorem Holds.writes {f : File} {v : Write} (h : f.Holds v.1 v.2) {l : List Write} (hd : ∀ w ∈ l, v.Disjoint w) :
    (f.writes l).Holds v.1 v.2 := by
  unfold File.writes
  induction l generalizing f with
  | nil => exact h
  | cons w l ih =>
    exact ih (Holds.write h (hd w (List.mem_cons_self ..))) fun x hx => hd x (List.mem_cons_of_mem _ hx)

/-- Disjoint writes are all in the file afterwards. -/
theorem writes_holds (f : File) {l : List Write} (h : l.Pairwise Write.Disjoint) : ∀ w ∈ l, (f.writes l).Holds w.1 w.2 := by
  induction l generalizing f with
  | nil => intro w hw; cases hw
  | cons v l ih =>
    intro w hw
    rw [List.pairwise_cons] at h
    rcases List.mem_cons.1 hw with e | e
    · subst e; exact Holds.writes (write_holds f w) h.1
    · exact ih (f.write v) h.2 w e

/-- The file after writes of a chain in any order. -/
theorem chain_holds (f : File) {a b : Nat} {l l' : List Write} (h : Chain a l b) (hp : l'.Perm l) :
    (f.writes l').Holds a (contents l) := by
  have hd : l'.Pairwise Write.Disjoint := (hp.pairwise_iff fun h => Write.Disjoint.symm h).2 (chain_disjoint h)
  have hall : ∀ w ∈ l, (f.writes l').Holds w.1 w.2 := fun w hw => writes_holds f hd w (hp.mem_iff.2 hw)
  generalize f.writes l' = F at hall
  clear hd hp
  induction l generalizing a with
  | nil => intro k hk; exact absurd hk (by rw [show contents [] = [] from rfl, List.length_nil]; omega)
  | cons w l ih =>
    show F.Holds a (w.2 ++ contents l)
    rw [holds_append]
    refine ⟨?_, ih h.2 fun v hv => hall v (List.mem_cons_of_mem _ hv)⟩
    have := hall w (List.mem_cons_self ..)
    rwa [h.1] at this

/-- Other parts of the file do not change. -/
theorem writes_outside (f : File) {a b : Nat} {l l' : List Write} (h : Chain a l b) (hp : l'.Perm l) {k : Nat}
    (hk : k < a ∨ b ≤ k) : f.writes l' k = f k := by
  have hall : ∀ w ∈ l', a ≤ w.1 ∧ w.1 + w.2.length ≤ b := fun w hw => chain_start h w (hp.mem_iff.1 hw)
  clear hp h
  unfold File.writes
  induction l' generalizing f with
  | nil => rfl
  | cons w l' ih =>
    rw [List.foldl_cons, ih _ fun v hv => hall v (List.mem_cons_of_mem _ hv)]
    have := hall w (List.mem_cons_self ..)
    unfold File.write
    split
    · rw [List.getElem?_eq_none (by omega)]
    · rfl

end Dccrg
