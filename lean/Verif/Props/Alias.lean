import Verif.Alias
/-!
# C65: what a copy of a grid shares with the original
-/
namespace Dccrg
open Heap
variable {D : Type}

/-- What can happen to instances of the grid. -/
inductive HeapOp (D : Type)
  | construct (a : Nat) (len : V3 Nat) (data : Nat → Option D)
  | copyOther (a b : Nat) (dflt : D)
  | copySame (a b : Nat)
  | destroy (a : Nat)
  | write (a c : Nat) (v : D)
  | writeCells (a c : Nat) (v : D)
  | setCells (a : Nat) (data : Nat → Option D)

/-- One step; instances are constructed only where there are none, only existing ones are used. -/
def HeapOp.Does (h : Heap D) : HeapOp D → Heap D → Prop
  | .construct a len data, h' => h a = none ∧ h' = h.construct a len data
  | .copyOther a b dflt, h' => h a = none ∧ h.copyOther a b dflt = some h'
  | .copySame a b, h' => h a = none ∧ h.copySame a b = some h'
  | .destroy a, h' => (h a).isSome = true ∧ h' = h.destroy a
  | .write a c v, h' => h.write a c v = some h'
  | .writeCells a c v, h' => h.writeCells a c v = some h'
  | .setCells a data, h' => h.setCells a data = some h'

/-- Sequences of operations that satisfy a condition. -/
inductive HeapRun (P : HeapOp D → Prop) : Heap D → Heap D → Prop
  | nil {h : Heap D} : HeapRun P h h
  | cons {h h' h'' : Heap D} {op : HeapOp D} : P op → op.Does h h' → HeapRun P h' h'' → HeapRun P h h''

/-- The operation is done to the instance at `a`: a copy of it by the implicit copy constructor is included
because the copy refers to cells of the original. -/
def HeapOp.On (a : Nat) : HeapOp D → Prop
  | .construct b _ _ | .copyOther b _ _ | .destroy b | .write b _ _ | .writeCells b _ _ | .setCells b _ => b = a
  | .copySame b c => b = a ∨ c = a

private theorem put_same (h : Heap D) (a : Nat) (x : Option (Inst D)) : h.put a x a = x := if_pos rfl
private theorem put_other (h : Heap D) {a b : Nat} (x : Option (Inst D)) (e : b ≠ a) : h.put a x b = h b := if_neg e

private theorem write_inv {h h' : Heap D} {a c : Nat} {v : D} (e : h.write a c v = some h') :
    ∃ x, h a = some x ∧ h' = h.put a (some { x with data := fun d => if d = c then some v else x.data d }) := by
  unfold Heap.write at e
  cases hx : h a with
  | none => rw [hx] at e; cases e
  | some x =>
    rw [hx] at e
    cases hd : x.data c with
    | none => simp [hd] at e
    | some u =>
      simp [hd] at e
      exact ⟨x, rfl, e.symm⟩

/-- Lengths and references to lengths of instances don't change while they exist. -/
private theorem length_kept {h h' : Heap D} {op : HeapOp D} (e : op.Does h h') {a : Nat} {x : Inst D}
    (hx : h a = some x) (hd : op ≠ .destroy a) :
    ∃ x', h' a = some x' ∧ x'.len = x.len ∧ x'.lengthAt = x.lengthAt := by
  have key : ∀ {b : Nat} {y : Inst D} {z : Inst D}, h b = some y → z.len = y.len → z.lengthAt = y.lengthAt →
      ∃ x', h.put b (some z) a = some x' ∧ x'.len = x.len ∧ x'.lengthAt = x.lengthAt := by
    intro b y z hb e1 e2
    by_cases hab : a = b
    · subst hab
      rw [hx] at hb; injection hb with hb; subst hb
      exact ⟨z, put_same .., e1, e2⟩
    · exact ⟨x, by rw [put_other h _ hab, hx], rfl, rfl⟩
  have free : ∀ {b : Nat} {z : Inst D}, h b = none →
      ∃ x', h.put b (some z) a = some x' ∧ x'.len = x.len ∧ x'.lengthAt = x.lengthAt := by
    intro b z hb
    have hab : a ≠ b := by intro e; rw [← e, hx] at hb; cases hb
    exact ⟨x, by rw [put_other h _ hab, hx], rfl, rfl⟩
  cases op with
  | construct b len data => obtain ⟨h1, rfl⟩ := e; exact free h1
  | copyOther b c dflt =>
    obtain ⟨h1, h2⟩ := e
    unfold Heap.copyOther at h2
    obtain ⟨o, -, rfl⟩ := Option.map_eq_some_iff.1 h2
    exact free h1
  | copySame b c =>
    obtain ⟨h1, h2⟩ := e
    unfold Heap.copySame at h2
    obtain ⟨o, -, rfl⟩ := Option.map_eq_some_iff.1 h2
    exact free h1
  | destroy b =>
    obtain ⟨-, rfl⟩ := e
    have hab : a ≠ b := fun e => hd (by rw [e])
    exact ⟨x, by unfold Heap.destroy; rw [put_other h _ hab, hx], rfl, rfl⟩
  | write b c v =>
    obtain ⟨y, h1, rfl⟩ := write_inv e
    exact key h1 rfl rfl
  | writeCells b c v =>
    have e : h.writeCells b c v = some h' := e
    unfold Heap.writeCells at e
    obtain ⟨y, h1, h2⟩ := Option.bind_eq_some_iff.1 e
    obtain ⟨z, h3, rfl⟩ := write_inv h2
    exact key h3 rfl rfl
  | setCells b data =>
    have e : h.setCells b data = some h' := e
    unfold Heap.setCells at e
    obtain ⟨y, h1, rfl⟩ := Option.map_eq_some_iff.1 e
    exact key h1 rfl rfl

/-- C65, part: the length of a copy is that of the original as long as the copy exists and the instance that was
first constructed isn't destroyed (`r`: the original itself, unless it is itself a copy), whatever else happens. -/
theorem C65_length_partial {h h' h'' : Heap D} {a b r : Nat} {o : Inst D} {len : V3 Nat} {dflt : D} (ha : h a = none)
    (hb : h b = some o) (hr : o.lengthAt = r) (hl : h.length b = some len) (hc : h.copyOther a b dflt = some h')
    (hrun : HeapRun (fun op => op ≠ .destroy a ∧ op ≠ .destroy r) h' h'') : h''.length a = some len := by
  unfold Heap.copyOther at hc
  rw [hb] at hc
  injection hc with hc
  simp only at hc
  unfold Heap.length at hl
  rw [hb] at hl
  obtain ⟨y, hy, rfl⟩ := Option.map_eq_some_iff.1 (show (h o.lengthAt).map (·.len) = some len from hl)
  rw [hr] at hy
  have har : r ≠ a := by intro e; rw [e, ha] at hy; cases hy
  have main : ∀ {h1 h2 : Heap D}, HeapRun (fun op => op ≠ .destroy a ∧ op ≠ .destroy r) h1 h2 →
      (∃ x, h1 a = some x ∧ x.lengthAt = r) → (∃ z, h1 r = some z ∧ z.len = y.len) → h2.length a = some y.len := by
    intro h1 h2 hrun
    induction hrun with
    | nil =>
      rintro ⟨x, e1, e2⟩ ⟨z, e3, e4⟩
      unfold Heap.length
      rw [e1]
      show (_ : Option (Inst D)).map _ = _
      rw [e2, e3, ← e4]; rfl
    | cons hp hd _ ih =>
      rintro ⟨x, e1, e2⟩ ⟨z, e3, e4⟩
      obtain ⟨x', f1, -, f2⟩ := length_kept hd e1 hp.1
      obtain ⟨z', f3, f4, -⟩ := length_kept hd e3 hp.2
      exact ih ⟨x', f1, f2.trans e2⟩ ⟨z', f3, f4.trans e4⟩
  subst hc
  refine main hrun ⟨_, put_same .., hr⟩ ⟨y, ?_, rfl⟩
  rw [put_other h _ har, hy]

/-- C65, part: data of cells of a copy, also when iterating, are not changed by anything that is done with other
instances, their destruction included. -/
theorem C65_data_partial {h h' h'' : Heap D} {a b : Nat} {dflt : D} (ha : ∀ x o, h x = some o → o.cellsAt ≠ a)
    (hc : h.copyOther a b dflt = some h') (hrun : HeapRun (fun op => ¬ op.On a) h' h'') (c : Nat) :
    h''.read a c = (h.read b c).map (fun _ => dflt) ∧
    (h''.iterate a).bind (· c) = (h.read b c).map (fun _ => dflt) := by
  unfold Heap.copyOther at hc
  obtain ⟨o, hb, rfl⟩ := Option.map_eq_some_iff.1 hc
  have hrb : h.read b c = o.data c := by unfold Heap.read; rw [hb]; rfl
  rw [hrb]
  have main : ∀ {h1 h2 : Heap D}, HeapRun (fun op => ¬ op.On a) h1 h2 →
      (∃ x, h1 a = some x ∧ x.cellsAt = a ∧ x.data c = (o.data c).map fun _ => dflt) →
      (∀ x y, x ≠ a → h1 x = some y → y.cellsAt ≠ a) →
      h2.read a c = (o.data c).map (fun _ => dflt) ∧
      (h2.iterate a).bind (· c) = (o.data c).map (fun _ => dflt) := by
    intro h1 h2 hrun
    induction hrun with
    | nil =>
      rintro ⟨x, e1, e2, e3⟩ -
      unfold Heap.read Heap.iterate
      rw [e1]
      refine ⟨e3, ?_⟩
      show (Option.map _ (_ : Option (Inst D))).bind _ = _
      rw [e2, e1]; exact e3
    | @cons h1 h3 h4 op hp hd _ ih =>
      rintro ⟨x, e1, e2, e3⟩ hoth
      have key : ∀ {q : Nat} {z : Option (Inst D)}, q ≠ a → (∀ y, z = some y → y.cellsAt ≠ a) → h3 = h1.put q z →
          (∃ x, h3 a = some x ∧ x.cellsAt = a ∧ x.data c = (o.data c).map fun _ => dflt) ∧
          ∀ x y, x ≠ a → h3 x = some y → y.cellsAt ≠ a := by
        rintro q z hq hz rfl
        refine ⟨⟨x, by rw [put_other _ _ (Ne.symm hq), e1], e2, e3⟩, fun x' y hx' hy => ?_⟩
        by_cases hxq : x' = q
        · rw [hxq, put_same] at hy; exact hz y hy
        · rw [put_other _ _ hxq] at hy; exact hoth x' y hx' hy
      have goal : (∃ x, h3 a = some x ∧ x.cellsAt = a ∧ x.data c = (o.data c).map fun _ => dflt) ∧
          ∀ x y, x ≠ a → h3 x = some y → y.cellsAt ≠ a := by
        cases op with
        | construct q len data =>
          have hq : q ≠ a := hp
          exact key hq (by rintro y ⟨⟩; exact hq) hd.2
        | copyOther q s d =>
          have hq : q ≠ a := hp
          have h2 := hd.2
          unfold Heap.copyOther at h2
          obtain ⟨y, -, rfl⟩ := Option.map_eq_some_iff.1 h2
          exact key hq (by rintro y ⟨⟩; exact hq) rfl
        | copySame q s =>
          have hq : ¬ (q = a ∨ s = a) := hp
          have h2 := hd.2
          unfold Heap.copySame at h2
          obtain ⟨y, hy, rfl⟩ := Option.map_eq_some_iff.1 h2
          exact key (fun e => hq (Or.inl e)) (by rintro y ⟨⟩; exact hoth s _ (fun e => hq (Or.inr e)) hy) rfl
        | destroy q =>
          have hq : q ≠ a := hp
          exact key hq (by rintro y ⟨⟩) hd.2
        | write q k v =>
          have hq : q ≠ a := hp
          obtain ⟨y, hy, rfl⟩ := write_inv hd
          exact key hq (by rintro z ⟨⟩; exact hoth q y hq hy) rfl
        | writeCells q k v =>
          have hq : q ≠ a := hp
          have hd : h1.writeCells q k v = some h3 := hd
          unfold Heap.writeCells at hd
          obtain ⟨y, hy, h2⟩ := Option.bind_eq_some_iff.1 hd
          obtain ⟨z, hz, rfl⟩ := write_inv h2
          have hya := hoth q y hq hy
          exact key hya (by rintro u ⟨⟩; exact hoth _ z hya hz) rfl
        | setCells q data =>
          have hq : q ≠ a := hp
          have hd : h1.setCells q data = some h3 := hd
          unfold Heap.setCells at hd
          obtain ⟨y, hy, rfl⟩ := Option.map_eq_some_iff.1 hd
          exact key hq (by rintro u ⟨⟩; exact hq) rfl
      exact ih goal.1 goal.2
  refine main hrun ⟨_, put_same .., rfl, rfl⟩ fun x y hx hy => ?_
  rw [put_other _ _ hx] at hy
  exact ha x y hy

/-- Length of the grid of the example. -/
def twoOne : V3 Nat := v3 2 1 1

/-- There is one instance. -/
def oneHeap : Heap Nat := Heap.construct (fun _ => none) 1 twoOne fun c => if c = 1 ∨ c = 2 then some 5 else none

/-- Instance 1 has been copied to 2. -/
def twoHeap : Heap Nat := (oneHeap.copyOther 2 1 0).get rfl

example : ∃ h'', oneHeap 2 = none ∧ oneHeap.length 1 = some twoOne ∧ (∀ x o, oneHeap x = some o → o.cellsAt ≠ 2) ∧
    oneHeap.copyOther 2 1 0 = some twoHeap ∧
    HeapRun (fun op => op ≠ .destroy 2 ∧ op ≠ .destroy 1) twoHeap h'' ∧
    HeapRun (fun op => ¬ op.On 2) twoHeap h'' ∧ h''.read 1 1 = some 9 := by
  refine ⟨(twoHeap.write 1 1 9).get rfl, rfl, rfl, fun x o hx => ?_, rfl,
    .cons (op := .write 1 1 9) ⟨(by intro h; cases h), (by intro h; cases h)⟩ rfl .nil,
    .cons (op := .write 1 1 9) (by intro h; cases h) rfl .nil, rfl⟩
  unfold oneHeap Heap.construct Heap.put at hx
  split at hx
  · injection hx with hx; rw [← hx]; decide
  · cases hx

/-- C65 is false: after the original has been destroyed the length of the copy is a dangling reference. -/
theorem C65_false_length : ∃ (h h' h'' : Heap Nat), h 2 = none ∧ h.length 1 = some twoOne ∧
    HeapOp.Does h (.copyOther 2 1 0) h' ∧ h'.length 2 = some twoOne ∧ HeapOp.Does h' (.destroy 1) h'' ∧
    (h'' 2).isSome = true ∧ h''.length 2 = none :=
  ⟨oneHeap, twoHeap, twoHeap.destroy 1, rfl, rfl, ⟨rfl, rfl⟩, rfl, ⟨rfl, rfl⟩, rfl, rfl⟩

/-- C65 is false: after cells of the original have changed, by refinement or load balancing, the partitioner is told
that cells of the original are those of the copy. -/
theorem C65_false_balance : ∃ (h h' h'' : Heap Nat), HeapOp.Does h (.copyOther 2 1 0) h' ∧
    HeapOp.Does h' (.setCells 1 fun c => if c = 2 then some 5 else none) h'' ∧
    (h''.read 2 1).isSome = true ∧ ∃ f, h''.asked 2 = some f ∧ f 1 = false :=
  ⟨oneHeap, twoHeap, _, ⟨rfl, rfl⟩, rfl, rfl, _, rfl, rfl⟩

/-- C65 is false: a copy of the same type has data of the original instead of default constructed data, and changing
data of cells of the copy when iterating over them changes the original and not the copy. -/
theorem C65_false_same : ∃ (h h' h'' : Heap Nat), HeapOp.Does h (.copySame 2 1) h' ∧ h'.read 2 1 = some 5 ∧
    HeapOp.Does h' (.writeCells 2 1 9) h'' ∧ h''.read 1 1 = some 9 ∧ h''.read 2 1 = some 5 :=
  ⟨oneHeap, _, _, ⟨rfl, rfl⟩, rfl, rfl, rfl, rfl⟩

end Dccrg
