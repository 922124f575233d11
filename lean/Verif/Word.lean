/-!
# 64-bit unsigned arithmetic

`uint64_t` values of the C++ code are natural numbers below `W = 2^64`; every operation
reduces modulo `W` exactly as unsigned overflow does in C++.
-/
namespace Dccrg

/-- Number of `uint64_t` values. -/
def W : Nat := 2 ^ 64

/-- `a + b` on `uint64_t`. -/
def wadd (a b : Nat) : Nat := (a + b) % W
/-- `a - b` on `uint64_t`. -/
def wsub (a b : Nat) : Nat := (a + (W - b % W)) % W
/-- `a * b` on `uint64_t`. -/
def wmul (a b : Nat) : Nat := (a * b) % W
/-- `uint64_t(1) << k`. For `k ≥ 64` C++ leaves the result undefined (here: 0); theorem
`shift_counts_defined` shows that this does not happen in configurations whose ids fit. -/
def wshl1 (k : Nat) : Nat := 2 ^ k % W

theorem wadd_eq {a b : Nat} (h : a + b < W) : wadd a b = a + b := Nat.mod_eq_of_lt h
theorem wmul_eq {a b : Nat} (h : a * b < W) : wmul a b = a * b := Nat.mod_eq_of_lt h
theorem wshl1_eq {k : Nat} (h : 2 ^ k < W) : wshl1 k = 2 ^ k := Nat.mod_eq_of_lt h
theorem wsub_eq {a b : Nat} (h : b ≤ a) (ha : a < W) : wsub a b = a - b := by
  unfold wsub
  have hb : b % W = b := Nat.mod_eq_of_lt (by omega)
  rw [hb]
  have : a + (W - b) = (a - b) + W := by omega
  rw [this, Nat.add_mod_right]
  exact Nat.mod_eq_of_lt (by omega)

/-- Triples, one entry per dimension (x, y, z). -/
abbrev V3 (α : Type) := Fin 3 → α

/-- Triple from its entries. -/
def v3 {α : Type} (a b c : α) : V3 α := fun d => if d = 0 then a else if d = 1 then b else c

@[simp] theorem v3_0 {α : Type} (a b c : α) : v3 a b c 0 = a := rfl
@[simp] theorem v3_1 {α : Type} (a b c : α) : v3 a b c 1 = b := rfl
@[simp] theorem v3_2 {α : Type} (a b c : α) : v3 a b c 2 = c := rfl

instance {α : Type} [DecidableEq α] : DecidableEq (V3 α) := fun a b =>
  decidable_of_iff (a 0 = b 0 ∧ a 1 = b 1 ∧ a 2 = b 2) (by
    constructor
    · rintro ⟨h0, h1, h2⟩
      funext d
      match d with
      | 0 => exact h0
      | 1 => exact h1
      | 2 => exact h2
    · rintro rfl; exact ⟨rfl, rfl, rfl⟩)

theorem forall_fin3 {p : Fin 3 → Prop} : (∀ d, p d) ↔ p 0 ∧ p 1 ∧ p 2 := by
  constructor
  · intro h; exact ⟨h 0, h 1, h 2⟩
  · rintro ⟨h0, h1, h2⟩ d
    match d with
    | 0 => exact h0
    | 1 => exact h1
    | 2 => exact h2

theorem exists_fin3 {p : Fin 3 → Prop} : (∃ d, p d) ↔ p 0 ∨ p 1 ∨ p 2 := by
  constructor
  · rintro ⟨d, h⟩
    match d, h with
    | 0, h => exact .inl h
    | 1, h => exact .inr (.inl h)
    | 2, h => exact .inr (.inr h)
  · rintro (h | h | h)
    · exact ⟨_, h⟩
    · exact ⟨_, h⟩
    · exact ⟨_, h⟩

theorem v3_ext {α : Type} {a b : V3 α} (h0 : a 0 = b 0) (h1 : a 1 = b 1) (h2 : a 2 = b 2) :
    a = b := funext (forall_fin3.2 ⟨h0, h1, h2⟩)

/-- Offsets of the eight children in z-order, x fastest (loops in dccrg_mapping.hpp:414-430). -/
def octants : List (V3 Nat) :=
  [v3 0 0 0, v3 1 0 0, v3 0 1 0, v3 1 1 0, v3 0 0 1, v3 1 0 1, v3 0 1 1, v3 1 1 1]

end Dccrg
