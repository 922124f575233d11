import Verif.GeomSet
/-!
# Arithmetic of `double`

IEEE 754 binary64 with rounding to nearest, ties to even, which is what the code uses on common machines: a value is
rounded after every operation. Simplifications: the sign of zero is not modelled (nothing in the modelled code depends on it:
divisors that can be zero are differences and quotients that are never negative zero); operations are not fused.
-/
namespace Dccrg

/-- Nearest integer, the even one of two. -/
def rne (x : Rat) : Int :=
  let f := x.floor
  if 2 * (x - f) < 1 then f
  else if 2 * (x - f) = 1 then (if f % 2 = 0 then f else f + 1)
  else f + 1

/-- All finite values are multiples of `2^-1074`. A number of them, not more than `|x|`. -/
def units (x : Rat) : Nat := ((if x < 0 then -x else x) * 2 ^ 1074).floor.toNat

/-- Distance of finite values around `x` is `2^(ulpExp x) * 2^-1074`: 53 bits, or fewer for subnormal numbers. -/
def ulpExp (x : Rat) : Nat := Nat.log2 (units x) - 52

/-- Distance of finite values around `x`. -/
def ulp (x : Rat) : Rat := ((2 ^ ulpExp x : Nat) : Rat) / 2 ^ 1074

/-- Nearest value with 53 bits, the even one of two, with no upper limit on the exponent. -/
def rnd (x : Rat) : Rat := (rne (x / ulp x) : Rat) * ulp x

/-- First power of two that is too large. -/
def huge : Rat := 2 ^ 1024

namespace Val

/-- Value of the result of an operation. -/
def ofRat (x : Rat) : Val :=
  if huge ≤ rnd x then .inf false
  else if rnd x ≤ -huge then .inf true
  else .fin (rnd x)

/-- Conversion of `uint64_t`. -/
def ofNat (k : Nat) : Val := ofRat (k : Rat)

/-- `-a` -/
def neg : Val → Val
  | .nan => .nan
  | .inf s => .inf (!s)
  | .fin x => .fin (-x)

/-- `a + b` -/
def add : Val → Val → Val
  | .nan, _ => .nan
  | _, .nan => .nan
  | .inf s, .inf t => if s = t then .inf s else .nan
  | .inf s, .fin _ => .inf s
  | .fin _, .inf t => .inf t
  | .fin x, .fin y => ofRat (x + y)

/-- `a - b` -/
def sub (a b : Val) : Val := add a (neg b)

/-- `a * b` -/
def mul : Val → Val → Val
  | .nan, _ => .nan
  | _, .nan => .nan
  | .inf s, .inf t => .inf (s != t)
  | .inf s, .fin y => if y = 0 then .nan else .inf (s != decide (y < 0))
  | .fin x, .inf t => if x = 0 then .nan else .inf (t != decide (x < 0))
  | .fin x, .fin y => ofRat (x * y)

/-- `a / b`; zero is positive. -/
def div : Val → Val → Val
  | .nan, _ => .nan
  | _, .nan => .nan
  | .inf _, .inf _ => .nan
  | .inf s, .fin y => .inf (s != decide (y < 0))
  | .fin _, .inf _ => .fin 0
  | .fin x, .fin y =>
    if y = 0 then (if x = 0 then .nan else .inf (decide (x < 0)))
    else ofRat (x / y)

/-- `floor` -/
def floor : Val → Val
  | .fin x => .fin (x.floor : Rat)
  | v => v

/-- `ceil` -/
def ceil : Val → Val
  | .fin x => .fin (x.ceil : Rat)
  | v => v

/-- Conversion to `uint64_t`, towards zero; undefined if the result does not fit. -/
def toU64 : Val → Option Nat
  | .fin x => if -1 < x ∧ x < 2 ^ 64 then some x.floor.toNat else none
  | _ => none

end Val

/-- A number with 53 bits that is a multiple of `2^-1074`. -/
def Has53 (x : Rat) : Prop := ∃ (m : Int) (k : Nat), m.natAbs ≤ 2 ^ 53 ∧ x = (m : Rat) * ((2 ^ k : Nat) : Rat) / 2 ^ 1074

end Dccrg
