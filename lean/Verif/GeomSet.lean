import Verif.Geom
/-!
# Setting the parameters of geometries

Numbers of type `double` are their 64 bits here, so that parameters can be compared and stored exactly; the value of bits
(`Bits.val`) is that of IEEE 754 binary64, including infinities, NaNs and subnormal numbers.
-/
namespace Dccrg

/-- Value of a `double`. -/
inductive Val where
  | nan
  | inf (neg : Bool)
  | fin (q : Rat)
deriving DecidableEq

/-- Value of IEEE 754 binary64 bits. -/
def Bits.val (b : Nat) : Val :=
  let s : Nat := b / 2 ^ 63 % 2
  let e : Nat := b / 2 ^ 52 % 2 ^ 11
  let f : Nat := b % 2 ^ 52
  let sign : Rat := if s = 1 then -1 else 1
  if e = 2047 then (if f = 0 then .inf (s = 1) else .nan)
  else if e = 0 then .fin (sign * (f : Rat) / 2 ^ 1074)
  else .fin (sign * (((2 ^ 52 + f) : Nat) : Rat) * 2 ^ e / 2 ^ 1075)

/-- `a < b` of values. -/
def Val.lt : Val → Val → Prop
  | .nan, _ => False
  | _, .nan => False
  | .inf a, .inf b => a = true ∧ b = false
  | .inf a, .fin _ => a = true
  | .fin _, .inf b => b = false
  | .fin a, .fin b => a < b

instance (a b : Val) : Decidable (a.lt b) := by
  unfold Val.lt; split <;> infer_instance

/-- `a <= b` of values, false if either is NaN. -/
def Val.le : Val → Val → Prop
  | .nan, _ => False
  | _, .nan => False
  | .inf a, .inf b => a = true ∨ b = false
  | .inf a, .fin _ => a = true
  | .fin _, .inf b => b = false
  | .fin a, .fin b => a ≤ b

instance (a b : Val) : Decidable (a.le b) := by
  unfold Val.le; split <;> infer_instance

/-- `Cartesian_Geometry_Parameters` (dccrg_cartesian_geometry.hpp:43-58). -/
structure CartPar where
  start : V3 Nat
  len : V3 Nat

/-- `Cartesian_Geometry::set` (dccrg_cartesian_geometry.hpp:186-207): result and new parameters. -/
def CartPar.set (old new : CartPar) : Bool × CartPar :=
  if (Bits.val (new.len 0)).le (.fin 0) then (false, old)
  else if (Bits.val (new.len 1)).le (.fin 0) then (false, old)
  else if (Bits.val (new.len 2)).le (.fin 0) then (false, old)
  else (true, new)

/-- `Stretched_Cartesian_Geometry_Parameters` (dccrg_stretched_cartesian_geometry.hpp:48-58). -/
structure StretchPar where
  coords : V3 (List Nat)

/-- Loop over coordinates in `set` (dccrg_stretched_cartesian_geometry.hpp:191-201): true if no coordinate is `>=` the
next one. -/
def increasing : List Nat → Bool
  | [] => true
  | [_] => true
  | a :: b :: l => if (Bits.val b).le (Bits.val a) then false else increasing (b :: l)

/-- Checks of one dimension in `set` (dccrg_stretched_cartesian_geometry.hpp:176-201), `len` is the length of the
grid. -/
def dimOk (len : Nat) (l : List Nat) : Bool :=
  if l.length < 2 then false
  else if l.length ≠ wadd len 1 then false
  else increasing l

/-- `Stretched_Cartesian_Geometry::set` (dccrg_stretched_cartesian_geometry.hpp:169-207): result and new
parameters. -/
def StretchPar.set (m : Mapping) (old new : StretchPar) : Bool × StretchPar :=
  if dimOk (m.len 0) (new.coords 0) then
    if dimOk (m.len 1) (new.coords 1) then
      if dimOk (m.len 2) (new.coords 2) then (true, new)
      else (false, old)
    else (false, old)
  else (false, old)

/-- Result of the constructor with arguments of `Cartesian_Geometry_Parameters`
(dccrg_cartesian_geometry.hpp:71-87), `none` if it calls `abort`. -/
def CartPar.make (start len : V3 Nat) : Option CartPar :=
  if (Bits.val (len 0)).le (.fin 0) ∨ (Bits.val (len 1)).le (.fin 0) ∨ (Bits.val (len 2)).le (.fin 0) then none
  else some ⟨start, len⟩

/-- `Stretched_Cartesian_Geometry::reset` (dccrg_stretched_cartesian_geometry.hpp:138-150), in exact numbers. -/
def Stretched.reset (m : Mapping) : Stretched :=
  { coords := fun d => (List.range (m.len d + 1)).map fun i : Nat => (i : Rat) }

/-- `Stretched_Cartesian_Geometry::set(Cartesian_Geometry)` (dccrg_stretched_cartesian_geometry.hpp:223-251) before the
checks of `set`, in exact numbers: `none` if lengths of the grids differ. -/
def Stretched.ofCartesian (m m' : Mapping) (G : Cartesian) : Option Stretched :=
  if m.len 0 ≠ m'.len 0 then none
  else if m.len 1 ≠ m'.len 1 then none
  else if m.len 2 ≠ m'.len 2 then none
  else some { coords := fun d => (List.range (m'.len d + 1)).map fun i : Nat => G.getStart d + (i : Rat) * G.len d }

end Dccrg
