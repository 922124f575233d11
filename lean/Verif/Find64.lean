import Verif.Nbr64
import Verif.Lists
/-!
# Searches in boxes with machine integers

`find_cells` as the code computes it: indices are `uint64_t` and loops over them wrap around, refinement levels are
`int`.
-/
namespace Dccrg

/-- One loop of `find_cells` (dccrg.hpp:5023-5025): values of the loop variable from `x` while it is at most `hi`, `none` if
`fuel` steps are not enough. -/
def axisLoop (hi inc : Nat) : Nat → Nat → Option (List Nat)
  | 0, _ => none
  | fuel + 1, x => if x ≤ hi then (axisLoop hi inc fuel (wadd x inc)).map (x :: ·) else some []

/-- One loop of `find_cells`. After more steps than there are values of `uint64_t` some value has been repeated and the loop
does not end. -/
def axis64 (lo hi inc : Nat) : Option (List Nat) := axisLoop hi inc (W + 1) lo

/-- A loop inside of another. -/
def eachOf {α β : Type} : List α → (α → Option (List β)) → Option (List β)
  | [], _ => some []
  | a :: l, f => (f a).bind fun x => (eachOf l f).map (x ++ ·)

/-- Points visited by `find_cells` (dccrg.hpp:5022-5025), `none` if that does not end. -/
def box64 (lo hi : V3 Nat) (inc : Nat) : Option (List (V3 Nat)) :=
  (axis64 (lo 2) (hi 2) inc).bind fun zs => eachOf zs fun z =>
    (axis64 (lo 1) (hi 1) inc).bind fun ys => eachOf ys fun y =>
      (axis64 (lo 0) (hi 0) inc).map fun xs => xs.map fun x => v3 x y z

/-- `uniques` and `result` of `find_cells` (dccrg.hpp:5067-5079). -/
def firsts64 (m : Mapping) (E : Nat → Bool) : List Nat → List Nat → List Nat
  | _, [] => []
  | seen, c :: l =>
    if c ≠ getChild64 m E c then firsts64 m E seen l
    else if c ∈ seen then firsts64 m E seen l
    else c :: firsts64 m E (c :: seen) l

/-- `find_cells` (dccrg.hpp:4963-5083) without `DEBUG`. Shifting by a negative number or 64 and more (4982-4983) is
undefined. -/
def findCells64 (m : Mapping) (E : Nat → Bool) (lo hi : V3 Nat) (lmin lmax : Int) : Out (List Nat) :=
  if m.maxLvl - lmax < 0 ∨ 64 ≤ m.maxLvl - lmax then .undef
  else match box64 lo hi (2 ^ (m.maxLvl - lmax).toNat) with
    | none => .hangs
    | some l => .ok (firsts64 m E [] (l.map fun p => existing64 m E p lmin lmax))

end Dccrg
