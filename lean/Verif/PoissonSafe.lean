import Verif.Poisson
/-!
# The other solver of the Poisson test

tests/poisson/poisson_solve.hpp:526-632. Rational numbers instead of double.
-/
namespace Dccrg
variable {n : Nat} {W : Type}

/-- Next solution of a cell (tests/poisson/poisson_solve.hpp:566-609), which is stored in `best_solution`. -/
def safeNext (a : PoissonCell) (l : List (PoissonCell × Int × Int)) : PoissonCell :=
  let inv := -1 / a.scale
  { a with best := l.foldl (fun r y => r + inv * nbrWeight a.f y.2.1 y.2.2 * y.1.sol) (-inv * a.rhs) }

/-- Body of the loop over `cell_info` (tests/poisson/poisson_solve.hpp:555-612): aborts if the factor of a cell is zero. -/
def safeCell (x : Nat × List NbrInfo) (p : Proc n PoissonCell W) : Out (Proc n PoissonCell W) :=
  match access p x.1 with
  | none => .undef
  | some a =>
    if a.typ ≠ 0 then .ok p
    else if a.scale = 0 then .throws
    else (nbrData p x.2).bind fun l => .ok (write p x.1 (safeNext a l))

/-- Body of the loop of `solve_failsafe` (tests/poisson/poisson_solve.hpp:549-626) and the norm. Norms are added in a separate
loop. -/
def safeIter (g : Cfg) (maxTag : Nat) (info : Fin n → List (Nat × List NbrInfo)) (s : Sys n PoissonCell W) : Out (Sys n PoissonCell W × Rat) :=
  (updatePoisson g maxTag .init s).bind fun s1 =>
  (Out.collect fun i => Out.fold safeCell (info i) (s1 i)).bind fun s2 =>
  (globalSum false (fun a => (a.sol - a.best).abs) info s2).bind fun norm =>
  (solveCells (fun a _ => { a with sol := a.best }) info s2).bind fun s3 => .ok (s3, norm)

/-- The loop of `solve_failsafe` for at most `k` more iterations. The second part of the result is the last norm, `none` is the largest
number with which the loop starts, which is assumed to be larger than `stop`. -/
def safeLoop (g : Cfg) (maxTag : Nat) (stop : Rat) (info : Fin n → List (Nat × List NbrInfo)) : Nat → Sys n PoissonCell W → Option Rat →
    Out (Sys n PoissonCell W × Option Rat)
  | 0, s, r => .ok (s, r)
  | k + 1, s, r =>
    if r.all fun r => decide (stop < r) then (safeIter g maxTag info s).bind fun x => safeLoop g maxTag stop info k x.1 (some x.2)
    else .ok (s, r)

/-- `solve_failsafe` (tests/poisson/poisson_solve.hpp:532-632) when `cache_is_up_to_date` is not given, and the last norm. -/
def poissonSafe (g : Cfg) (maxTag : Nat) (len : Nat → V3 Rat) (a : PParams) (cells skip : Fin n → List Nat) (s : Sys n PoissonCell W) :
    Out (Sys n PoissonCell W × Option Rat) :=
  (cacheSystem g maxTag len cells skip s).bind fun x => safeLoop g maxTag a.stopRes x.2 a.maxIter x.1 none

end Dccrg
