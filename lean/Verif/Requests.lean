import Verif.Exec
/-!
# Requests for refinement

Models of `refine_completely`, `unrefine_completely`, `dont_refine` and `dont_unrefine`
(dccrg.hpp:2511-2861). Arguments are existing cells `E` (`cell_process`), local cells `has`
(`cell_data`), current requests of the process and the id of a cell; results are the returned value and
new requests.
-/
namespace Dccrg

/-- Remove elements of a list, `erase` of a set. -/
def without (l ks : List Nat) : List Nat := l.filter fun x => !ks.contains x

/-- `dont_unrefine` (dccrg.hpp:2756-2811). -/
def dontUnrefine (g : Cfg) (E : Nat → Bool) (r : Req) (c : Nat) : Out (Bool × Req) :=
  if c = 0 ∨ E c = false then .ok (false, r)
  else if ¬ g.Valid c then .throws
  else if g.lvl c = 0 then .ok (true, r)
  else if ∃ s ∈ g.siblings c, s ∈ r.notUnrefine then .ok (true, r)
  else .ok (true, { r with
    toUnrefine := without r.toUnrefine (g.siblings c)
    notUnrefine := c :: r.notUnrefine })

/-- `dont_refine` (dccrg.hpp:2821-2861). -/
def dontRefine (g : Cfg) (E : Nat → Bool) (r : Req) (c : Nat) : Out (Bool × Req) :=
  if c = 0 ∨ E c = false then .ok (false, r)
  else if g.lvl c = g.maxLvl then .ok (true, r)
  else .ok (true, { r with
    toRefine := without r.toRefine [c]
    notRefine := c :: r.notRefine })

/-- Siblings of a cell and of its neighbors that are not smaller, whose unrefinement is cancelled when
the cell is refined (dccrg.hpp:2572-2606). -/
def cancelled (g : Cfg) (E : Nat → Bool) (c : Nat) : List Nat :=
  (g.siblings c ++ (nbrsOf g E c ++ nbrsTo g E c).flatMap fun b =>
    if g.lvl b ≤ g.lvl c then g.siblings b else []).filter (· != 0)

/-- `refine_completely` (dccrg.hpp:2511-2609). Neighbor lists do not contain `error_cell` or cells that
do not exist. -/
def refineCompletely (g : Cfg) (E : Nat → Bool) (has : Nat → Bool) (r : Req) (c : Nat) :
    Out (Bool × Req) :=
  if c = 0 ∨ E c = false ∨ has c = false then .ok (false, r)
  else if g.lvl c = g.maxLvl then (dontUnrefine g E r c).bind fun x => .ok (true, x.2)
  else if c ∈ r.notRefine then .ok (false, r)
  else if (findNeighborsOf g E c (hoodOf g)).isOk = false then .throws
  else if ∃ b ∈ nbrsOf g E c, g.lvl b < g.lvl c ∧ b ∈ r.notRefine then .ok (false, r)
  else .ok (true, { r with
    toRefine := c :: r.toRefine
    toUnrefine := without r.toUnrefine (cancelled g E c) })

/-- `Dccrg::get_parent` (dccrg.hpp:4248-4281) of a valid cell: its parent if that exists, otherwise the
cell if that exists, otherwise `error_cell`. -/
def getParent (g : Cfg) (E : Nat → Bool) (c : Nat) : Nat :=
  if E (g.parent c) then g.parent c else if E c then c else 0

/-- Loop over siblings in `unrefine_completely` (dccrg.hpp:2671-2685): value returned by the loop, if
any. -/
def familyCheck (g : Cfg) (E : Nat → Bool) (r : Req) : List Nat → Option Bool
  | [] => none
  | s :: l =>
    if s ≠ getChild g E s then some false
    else if s ∈ r.toRefine ∨ s ∈ r.notUnrefine then some true
    else familyCheck g E r l

/-- `unrefine_completely` (dccrg.hpp:2637-2732). `max_ref_lvl_diff` is 1. -/
def unrefineCompletely (g : Cfg) (E : Nat → Bool) (has : Nat → Bool) (r : Req) (c : Nat) :
    Out (Bool × Req) :=
  if c = 0 ∨ E c = false ∨ has c = false then .ok (false, r)
  else if ¬ g.Valid c then .throws
  else if g.lvl c = 0 then .ok (true, r)
  else match familyCheck g E r (g.siblings c) with
  | some b => .ok (b, r)
  | none =>
    let P := getParent g E c
    match findNeighborsOf g E P (hoodOf g) with
    | .throws => .throws
    | .hangs => .hangs
    | .undef => .undef
    | .ok l =>
      if ∃ b ∈ l.map Prod.fst, g.lvl b > g.lvl P + 1 ∨ g.lvl b = g.lvl P + 1 ∧ b ∈ r.toRefine then
        .ok (true, r)
      else if ∃ s ∈ g.siblings c, s ∈ r.toUnrefine then .ok (true, r)
      else .ok (true, { r with toUnrefine := c :: r.toUnrefine })

end Dccrg
