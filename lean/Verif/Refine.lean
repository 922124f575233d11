import Verif.Near
/-!
# Deciding which cells to refine and unrefine

Model of the first three parts of `stop_refining` (dccrg.hpp:3552-3556): `override_refines`,
`induce_refines` and `override_unrefines`. There are `n` processes; everything that a process stores
is indexed by its rank `i : Fin n`. Every process has its own replica of `cell_process`, collective
calls (`All_Gather`, `all_to_all_set`) combine the values of all processes.

Sets of cells (`unordered_set`, `set`) are lists of which only membership matters.
Lists of neighbors are recomputed by the code after every change of `cell_process`
(dccrg.hpp:10701-10716, 4185-4201, 8246-8260), hence they are functions of it here.
-/
namespace Dccrg
variable {n : Nat}

/-- `cell_process` of one process. -/
abbrev Owner (n : Nat) := Nat → Option (Fin n)

/-- Existing cells according to `cell_process`. -/
def exist (w : Owner n) : Nat → Bool := fun c => (w c).isSome

/-- `neighbors_of.at(cell)` of the default neighborhood (dccrg.hpp:9107-9122), ids only. Empty for
cells that have no such list (`get_neighbors_of` returns nullptr for them). -/
def nbrsOf (g : Cfg) (E : Nat → Bool) (c : Nat) : List Nat :=
  match findNeighborsOf g E c (hoodOf g) with
  | .ok l => l.map (·.1)
  | _ => []

/-- `neighbors_to.at(cell)` of the default neighborhood (dccrg.hpp:9123). -/
def nbrsTo (g : Cfg) (E : Nat → Bool) (c : Nat) : List Nat :=
  match findNeighborsTo g E c (negHood (hoodOf g)) with
  | .ok l => l
  | _ => []

/-- All possible ids. -/
def ids (g : Cfg) : List Nat := List.range (g.last + 1)

/-- Values from all processes, as after `All_Gather` (dccrg_mpi_support.hpp:101-234). -/
def gather {α : Type} (f : Fin n → List α) : List α := (List.finRange n).flatMap f

/-! ## override_refines -/

/-- `new_donts` found by one process on one round (dccrg.hpp:10200-10229). -/
def dontRound (g : Cfg) (E : Nat → Bool) (old donts : List Nat) : List Nat :=
  donts.flatMap fun c => (nbrsOf g E c ++ nbrsTo g E c).filter fun b =>
    !(old.contains b || donts.contains b) && decide (g.lvl b > g.lvl c)

/-- Loop of `override_refines` (dccrg.hpp:10191-10235): `old_donts` of every process when the loop
ends, `none` if it does not end within given number of rounds. -/
def dontLoop (g : Cfg) (E : Fin n → Nat → Bool) : Nat → (Fin n → List Nat) → (Fin n → List Nat) →
    Option (Fin n → List Nat)
  | 0, _, _ => none
  | k + 1, old, donts =>
    let new := gather fun i => dontRound g (E i) (old i) (donts i)
    let old' : Fin n → List Nat := fun i => old i ++ donts i
    if new = [] then some old' else dontLoop g E k old' (fun _ => new)

/-- Requests stored by one process (dccrg.hpp:7355-7385). -/
structure Req where
  toRefine : List Nat
  toUnrefine : List Nat
  notRefine : List Nat
  notUnrefine : List Nat
deriving DecidableEq

/-- `override_refines` (dccrg.hpp:10185-10288). -/
def overrideRefines (g : Cfg) (E : Fin n → Nat → Bool) (r : Fin n → Req) : Option (Fin n → Req) :=
  match dontLoop g E (g.maxLvl + 2) (fun _ => []) (fun i => (r i).notRefine) with
  | none => none
  | some old =>
    let nr : Fin n → List Nat := fun i => old i ++ gather old
    let kept : Fin n → List Nat := fun i => (r i).toRefine.filter fun c => !(nr i).contains c
    some fun i => { r i with notRefine := nr i, toRefine := gather kept }

/-! ## induce_refines -/

/-- Local cells with a neighbor on another process, `local_cells_on_process_boundary`
(dccrg.hpp:9186-9289, 9432-9460). `has` are the cells in `cell_data`. -/
def localBoundary (g : Cfg) (i : Fin n) (w : Owner n) (has : Nat → Bool) : List Nat :=
  (ids g).filter fun c => has c && (getChild g (exist w) c == c) && (w c == some i) &&
    (nbrsOf g (exist w) c ++ nbrsTo g (exist w) c).any fun b => b != 0 && w b != some i

/-- `remote_cells_on_process_boundary` (dccrg.hpp:9186-9289, 9432-9460). -/
def remoteBoundary (g : Cfg) (i : Fin n) (w : Owner n) (has : Nat → Bool) : List Nat :=
  (localBoundary g i w has).flatMap fun c =>
    (nbrsOf g (exist w) c ++ nbrsTo g (exist w) c).filter fun b => b != 0 && w b != some i

/-- Cells of process `i` whose refinement is induced on one round (dccrg.hpp:9793-9881).
`refs` is `cells_to_refine`, `news` are `all_new_refines`. -/
def induceRound (g : Cfg) (i : Fin n) (w : Owner n) (has : Nat → Bool) (refs : List Nat)
    (news : Fin n → List Nat) : List Nat :=
  ((news i).flatMap fun r => (nbrsOf g (exist w) r ++ nbrsTo g (exist w) r).filter fun b =>
    b != 0 && w b == some i && decide (g.lvl b < g.lvl r) && !refs.contains b) ++
  (List.finRange n).flatMap fun p => if p = i then [] else (news p).flatMap fun r =>
    if (remoteBoundary g i w has).contains r then
      (localBoundary g i w has).filter fun l =>
        isNeighbor g l r && decide (g.lvl l < g.lvl r) && !refs.contains l
    else []

/-- Loop of `induce_refines` (dccrg.hpp:9787-9892): `cells_to_refine` of every process. Looking up
lists of neighbors throws for cells that have none. -/
def induceLoop (g : Cfg) (w : Fin n → Owner n) (has : Fin n → Nat → Bool) :
    Nat → (Fin n → List Nat) → (Fin n → List Nat) → Out (Fin n → List Nat)
  | 0, _, _ => .hangs
  | k + 1, refs, news =>
    if gather news = [] then .ok refs
    else if ∃ i, ∃ r ∈ news i, exist (w i) r = false then .throws
    else
      let ind : Fin n → List Nat := fun i => induceRound g i (w i) (has i) (refs i) news
      induceLoop g w has k (fun i => refs i ++ ind i) ind

/-- `induce_refines` (dccrg.hpp:9785-9903), new `cells_to_refine`. -/
def induceRefines (g : Cfg) (w : Fin n → Owner n) (has : Fin n → Nat → Bool)
    (refs : Fin n → List Nat) : Out (Fin n → List Nat) :=
  match induceLoop g w has (g.maxLvl + 2) refs refs with
  | .ok r => .ok fun i => r i ++ gather r
  | .throws => .throws
  | .hangs => .hangs
  | .undef => .undef

/-! ## override_unrefines -/

/-- `neighbors_.at(cell)` (dccrg.hpp:9577-9604). -/
def sixNbrs (g : Cfg) (E : Nat → Bool) (c : Nat) : List Nat :=
  [nbr6 g E c 0 false, nbr6 g E c 0 true, nbr6 g E c 1 false, nbr6 g E c 1 true,
   nbr6 g E c 2 false, nbr6 g E c 2 true]

/-- Inner loop of `override_unrefines` (dccrg.hpp:10051-10063), `s` is `(process, processed)`. -/
def floodVisit (g : Cfg) (P : Nat) (s : List Nat × List Nat) (b : Nat) : List Nat × List Nat :=
  if b = 0 ∨ b ∈ s.2 then s
  else if isNeighbor g P b then (b :: s.1, s.2)
  else (s.1, b :: s.2)

/-- Smallest element of a non-empty set. -/
def minOf (x : Nat) (l : List Nat) : Nat := l.foldl min x

/-- Loop of `override_unrefines` that looks for cells that are or will be too small
(dccrg.hpp:10036-10088): `ok true` if there are none. `P` is the parent of the unrefined cell and `l`
the level of the unrefined cell, `R` is `cells_to_refine`. -/
def flood (g : Cfg) (E : Nat → Bool) (R : List Nat) (P l : Nat) :
    Nat → List Nat → List Nat → Out Bool
  | _, [], _ => .ok true
  | 0, _ :: _, _ => .hangs
  | k + 1, x :: xs, processed =>
    let next := minOf x xs
    let processed := next :: processed
    let process := (x :: xs).filter (· != next)
    if getChild g E next ≠ next then .throws
    else
      let s := (sixNbrs g E next).foldl (floodVisit g P) (process, processed)
      if g.lvl next < l then flood g E R P l k s.1 s.2
      else if g.lvl next = l then
        (if next ∈ R then .ok false else flood g E R P l k s.1 s.2)
      else .ok false

/-- Whether a cell can be unrefined (dccrg.hpp:10001-10092). `N` is `cells_not_to_unrefine`. -/
def canUnrefine (g : Cfg) (E : Nat → Bool) (R N : List Nat) (u : Nat) : Out Bool :=
  let P := g.parent u
  if ∃ s ∈ g.children P, s ≠ 0 ∧ (s ∈ R ∨ s ∈ N) then .ok false
  else if getChild g E u ≠ u then .throws
  else flood g E R P (g.lvl u) (g.last + 2) ((sixNbrs g E u).filter (· != 0)) []

/-- Keep cells for which a test succeeds, stop at first exception or endless loop. -/
def Out.filter (f : Nat → Out Bool) : List Nat → Out (List Nat)
  | [] => .ok []
  | a :: l =>
    match f a with
    | .throws => .throws
    | .hangs => .hangs
    | .undef => .undef
    | .ok b =>
      match Out.filter f l with
      | .ok r => .ok (if b then a :: r else r)
      | x => x

/-- Collect results of all processes. -/
def Out.all {α : Type} (f : Fin n → Out (List α)) : Out (Fin n → List α) :=
  if ∃ i, f i matches .undef then .undef
  else if ∃ i, f i matches .hangs then .hangs
  else if ∃ i, f i matches .throws then .throws
  else .ok fun i => match f i with | .ok l => l | _ => []

/-- `override_unrefines` (dccrg.hpp:9990-10110), new `cells_to_unrefine` of every process. -/
def overrideUnrefines (g : Cfg) (E : Fin n → Nat → Bool) (refs : Fin n → List Nat)
    (notUnref unref : Fin n → List Nat) : Out (Fin n → List Nat) :=
  match Out.all fun i => Out.filter
      (canUnrefine g (E i) (refs i) (notUnref i ++ gather notUnref)) (unref i) with
  | .ok f => .ok fun _ => gather f
  | .throws => .throws
  | .hangs => .hangs
  | .undef => .undef

end Dccrg
