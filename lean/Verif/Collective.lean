import Verif.Nbr
/-!
# Collective communication

Models of the wrappers in dccrg_mpi_support.hpp. Processes are ranks of a communicator, their values are in lists in rank
order.
-/
namespace Dccrg

/-- `std::numeric_limits<int>::max()`. -/
def intMax : Nat := 2 ^ 31 - 1

/-! ## All_Gather -/

/-- Loop over `displacements` (dccrg_mpi_support.hpp:177-180), last argument is the displacement of the first process. -/
def displacements : List Nat → Nat → List Nat
  | [], _ => []
  | c :: cs, d => d :: displacements cs (c + d)

/-- Values received from one process by `MPI_Allgatherv` are put into the buffer. -/
def writeAt (buf : List Nat) (off : Nat) (vals : List Nat) : List Nat :=
  buf.take off ++ vals ++ buf.drop (off + vals.length)

/-- `MPI_Allgatherv` (dccrg_mpi_support.hpp:200-215): buffer after values of all processes have arrived, `disp` are their
displacements. -/
def gatherv (buf : List Nat) : List Nat → List (List Nat) → List Nat
  | d :: disp, v :: vals => gatherv (writeAt buf d v) disp vals
  | _, _ => buf

/-- Loop that fills the result (dccrg_mpi_support.hpp:224-230): arguments are the buffer, `send_counts` and
`index_in_temp`. -/
def fillResult (buf : List Nat) : List Nat → Nat → List (List Nat)
  | [], _ => []
  | c :: cs, k => ((List.range c).map fun i => buf.getD (k + i) 0) :: fillResult buf cs (k + c)

/-- `All_Gather` (dccrg_mpi_support.hpp:108-234): result on every process. Aborts if a process has more values than fit
into `int`; displacements that do not fit into `int` are undefined behavior. -/
def allGather (values : List (List Nat)) : Out (List (List Nat)) :=
  let counts := values.map List.length
  if ∃ v ∈ values, v.length > intMax then .throws
  else if ∃ d ∈ displacements counts 0, d > intMax then .undef
  else
    let temp := List.replicate counts.sum (W - 1)
    .ok (fillResult (gatherv temp (displacements counts 0) values) counts 0)

/-! ## All_Reduce -/

/-- Order in which `MPI_Allreduce` may add the values of processes. -/
inductive Tree where
  | leaf (rank : Nat)
  | node (l r : Tree)

/-- Processes whose values are added. -/
def Tree.ranks : Tree → List Nat
  | .leaf i => [i]
  | .node l r => l.ranks ++ r.ranks

/-- Result of `All_Reduce` (dccrg_mpi_support.hpp:240-269) with values `v` of processes when MPI adds in order `t`. -/
def allReduce (v : Nat → Nat) : Tree → Nat
  | .leaf i => v i
  | .node l r => wadd (allReduce v l) (allReduce v r)

/-! ## Some_Reduce -/

/-- Result of `Some_Reduce` (dccrg_mpi_support.hpp:285-380) on all `n` processes, where process `i` has value `v i` and
calls it with processes `N i`, listed in the order in which it iterates the set. Process `i` waits forever if one of its
neighbors does not send to it. Sending without a matching receive may also wait forever, depending on MPI. -/
def someReduce {n : Nat} (N : Fin n → List (Fin n)) (v : Fin n → Nat) : Out (Fin n → Nat) :=
  if ∃ i, ∃ p ∈ N i, i ∉ N p then .hangs
  else .ok fun i => (N i).foldl (fun r p => wadd r (v p)) (v i)

end Dccrg
