# Design

Machine-checked model of fmihpc/dccrg (C++ headers in /repo) in Lean 4, with proofs of the properties in
`properties.jsonl`. `MANIFEST.json` maps each property to the exact names of its theorems.

Contents: 1 how to read the development, 2 what is modelled and how, 3 simplifications, 4 what is not modelled,
5 plan and result for every property, 6 disagreements between code and properties, 7 trusted base.

## 1. How to read the development

* `lean/Verif/*.lean`: the model (each definition cites the lines of /repo it models) and proofs about it.
* `lean/Verif/Props/*.lean`: property theorems, named `Cnn_...`, with small definitions that are used only in their
  statements, and beside each theorem an `example` which shows that its hypotheses are met by a concrete grid.
* `_partial`: the full property is false of the code, or only a part has been proved; what is missing is in section 5.
  `_false`: the negation of the full property, with a concrete witness.
* `seeded/LOG.jsonl`: wrong versions of the model that were tried, with the theorems that rejected them.

Conventions. A program that may fail returns `Out α`: `ok`, `throws` (exception or abort), `hangs` (a loop that does
not end, or a process that waits forever) or `undef` (undefined behavior, or arguments of MPI functions that overflowed), so that "it returns" is a part of theorems and not an assumption (C55).
Pointers which may be null are `Option`. Undefined behavior is always an outcome of its own (e.g. C47, C65). A system of `n` processes is a function `Fin n → Proc`; `n`, grid length, maximum refinement level, periodicity,
neighborhoods, cell data type and weights are all arbitrary.

The central notions of specification are

* `Tiled g E` (Grid.lean): every smallest-cell index of the grid is inside exactly one existing cell;
* `Balanced g E` / `Meets g a o b` (Grid.lean, Nbr.lean): geometric statements on boxes in the periodic integer lattice,
  independent of how the code searches;
* `Reachable g dflt maxTag s` (Hist.lean): `s` is the state of all processes after `initialize`, or copying a grid,
  followed by any finite sequence of operations with any arguments on any processes, the partitioner returning
  anything that is consistent;
* `History`, `Booked` (History.lean, Books.lean): the same with a record of which calls returned true, used so that
  properties of requests, pins and weights are stated in terms of calls and their return values.

## 2. What is modelled

| module | code | how |
|---|---|---|
| Word, Mapping64 | dccrg_mapping.hpp, dccrg_length.hpp (all functions) | `uint64_t` as `Nat` below 2^64, every operation reduced modulo 2^64 as written; loops as structural recursion; the `double` computation of the maximum level as exact round-to-nearest-even |
| MapNat, MapTree, MappingRefine, MappingTree64 | same, unbounded | pure `Nat` version, proved equal to the 64-bit one when ids fit in 64 bits; used by everything below |
| Grid, Existing | `cell_process`, `get_existing_cell` (11379-11412), `get_child` (9749-9775) | existing cells as a map id → owner |
| Nbr, NbrFind, NbrWalk, NbrTo, NbrSix, NbrIs | `indices_from_neighborhood` (4291-4404), `find_neighbors_of` (4430-4771), `find_neighbors_to` (4799-4952), `update_neighbors_`/six-directional neighbors (9518-9604), `is_neighbor` (9658-9739), `overlapping_indices` (11329-11368), `initialize_neighborhoods` (8072-8130) | the same searches with the same loops; termination proved |
| Nbr64, Nbr64Spec | the same searches in the integer types of the code | `uint64_t` modulo 2^64, overflow of `int` is an outcome of its own; proved equal to Nbr where nothing overflows |
| Requests | `refine_completely`, `unrefine_completely`, `dont_refine`, `dont_unrefine` (2511-2861), `get_parent` (4248-4281) | sets as lists without duplicates |
| Refine, Decide, Flood, FloodGeom, Near | `override_refines` (10185-10288), `induce_refines` (9785-9903), `override_unrefines` (9990-10110), collective exchanges inside them | one replica per process, loops until nobody changes, flood fill with its visited set |
| Exec, ExecLocal, ExecSpec, ExecAll, Balance, Stop | `execute_refines` (10298-10748), `stop_refining` (3538-3562) | data transfers inside it use Transfer |
| Transfer | `start_user_data_transfers`, `wait_user_data_transfer_*` (10758-11264) | messages posted with tags, matched in order per (source, destination, tag); result proved independent of the order in which they are delivered |
| Async | split-phase updates (5086-5468) | small-step semantics: posts in queues, delivery at any time, every interleaving of processes |
| Halo, Copies | boundary sets and send/receive lists (8784-9045, 9186-9425), `update_copies_of_remote_neighbors` (978-1014), allocation of copies (7208-7252) | recomputed from owners, as the code does after every change |
| Load, LoadSpec | `pin`, `unpin`, `unpin_local_cells`, `unpin_all_cells`, weights (6001-6435), `balance_load`, `update_pin_requests`, `make_new_partition` and the three phases (1041-1062, 3820-4238, 8483-8774) | the partitioner's answer is a parameter |
| Between, Alike, Recorded | calls made on processes between the phases of load balancing; these see the old grid (1041-1062, 3820-4238) | no neighborhoods are added or removed between the phases |
| Hist, History, Books, Rounds, Progress | all operations together; copy constructor (309-446), `add_neighborhood`/`remove_neighborhood` (6546-6766), `clear_refined_unrefined_data` (5605-5622), `operator[]` (768-781) | transition system and its invariants |
| Init, Setup | `initialize` (480-562), `create_level_0_cells` (8144-8279 without `USE_SFC`), the functions that configure a grid (8283-8416, 6840-6844) | any sequence of calls, exceptions caught by the user |
| Curve | `create_level_0_cells` with `USE_SFC` | the curve library is any function from positions to indices that answers only for the range cached last |
| Query | `get_cells`, `get_neighbors_of/to`, face neighbors, `is_neighbor_type_match`, boundary lists, iterator ranges, `get_process`, `is_local` | caches as functions of owner (see section 3) |
| LoadCells, LoadLevels | `load_cells` and helpers (3658-3793) | |
| Bytes, Records, Save, FileSpec, LoadGrid | `write`/`read`/`data_size` of mapping, topology and geometries, `save_grid_data` (1117-1787), `load_grid_data` and its three parts (1817-2481) | files as byte lists, both byte orders |
| Geom, GeomSet, GeomSpec, GeomLocate, GeomStretched, Axis | the three geometry classes | exact rationals; parameters that are only compared or stored are 64-bit patterns |
| Double, DoubleSpec | arithmetic of `double` | IEEE 754 binary64 on rationals, infinities and NaN: exact result rounded to nearest even; proved monotone, nearest and exact where it should be |
| GeomDouble, GeomDoubleExact, GeomDoubleGrid, GeomDoubleNone, GeomDoubleError, GeomDoublePeriod, GeomDoubleClose | Cartesian_Geometry and No_Geometry as computed with `double` | operation by operation in the order of the code; conversion to `uint64_t` of what does not fit is undefined (`none`); compared with the exact geometry |
| StretchedDouble, StretchedDoubleExact, StretchedDoubleGrid, StretchedDoubleLoop, StretchedDoubleClose | Stretched_Cartesian_Geometry as computed with `double` | results are `ok`, `undefined` (read outside of the vector) or `hangs`: the loop over offsets has no result in 2^64 steps, after which it repeats itself |
| Collective | All_Gather, All_Reduce, Some_Reduce (dccrg_mpi_support.hpp) | lists in rank order |
| Partitioner | Zoltan callbacks (11773-12411), partitioning levels and options (5623-5937) | |
| Phases | the three functions of load balancing called separately (3820-4238), updates and transfers of parts of data, cells added and removed by load balancing (6441-6470) | any list of transfers and assignments between start and end; a datatype is any function of sent and old data |
| Lists | `get_all_cells`, `get_removed_cells` (3574-3645), `*_at(coordinate)` (3450-3530), `find_cells` (4963-5083), update counts (5483-5591), `get_neighbors_of_at_offset` (3157-3215) | |
| Find64 | `find_cells` (4963-5083) with 64-bit loops | a loop with more steps than there are values hangs |
| Vtk | `write_vtk_file` (3375-3448) | lines and words; printing of floating point numbers is a parameter |
| Stored, StoredLists, StoredHalo, StoredSpec, StoredHist, StoredPhases | what is stored: `neighbors_`, neighbor lists (8429-8452, 8784-9082), boundaries (9088-9265), lists of cells to send and receive (9186-9425), iterators (11418-11770), and where each is updated (480-562, 362-446, 4152-4200, 6546-6766, 10697-10745) | maps that are read with `at` (throws if missing); a store per process next to its state in Hist |
| LoadBare, LoadStored | what `start_loading_grid_data` leaves out (2058-2150), stored information while loading | a grid without copies of remote neighbors next to one that has them |
| Debug, DebugSpec, DebugStore, DebugExec, DebugLoad, DebugPhases | functions that verify the grid in debug builds (12415-13001) and checks under `#ifdef DEBUG` in functions that change the grid | a second version of every operation, with checks that end in `throws`; proved equal to the first |
| Objects, ObjectsSpec, ObjectsExec, ObjectsHist, ObjectsPhases | objects behind pointers: which function makes and erases elements of `cell_data`, `remote_neighbors`, `refined_cell_data` and `unrefined_cell_data`; pointers and members added by users (Additional_Cell_Items, Additional_Neighbor_Items) in items of iterators (7459-7575, 11418-11770) | an object is a number never used again after it has been erased |
| Sched, SchedOps, SchedSpec, SchedPhases | the same functions as programs of one process that call collective functions (All_Gather as two `MPI_Allgather`-like steps, All_Reduce, Zoltan) and post messages: `stop_refining` and its parts, `balance_load` and its phases, updates of remote neighbors, all other operations of Hist | processes run at their own pace; a collective call returns on a process when those whose values it needs have called it, or later if MPI likes; a receive completes when its message was sent, a send when it is received or buffered |
| SchedFile | `save_grid_data` and `load_grid_data` with `load_cells` as programs of one process: opening, views, reading, writing and closing of files by all processes, `MPI_Bcast` of the size of the header, `MPI_Allgather` of sizes | collective functions of files may return at once or wait for all processes; writes of different processes happen in any order; a file that is loaded doesn't change |
| Handles, HandlesSpec | datatypes, requests and files of MPI that transfers (10748-11263), `save_grid_data` (1117-1787), `start_loading_grid_data` (1870-2163), `continue_loading_grid_data` (2188-2447) and `finish_loading_grid_data` (2461-2481) make, commit, use, wait for, free and close | an object of MPI is a number that isn't used again; using one that doesn't exist, or a datatype for communication that isn't committed, is undefined; contents of messages and files are in other modules; errors of MPI don't happen |
| View | memory and file datatypes of all cells of a process in `save_grid_data` (1386-1487, 1640-1710) and `continue_loading_grid_data` (2210-2400), views of files and what is written and read through them | memory is a function from addresses to bytes; a view that the standard of MPI does not allow is undefined; views are not repeated after their end |
| SchedStuck | executions of Sched after a process has failed | a process that fails does nothing more; that MPI may then end the others isn't modelled |
| Datatype | choice between versions of `get_mpi_datatype` by the compiler (dccrg_get_cell_datatype.hpp), basic types and arrays, datatypes of messages made of them (dccrg.hpp 10779-11191) | memory of a process is a function from addresses to bytes; MPI reads bytes of a message when it is matched and stops the program if there are too many |
| Alias | references between instances of the grid | heap of instances |
| Overlap | the loop of examples/game_of_life.cpp (125-145) on top of Async | instructions of processes in any interleaving with each other and with MPI; what is calculated from neighbors and how cells change is any function |
| Convert | examples/dc2vtk.cpp (42-320) | reads of a file at growing offsets; success of MPI functions and of writing is assumed |
| Advect | tests/advection/solve.hpp (44-279), 2d.cpp (327-343, 390) | direction of a neighbor from its offsets; fluxes of inner and outer cells, applying fluxes and a turn on all processes, with rational numbers instead of double |
| AdvectAdapt | tests/advection/adapter.hpp (187-319), initialize.hpp (36-82) | requests of all processes, densities of new cells and parents of removed cells, shapes of cells; start of a simulation |
| AdvectCheck | tests/advection/adapter.hpp (47-181), solve.hpp (287-331), 2d.cpp (259-293, 321-421) | differences of densities and decisions of every process, length of steps, initial refinement and main loop of the program |
| VarData | tests/particles/cell.hpp (34-84), simple.cpp (284-294), tests/variable_data_size/variable_data_size.cpp (80-93) | data with a variable number of items, transferred as number of items and items in two updates, or in two transfers of load balancing |
| Poisson | tests/poisson/poisson_solve.hpp | the iterative solver of the Poisson test: classification of cells, cached neighbors and factors, updates of parts of data, sums over processes, the loop and its end |
| PoissonSafe | tests/poisson/poisson_solve.hpp:526-632 | the other solver of the Poisson test, `solve_failsafe` |
| Particles | tests/particles/simple.cpp:52-97, 284-296 | how particles move between cells in the particle test |
| Life | examples/game_of_life.cpp:38-48, 58-63, 73-77, examples/game_of_life_with_output.cpp:55-82, 139-145, examples/simple_game_of_life.cpp:81-88, 102-119, tests/user_neighborhood/game_of_life.cpp:27-131, 173-182, 316-331 | counting of live neighbors and rules of the game of life, in loops of Overlap and of C115; neighborhood and live cells of the test |
| Demo, Sample | – | concrete grids for examples |

## 3. Simplifications

Each is repeated in the comment of the definition concerned.

* Neighbor lists, boundary sets and lists of cells to send and receive are functions of the owners of cells in most
  modules, although the code stores them. C80 proves that what is stored, as updated by the code, always equals these
  functions.
* Cell ids are unbounded in modules above Mapping64, indices and offsets in modules other than Nbr64. C07, C79 and
  MappingRefine say when this is justified.
* Hash containers are lists without duplicates; results never depend on their order, which is part of theorems
  (`sorted` arguments are modelled).
* Data of a cell are transferred as a whole, except in Phases, where datatypes given by users that transfer a part of
  data and depend on processes and the cell are any function `m sender receiver cell sent old`, applied after all
  messages have arrived, which is the same because a cell is received once in a transfer. In files and in Datatype bytes and
  counts are explicit.
* `abort()` is not distinguished from an exception. Tag overflow ends in `throws`.
* Calls that must be made by all processes are one step of all processes, except for split-phase updates (Async). C97
  proves that this is what happens when every process runs at its own pace. Between the phases of split load balancing users
  change data of cells (C66) and call functions that need no other processes (C103, C104), any number of times (C105), at their own pace (C106).
* Geometry is exact in Geom and modules that use it: no rounding of `double`. C82-C86 say when and how far rounding matters
  in Cartesian_Geometry and No_Geometry, C90-C94 in Stretched_Cartesian_Geometry. Parameters are checked bit by bit (NaN, infinities, signed zeros) in GeomSet and
  Records. In Double zero has no sign (divisors in geometries are never negative zero), rounding is to nearest, no operations
  are fused and none are calculated with more bits.
* MPI functions succeed; messages are not lost; messages of same source, destination and tag do not overtake each other;
  a send completes when MPI buffers it or when it is received, whichever way MPI likes.
* Reads past the end of a file leave buffers unchanged; offsets do not overflow; named datatypes have no padding; saving
  does not truncate an older, longer file (as in the code).
* `release` builds except in Debug*: without checks under `#ifdef DEBUG`, hence for example `dont_refine` accepts non-local
  cells. In Debug*, checks of arguments that are invalid (9660, 11274, 11332) and of `grid_initialized` are left out, and
  checks that repeat an exception of the release build are not repeated.
* In Objects members added by users are functions of ids, neighborhood and processes of cells (not of data). References to
  elements of `std::unordered_map` stay valid when others are added or erased, as the standard says.

## 4. What is not modelled

* MPI, Zoltan (its answer is any consistent list of moves), C++ containers, memory management (except Alias), exceptions
  inside users' functions, performance, memory use.
* The library of space-filling curves, `DCCRG_NO_LB`.
* Complex numbers as cell data (`DCCRG_USER_COMPLEX`), tests and examples (except the loop in Overlap, the program in Convert, the solver and its grid adaptation in Advect, AdvectAdapt and AdvectCheck, the transfers in VarData, the particles in Particles, the game in Life and the solvers in Poisson and PoissonSafe).

## 5. Plan and result per property

C01-C06 mapping laws: 64-bit functions, arithmetic of division, induction over levels. C04 is false for ids beyond the
  last cell (wraparound makes the eighth entry a valid cell).
C07: model of rounding. False for some huge grids and negative levels; `_partial` below 3.1e16 level 0 cells, exact list of exceptions; every level
  that fits is accepted.
C08: `Grid_Length::set` compares the sum instead of the product of lengths; `_partial` for what is checked.
C09: records as bytes; read (write x) = x. False when the maximum level was set before the length.
C10: arithmetic of the distribution loop.
C11: stepwise wrapping loops equal modular arithmetic.
C12: search from the smallest level; uniqueness from tiling.
C13, C14: invariants of the transition system. C14 combines closure of induced refinement with completeness of the flood
  fill in `override_unrefines`.
C15: the walk through six-directional neighbors reaches the region from any cell, in the universal cover of the periodic
  grid.
C16: both searches equal the same geometric relation, hence duality.
C17, C18, C39: boxes in the cover.
C19-C24, C50, C53, C56, C57: closure arguments over finite sets, histories of calls. C20 is false of the code.
C25-C29: every process' state is a projection of one abstract grid.
C30-C32, C54: arbitrary partitioner; ledger of calls. C32 is false for one order of calls.
C33-C36: lists from boundary sets, delivery in any order. C36 is false for the default neighborhood.
C37, C38, C40: queries as functions over neighbor lists against geometric relations.
C41-C43, C60: byte-level files; `load_cells` by induction over refinement levels.
C44-C48, C58, C59: exact geometry; boundary failures as negations.
C49: concatenation and displacements.
C51, C61: lists of levels and options; mixed radix arithmetic.
C52: lengths and contents of callback results agree.
C55: progress of every operation from the invariant.
C62: invariant of the small-step semantics (what is in flight is what should arrive), progress and a decreasing measure.
C63: the copy is a reachable state, therefore all theorems apply. C64: nothing is decided when nothing was requested.
C65: heap of instances; false of the code in three ways.
C66: all phases keep everything except values of data, therefore the end is the same as that of `balance_load` up to
data; data are followed cell by cell; the result is reachable because it is obtained from the plain result by assignments.
C67: the same for copies of remote neighbors.
C68-C71: lists against owners before and after, counts against lists without duplicates. C71 inherits the gap of C45 (C47 for
stretched geometry).
C72: the loop visits points in order, every cell is first met at its corner clipped to the box if the box is aligned;
otherwise false, exactly the cells that have a visited point are returned; 64-bit loops refine exact ones for boxes inside of
the grid, others can run for ever. C73: false for neighbors of other sizes; an exact characterization and the case of equal sizes.
C74-C76: induction over the list of calls. C75 and C76 are false of the code for some orders of calls.
C77: invariant of the loop over the curve; the state equals that of plain `initialize` followed by load balancing.
C78: positions in concatenated blocks; the file determines its points and cells, which gives the negations.
C79: refinement of the searches of Nbr by those of Nbr64; offsets stay between searched block and cell during the walk.
C80: a store is coherent with a state if everything in it is as calculated from the state; invariant of all operations.
C81: a loaded grid is a reachable one, or one without copies of remote neighbors; simulation between the two.
C82: all numbers of calculations are multiples of the same unit with at most 53 bits. C83: errors of each operation added up
with rational arithmetic. C84-C86: the same; all three are false of the code for some parameters or coordinates.
C87: every check is a consequence of the invariant at the place where it is made, operation by operation; between two phases
of an operation the store is described by what it still agrees with. C88: comparison with three iterators is that of a prefix.
C89: containers of objects have the same keys as those of data; items are those that would be made now; both are invariants.
C90: as C82, in every level 0 cell. C91, C92: as C83, C84, with errors relative to a level 0 cell; the loop over offsets stops after
the first and at the latest at the last position inside of the cell. C93: the loop stops exactly if the length of the smallest cells is
not rounded to zero. C94: errors of coordinates are smaller than differences between them.
C95: indices in the grid are inside of one existing cell, which is what `get_cell_from_indices` gives for its level; then C83-C85 and
C91 apply. C96: from C84 and C92, false of the code for the same parameters.

C97: programs whose next calls always match (`Lock`) have an execution in which all processes take each call together; an
invariant says that every other execution is between two of its steps on every process, hence has the same values, the same
number of steps and can always go on. Functions of the code are such programs, by induction over their loops. Not false
vacuously: an example shows a program of two processes that waits forever. C101: saving and loading are such programs; writes that
have no bytes in common can be done in any order.

C102: processes make the same calls until one fails; an invariant says that nobody gets past a call that needs a value of that
process (`Break`). If others need nothing more of it they can end (`Meet`), which gives the negation.

C103: between the phases requests are about the old grid, whose cells and neighbors are those of the new one; `stop_refining`
handles requests in the same way whatever pins and weights are (`Alike`), so theorems about requests hold for what has been
recorded (`Recorded`). C104: the pins of next load balancing are those of a grid without requests for pins of foreign cells
(`balance_pins`). C105: induction on histories with a weaker invariant (`Loose`): what a process remembers about pins and weights
need not be about its own cells; only load balancing uses it, and treats it as requests of owners (`tidied`). C106: as C97, the programs of the three phases give the states of C105 when all
processes take each call together. C107: as C80 from the invariant of C105, because what is stored doesn't depend on requests for
pins and weights (`Alike`); between the phases only lists of neighbors are read, which were stored before. C108: as C87 from the invariant of C105; the check of
pin requests is the only one that depends on what processes remember about cells of others (`Loose.newPins`). C109: as C89 from the
invariant of C105; objects change only in the first and the last phase (`MeanwhileObjs.same`). C110: each function is proved to keep exactly the objects it
should (`Mpi.Has`, `Use.Ends`); induction on calls with the invariant that requests that aren't finished are those that are stored, each
once (`Handles.Keeps`). C111: without holes in the file the view is a list of ranges in order (`fileView_packed`, from `chain_displ` of C41), so
that writing and reading through it is writing and reading range by range (`putBytes_writes`, `flatMap_at`); loading by induction on calls
with objects of cells in memory (`InMemory`). C112: what is saved depends on cells only through the list that is written (`save_given`); a loaded
grid consists of cells of the file if it has as many (`subset_of_length`), and tiles the grid, so that no cell of the saved grid can be missing. C113: cells of the
highest level are unrefined until only level 0 is left (`lower`, from C24 and C56), then cells are loaded as in C43; that `dont_refine` prevents
this is an induction on further calls (`C113_never`). C114: induction on lives of grids (`Life`), each restart by C41 and each operation by the
simulation of C81. C115: data of all existing cells is one function from cells to data (`Holds`); every stage gives a state whose function is calculated from the function before without mentioning processes (`sweptField`, `adaptedField`; from C33, C56 and C28), then induction on stages. C116: processes run lists of instructions on top of split-phase updates (`Verif/Overlap.lean`); an invariant says where a process is in its turn and which turn its data, copies and calculated values belong to (`Spot`); deadlock is excluded by looking at a process that has started the fewest sends.
C117: a loaded grid has the same function from cells to data, no requests, and is one of C115 except for missing copies (`Nearly`); every stage gives the same with and without them, by induction on stages and restarts (`Computes`).

C118: data of cells follow the list of cells without gaps in the order of the list (`file_data`), hence items of equal size are where the program expects them; members are read as in C41, lines are those of C78.

C119: "on the other side of a face" is equivalent to boxes that overlap in two dimensions and touch in the third (`Touch`), which is symmetric and fixes the offset; items of neighbor lists have all cells at the points of a face (`isItem_at`).

C120: loops of a process are sums over face neighbors (`Gained`, `calculateFluxes_gained`); what cells of a process give to one of them, with each face between local cells handled from one side, is what comes through its faces (`sum_faceParts`, exchanging sides of faces); data of all cells after a turn is a function of data before it (`advectTurn_holds`), with moves from C115; the total by C119.

C121: data of all cells after adaptation is a function of data before it and of the new set of cells (`adaptGrid_holds`), where removed cells are at the process of their parent (C28, C69); the new set of cells by C24 and C56 (`C121_cells`); the total by splitting old and new cells into those that stay and families (`mass_adapted`), volumes of children by C44.

C122: the largest difference of a cell is a function of densities of all cells (`DiffOf`, `maxDiffs_spec`) as the relation of cells is symmetric and copies are up to date in the check; decisions of a process depend on its cells and on their order, but their effect does not (`Checked`, `requested_checked`); data of all cells and the next step after every step is a function of those before it (`SimTo.unique`), which every run follows (`AdvectSim.holds`); the total by C121.
C123: both updates are updates of parts of data (C67), between them the loop over remote cells (C38) resizes every copy; hence sizes agree in the second update. Load balancing in phases (C66) in which the writes are those of the loop over received cells; the end equals that of `balance_load` because data of every cell do.

C124: a loop over cells that uses a part of data of neighbors, after an update of that part, is the same function of the data of all cells on every partition (`passed`); sums over processes are sums over all cells in order (`gSum`); the solver on processes equals one on all cells (`gSolve`), iteration by iteration.

C125: an iteration adds a multiple of the search direction to the solution and subtracts the same multiple of its product with the matrix from the residual (`gIter_true`), hence the invariant `Residual` by linearity, when the search direction is zero in cells that are not solved. Counterexamples by evaluating the solver on all cells of a grid of two cells.

C126: both products are sums over pairs of a cell and a face neighbor; terms of the two sides of a face cancel in the difference because the list of faces of all cells is symmetric (`faces_cancel` from C119). Counterexample by evaluating the sums in a grid where one of two cells is refined.

C127: across a face there are none, one not smaller or four smaller cells (`faceDir_full`, `C39_face_sizes`); then factors are those of second differences on a grid with unequal distances (`factor_gap`), a sum over neighbors with factors divided by 4 is a mean (`weights_mean`), and rows of the matrix are sums of second differences (`applied_laplacian`); the rest from C125.
C128: with positive lengths factors of cells to solve are negative (`scale_neg`), so that iterations do not abort; iterations on all processes are iterations of one function of all cells (`safeIter_spec`). The next solution of a cell is the current one if and only if its equation holds (`safeNext_fixed`), hence the norm is zero if and only if the equation holds everywhere (`gSafeIter_zero`).

C129: particles that were put to a list of a cell stay there when the cell is handled later (`scan_append`), so that the list of a cell after all loops is what stays of its particles followed by particles that come from cells in the order of iteration (`moveAll`). Processes have the same particles in copies (C123), hence the owner of a cell adds exactly what owners of other cells remove; numbers are then added over pairs of cells (`sum_swap`).

C130: C15 says where a cell that is reported for an item of the neighborhood can be (`item_range`), so that two offsets of the same cell differ by less than the length of the grid (`far_apart`, `near_apart`; sizes of neighbors differ by a factor of two at most because the grid is balanced), but they differ by a multiple of it.

C131: without refinement all cells have one index as their side, so that every offset has at most one cell, at exactly that offset (`flat_item`); what is left of the neighborhood inside of one layer is the eight squares of the specification (`flat_hood`). One turn of C115 and C116 (`turnField`) is therefore one turn of the board, and induction over turns gives the rest. The board of the simple example has period two: all of its 100 squares are evaluated by the kernel for one turn of each of the two boards, all turns by induction (`row_after`).
C132: as C131 but for any neighborhood inside of the layer (`layer_item`, `layer_field`); moves of cells change nothing (C115). Squares with coordinates of given parity only look at squares of the same parity, so that each of the four parts is a board of its own (`gameAfter_part`). The board of the test has period 36, with the glider back at its start: all of its 324 squares are evaluated by the kernel for one turn of each of the 36 boards, all turns by induction (`mask_after`).
C133: all cells have one index as their side, so that every item of the neighborhood has one cell or none (`plain_item`). For neighbors_to, offsets are mapped to cells at the opposite offset, which is a bijection because two offsets differ by less than the length of the grid (C133_to); iterators have one item for each of them because of C130. The number of offsets in the default neighborhood is a sum over three loops that misses one item (`hoodOf_length`). With cells of any one refinement level the same is shown in units of the side of cells (NbrUniform.lean).
C134: as C131, but all cells have side 2^(maximum refinement level), by which all indices are divided (`whole_item`); no cell can be half as large because none was refined. The file is read back by C118 (`C118_read`), every square is an existing cell because cells tile the grid, and the rules don't make `is_alive` larger than it was (`turns_small`).

C98: an interrupted save is any file each byte of which is old or written by some process (`Torn`). Writes are inside of the region
of C42, which gives safety of other regions; then C41 applies to them because writing them again changes nothing.

C99: the datatype of one message for all cells has the bytes of all cells in order, wherever their objects are in memory; then
messages of bytes are like messages of values in Transfer as long as nothing that is sent is overwritten. C100: all combinations of
versions; induction over the length of arrays.

## 6. Disagreements between code and properties

Proved as theorems (`_false`):

* C04 `get_all_children` of an id above the last cell may return a valid cell.
* C07 rounding in `get_maximum_possible_refinement_level`; products that wrap to 0; negative levels are accepted.
* C08 lengths whose product overflows are accepted; the check adds lengths.
* C09 mapping whose level was set before its length cannot be read back; default stretched geometry of a grid longer than
  1 cannot be read back.
* C20 `dont_refine` outlives `stop_refining`: cells_not_to_refine are refilled in `override_refines` and cleared only by
  load balancing.
* C32 `pin(c, p)` of a cell already pinned to `p` returns early although the cell has been unpinned after the last load
  balancing: it is unpinned in the next load balancing.
* C36 updates of the default neighborhood always return false.
* C41, C42 files: derived datatypes with count above 1, several `continue_loading_grid_data` calls.
* C45 coordinates at the end of the grid locate no cell; C47 coordinates at the start of a stretched grid read outside of
  an array; C58 indices that are not first of a cell, or one past the grid; C59 default stretched geometry has one cell;
  C48 NaN is accepted.
* C65 a copy refers to the length of the original, its partitioner asks the original, a copy of the same type is not made
  by the documented constructor.
* C72 `find_cells` steps from the lower corner of the box by the size of the smallest cells searched, therefore misses cells
  at the far end of boxes that are not aligned. It does not return if a loop reaches the end of 64-bit indices.
* C73 `get_neighbors_of_at_offset` compares only first corners: of 8 smaller neighbors one is returned, larger neighbors
  are returned at another offset or not at all, also at offsets outside of the neighborhood.
* C75 a failed `initialize` cannot be repeated; `set_maximum_refinement_level` after `initialize` changes the mapping of the
  existing cells; `set_initial_length` is accepted after a grid has been loaded.
* C76 `set_initial_length` after `set_maximum_refinement_level` does not check the level again: ids overflow.
* C78 `write_vtk_file` numbers points with 32 bits (wrong from 2^29 cells of a process, endless from 2^32) and prints
  coordinates with the default precision of six digits.
* C79 `find_neighbors_of` overflows `int` for neighborhood items 1023 or more cells away in grids with 21 refinement levels;
  `find_neighbors_to` wraps around in grids with a dimension within 2^31 indices of 2^64 and finds cells of the other end of a
  grid that isn't periodic.
* C80 a copy of a grid has user neighborhoods but no iterators of them (they throw); `all_cells(id)` of a removed neighborhood
  returns the range that was stored, the vector of which has been erased.
* C81 `start_loading_grid_data` allocates no copies of remote neighbors and makes no iterators; `load_cells` does both only
  because it calls `stop_refining`, which it does not if all cells in the file are of refinement level 0.
* C83-C86 with floating point numbers: a coordinate closer than rounding errors to a face may be located in the next cell; the
  center of a cell may be located in another cell if the start of the grid is far from zero; a coordinate slightly below the start
  of a periodic dimension, or very far, is in no cell (`get_real_coordinate` returns a coordinate at the end or outside of the
  grid); the lengths accepted by `set` include ones for which `get_indices` converts NaN or infinity to an integer (the code has a
  TODO about checking that coordinates fit into a double).
* C92-C94 `get_indices` of a stretched geometry never returns if coordinates accepted by `set` are so close that the length of the
  smallest cells is rounded to zero; the end of the grid may be in no cell, and a center in a neighbor or, by undefined behavior, in
  the first cell, because of rounding; differences of coordinates that overflow, or an infinite coordinate, lead to the previous level 0
  cell; a stretched geometry can't be set from an accepted Cartesian one if the length of cells is less than rounding errors.
* C71, C96 requests at a coordinate at the end of the grid do nothing; a request at the center of a cell may be one for another cell.
* C98 a file whose saving was interrupted is loaded without complaints if only data of cells are missing; saving over an older file
  is not atomic.
* C101 for derived datatypes with count above 1 bytes of the file depend on which process writes last (see C42).
* C102 the check for cells of a process that are not in the list of the file (dccrg.hpp:2148-2156) comes after the last
  communication: other processes can return from loading, for example if only some of the cells had been saved.
* C104 requests to pin a cell that is leaving, made by its old process between the phases of load balancing, stay on the old
  process (`new_pin_requests` is cleared only at 8525) and are handled next time in order of ranks: they can win over later
  requests of the new process. Debug builds exit in next load balancing (8513-8521), which is the only case in which they differ
  from release builds (C108).
* C109 copies of remote neighbors are erased in `initialize_balance_load` (3887) but items of iterators are made only in
  `finish_balance_load`: between the phases `all_cells()`, `remote_cells()` and ranges of neighbors have pointers to erased objects,
  while pointers to cells of the process are valid.
* C110 `continue_loading_grid_data` doesn't free the datatypes it makes for cells in the file (2269), one for every cell whose
  `get_mpi_datatype` returns a derived datatype; `start_loading_grid_data` returns false without closing the file (1963-2052). Derived
  datatypes returned by `get_mpi_datatype` are freed after use (e.g. 10973-10985), which documentation doesn't tell: a class that makes
  its datatype once and returns it for all cells uses a datatype that doesn't exist (`C110_kept_false`).
* C99 if fewer bytes are sent for a cell than the receiver describes, data of other cells end up in wrong places, but only without
  `set_send_single_cells(true)`.
* C100 `get_mpi_datatype()` that isn't `const` is preferred to `get_mpi_datatype(...) const`, although the version with arguments is
  documented to have precedence.
* C111 Named datatypes are used as such in the file (1462, 2252) but cells are placed by `MPI_Type_size` (1500, 2292), which does not count
  holes: with `MPI_SHORT_INT`, `MPI_DOUBLE_INT` and other pair types cells overlap in the file, and MPI does not allow to write through
  such views. In C41, C42 and C101 named datatypes have no holes. Derived datatypes with a count other than 1 overlap in the same way.
* C112 whether cells were given to `save_grid_data` is decided by each process from its own list (1336-1338, 1364-1366): a process none of
  whose cells are chosen writes all of its cells. A cell given twice hides a missing one from the check of the number of cells (2149).
* C113 because of C20 a grid in which `dont_refine` has been used cannot be turned into every other by refining and unrefining until load is
  balanced.
* C88 `is_consistent` compares lists of cells with `std::equal` and three iterators: a list that is a prefix of the list of process
  0 is accepted, a longer one is compared with what is behind the end of the other.
* C122 `check_for_adaptation` compares cells of different sizes only if their lower corners are at the same place in the other two
  dimensions: a cell is not refined even if it differs from three of four smaller cells on the other side of its face
  (`C122_faces_false`). The statement of C122 says which neighbors are compared.
* C125 (tests/poisson/poisson_solve.hpp) when the sum of residuals is zero at the start the loop is left before `best_solution` has been
  set, and the given solution is replaced by it (352-355, 512-517; `C125_guess_false`). Search directions in cells that are not solved are
  not cleared (990-1046 skip them) but used by their neighbors (301-340), so that what an earlier call left there gives another
  solution (`C125_stale_false`).
* C126 (tests/poisson/poisson_solve.hpp:460-463) the product with the transpose divides factors of a neighbor by 4 if the *neighbor* is
  smaller, but the product with the matrix divides factors of a neighbor by 4 if the *cell* is smaller than it (332-335), hence it isn't the
  product with the transpose where sizes of cells change (`C126_false`).
* C127 (tests/poisson/poisson_solve.hpp:764-818) factors of a face are divided by 4 for each of four smaller neighbors and their sum in the
  diagonal is of the whole face, also if some of the four are skipped, hence a uniform solution has a residual (`C127_skipped_false`).
* C128 (tests/poisson/poisson_solve.hpp:526-632) `solve_failsafe` is described as more robust than `solve`, but its iterations do not
  have to converge when a solution exists: in two cells that are both solved they exchange solutions forever (`C128_converges_false`).
* C129 (tests/particles/simple.cpp:84-90, tests/particles/simple.cpp:223-229) The particle test adds a particle to every neighbor in the list of
  neighbors that has the right id. Its own grid is periodic in dimensions with one cell, so that the same neighbor is nine times in the list
  and every particle that moves to another cell becomes nine particles (`C129_multiplied_false`).
* C129 (tests/particles/simple.cpp:70-95) After erasing a particle the index is increased, so that the next particle is skipped and stays in
  the list of a cell in which it is not anymore (`C129_place_false`).
* C129 (tests/particles/simple.cpp:69-90) Particles of copies of remote cells are also moved, to neighbors that have no data on the process:
  behavior is undefined with two processes and four cells in a row (`C129_defined_false`).

Differences from documentation found while modelling:

* `refine_completely` of a cell that was already requested returns true, documented to return false.
* `get_neighbors_of` documentation says null for remote cells, the list is returned for every existing cell.
* `dont_refine` and `dont_unrefine` accept non-local cells in release builds.
* Reserved partitioning options, and levels with fewer than 1 process, throw; documented to do nothing.
* The copy constructor copies pins, weights, partitioning options and user neighborhoods, documented not to; iterators of
  user neighborhoods are not created for the copy.
* `initialize` marks the grid initialized before validating it: a second call after a failed one throws.
* The partitioner is given ids of type ZOLTAN_ID_TYPE, which is 32-bit by default.
* `LB_METHOD` NONE: a failing partitioner call can leave counts uninitialized.
* `get_remote_neighbors_of/to` (3217-3340) don't compile if instantiated, hence are not modelled.
* `find_cells` of a box that isn't covered by cells of given levels returns also error_cell in release builds.
* Starting updates with an unknown neighborhood id is documented to return false, throws in release builds (5345) and aborts in
  debug builds (5197, 5308).
* In debug builds `find_cells` aborts (5035) where it returns error_cell in release builds, and neighbors_to are sorted in place
  when verified (12583). The check of the result of the partitioner at 8581 is inside of the branch in which it failed.
* All_Gather of 2^31 or more values overflows `int` displacements.

## 7. Trusted base

* Lean 4.33.0 kernel. No theorem uses axioms other than `propext`, `Classical.choice` and `Quot.sound`; there is no
  `sorry`, `native_decide`, `bv_decide` or added axiom. Only Lean's core library is imported, not Mathlib.
* Faithfulness of the hand-written model to the C++ text. It is checked by citing lines, by negation theorems whose
  witnesses can be compared to the code, and by mutation tests (`seeded/LOG.jsonl`).
* The assumptions of sections 3 and 4.
