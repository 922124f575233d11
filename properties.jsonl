{"id": "C01", "title": "Cell id -> indices -> cell id round trip", "statement": "For every cell id from 1 to get_last_cell(), get_refinement_level() is between 0 and the maximum refinement level and get_cell_from_indices(get_indices(cell), get_refinement_level(cell)) returns the same cell.", "quantifier": "every grid length, every maximum refinement level whose ids fit in 64 bits, every valid cell id", "why_tests_cant": "the id space has up to 2^64 members and depends on four configuration parameters", "anchors": ["dccrg_mapping.hpp: Mapping::get_cell_from_indices", "dccrg_mapping.hpp: Mapping::get_indices", "dccrg_mapping.hpp: Mapping::get_refinement_level"]}
{"id": "C02", "title": "Indices -> cell id -> indices round trip", "statement": "For every in-grid index triple and every refinement level l between 0 and maximum, get_cell_from_indices gives a valid id of refinement level l whose get_indices are the given indices rounded down to a multiple of the cell's length in indices; hence at each level every index belongs to exactly one cell.", "quantifier": "every configuration, every in-grid index triple, every refinement level", "why_tests_cant": "unbounded number of index triples and configurations", "anchors": ["dccrg_mapping.hpp: Mapping::get_cell_from_indices", "dccrg_mapping.hpp: Mapping::get_indices", "dccrg_mapping.hpp: Mapping::get_cell_length_in_indices"]}
{"id": "C03", "title": "Invalid cells, levels and indices are reported as errors", "statement": "get_cell_from_indices returns error_cell exactly when an index is outside of the grid or the level is outside of 0..maximum; get_refinement_level returns -1, get_indices the error triple, get_cell_length_in_indices error_index and get_parent/get_child/get_siblings/get_level_0_parent error cells exactly when the cell is 0 or larger than get_last_cell().", "quantifier": "every configuration and every 64-bit cell id / index / every level", "why_tests_cant": "the error region is all but a sliver of the 64-bit space; tests can only sample it", "anchors": ["dccrg_mapping.hpp: Mapping::get_cell_from_indices", "dccrg_mapping.hpp: Mapping::get_parent", "dccrg_mapping.hpp: Mapping::get_siblings", "dccrg_mapping.hpp: Mapping::get_level_0_parent", "dccrg_mapping.hpp: Mapping::get_child"]}
{"id": "C04", "title": "get_all_children returns only error cells for a cell that has no children", "statement": "get_all_children(cell) returns eight error_cells whenever the cell cannot have children: cell is 0, larger than get_last_cell() or at maximum refinement level.", "quantifier": "every configuration and every 64-bit cell id", "why_tests_cant": "the violating inputs are ids beyond the last cell, where unsigned wraparound decides the result", "anchors": ["dccrg_mapping.hpp: Mapping::get_all_children"]}
{"id": "C05", "title": "Refinement tree laws", "statement": "For a cell below the maximum refinement level, get_all_children gives eight distinct cells one level higher, get_parent of each is the cell, get_child is the first of them and get_siblings of each is the same list; for a cell of level > 0, the cell is among get_all_children(get_parent(cell)); get_level_0_parent is the iterated parent.", "quantifier": "every configuration, every valid cell", "why_tests_cant": "must hold at every depth and position of the tree", "anchors": ["dccrg_mapping.hpp: Mapping::get_all_children", "dccrg_mapping.hpp: Mapping::get_parent", "dccrg_mapping.hpp: Mapping::get_child", "dccrg_mapping.hpp: Mapping::get_siblings", "dccrg_mapping.hpp: Mapping::get_level_0_parent"]}
{"id": "C06", "title": "Children exactly partition the volume of their parent", "statement": "Every smallest-cell index inside a cell lies in exactly one of the children given by get_all_children, and no index outside of the cell lies in any of them; two cells of any levels are either nested or disjoint.", "quantifier": "every configuration, every cell, every index triple", "why_tests_cant": "a universally quantified statement over positions and pairs of cells", "anchors": ["dccrg_mapping.hpp: Mapping::get_all_children", "dccrg_mapping.hpp: Mapping::get_indices"]}
{"id": "C07", "title": "Accepted maximum refinement level never overflows cell ids", "statement": "If set_maximum_refinement_level returns true for a grid then every cell id up to that level, including get_last_cell(), fits into 64 bits, i.e. get_last_cell() equals the exact number of possible cells.", "quantifier": "every grid length and every requested maximum refinement level", "why_tests_cant": "the check is done in floating point and fails only for particular 19-digit grid sizes", "anchors": ["dccrg_mapping.hpp: Mapping::set_maximum_refinement_level", "dccrg_mapping.hpp: Mapping::get_maximum_possible_refinement_level", "dccrg_mapping.hpp: Mapping::update_last_cell"]}
{"id": "C08", "title": "Unacceptable grid lengths are rejected without effect", "statement": "Grid_Length::set / Mapping::set_length return false and change nothing when a length is zero or when the total number of level 0 cells does not fit into 64 bits, and otherwise store the given lengths.", "quantifier": "every triple of 64-bit lengths, every previous state", "why_tests_cant": "overflow triples are a vanishing fraction of inputs", "anchors": ["dccrg_length.hpp: Grid_Length::set", "dccrg_mapping.hpp: Mapping::set_length"]}
{"id": "C09", "title": "Grid metadata survives writing and reading", "statement": "Reading the mapping, topology and geometry records back from the bytes that write() produced restores the same grid length, maximum refinement level, periodicity and geometry parameters, and each record is exactly data_size() bytes long.", "quantifier": "every accepted configuration", "why_tests_cant": "all configurations; bytes for all 64-bit values", "anchors": ["dccrg_mapping.hpp: Mapping::read", "dccrg_mapping.hpp: Mapping::write", "dccrg_topology.hpp: Grid_Topology::read", "dccrg_topology.hpp: Grid_Topology::write", "dccrg_no_geometry.hpp: No_Geometry::read", "dccrg_cartesian_geometry.hpp: Cartesian_Geometry::read", "dccrg_stretched_cartesian_geometry.hpp: Stretched_Cartesian_Geometry::read"]}
{"id": "C10", "title": "Initial distribution of cells", "statement": "After initialize(), every level 0 cell 1..N belongs to exactly one process, each process owns a contiguous range of ids in rank order, the sizes of any two processes' shares differ by at most one, and nothing else exists.", "quantifier": "every grid size and every number of processes", "why_tests_cant": "arithmetic over all (cells, processes) pairs including fewer cells than processes", "anchors": ["dccrg.hpp: Dccrg::create_level_0_cells"]}
{"id": "C11", "title": "Neighborhood index arithmetic", "statement": "For a cell index, an offset in units of cell length and a dimension, the neighbor's index is the index plus offset, wrapped modulo the grid length when the dimension is periodic (any number of times), and an error when it is outside of a non-periodic dimension.", "quantifier": "every grid length, cell length, offset of any size and sign, and periodicity", "why_tests_cant": "wrapping several times round a small periodic grid is rarely tested", "anchors": ["dccrg.hpp: Dccrg::indices_from_neighborhood"]}
{"id": "C12", "title": "Search for an existing cell by location", "statement": "get_existing_cell(indices, min, max) returns the existing cell that covers the given indices if its level is within [min, max] and error_cell otherwise.", "quantifier": "every configuration, every set of existing cells that tiles the grid, every index triple and level range", "why_tests_cant": "depends on every reachable refinement pattern", "anchors": ["dccrg.hpp: Dccrg::get_existing_cell"]}
{"id": "C13", "title": "Existing cells tile the grid", "statement": "At all times between collective calls, every smallest-cell index of the grid is covered by exactly one existing cell, so that the sum of volumes of existing cells is the volume of the grid; refining and unrefining never leaves holes or overlaps.", "quantifier": "every history of initialize, refine/unrefine/dont_refine/dont_unrefine requests, stop_refining and load balancing on any number of processes", "why_tests_cant": "holds for all histories and all process counts", "anchors": ["dccrg.hpp: Dccrg::stop_refining", "dccrg.hpp: Dccrg::execute_refines", "dccrg.hpp: Dccrg::create_level_0_cells"]}
{"id": "C14", "title": "Neighboring cells differ by at most one refinement level", "statement": "After every stop_refining(), two existing cells of which one is within the neighborhood of the other differ by at most one refinement level (max_ref_lvl_diff).", "quantifier": "every history of requests on any number of processes, every neighborhood length including 0, every periodicity", "why_tests_cant": "global invariant maintained by a distributed fixed-point iteration and a flood fill; counterexamples would need unusual refinement patterns", "anchors": ["dccrg.hpp: Dccrg::induce_refines", "dccrg.hpp: Dccrg::override_unrefines", "dccrg.hpp: Dccrg::override_refines", "dccrg.hpp: Dccrg::execute_refines", "dccrg.hpp: max_ref_lvl_diff"]}
{"id": "C15", "title": "neighbors_of is exactly the cells inside the neighborhood", "statement": "get_neighbors_of(cell) contains, for each neighborhood item, exactly the existing cell(s) that overlap the region of the cell's size at that offset (one cell of equal or larger size, or all eight smaller ones in z-order), and nothing for regions outside of a non-periodic grid; the reported offset is the location of the neighbor relative to the cell in smallest-cell indices.", "quantifier": "every tiled and balanced set of existing cells, every cell, every neighborhood, every periodicity", "why_tests_cant": "depends on every refinement pattern around every cell", "anchors": ["dccrg.hpp: Dccrg::find_neighbors_of", "dccrg.hpp: Dccrg::get_neighbors_of", "dccrg.hpp: Dccrg::update_neighbors_"]}
{"id": "C16", "title": "neighbors_to is exactly the cells that consider the cell a neighbor", "statement": "get_neighbors_to(cell) contains exactly those existing cells whose own neighborhood region overlaps the cell, i.e. B is in neighbors_to(A) if and only if A is in neighbors_of(B).", "quantifier": "every tiled and balanced set of existing cells, every pair of cells, default and user neighborhoods", "why_tests_cant": "a duality between two independently coded searches, for all refinement patterns", "anchors": ["dccrg.hpp: Dccrg::find_neighbors_to", "dccrg.hpp: Dccrg::find_neighbors_of", "dccrg.hpp: Dccrg::get_neighbors_to"]}
{"id": "C17", "title": "Pairwise neighbor test agrees with neighbor search", "statement": "is_neighbor(a, b) (used between processes during refinement) is true exactly when cell b is within the default neighborhood distance of cell a, i.e. when it agrees with the region used by get_neighbors_of, for every periodicity.", "quantifier": "every pair of cells, every neighborhood length, every periodicity", "why_tests_cant": "two independently coded geometric tests must agree for all pairs", "anchors": ["dccrg.hpp: Dccrg::is_neighbor", "dccrg.hpp: Dccrg::overlapping_indices"]}
{"id": "C18", "title": "Six-directional adjacency", "statement": "The neighbor recorded for each of the six face directions of a cell is the existing cell that covers the index just outside of the cell's lower corner in that direction, wrapped in periodic dimensions and absent at non-periodic boundaries; the relation is symmetric between equal-sized cells.", "quantifier": "every tiled balanced set of existing cells, every cell, every direction and periodicity", "why_tests_cant": "boundary arithmetic in unsigned integers at every position", "anchors": ["dccrg.hpp: Dccrg::update_neighbors_"]}
{"id": "C19", "title": "dont_refine is honored", "statement": "A cell for which dont_refine() returned true before stop_refining() on any process is not refined by that stop_refining(), neither directly nor because of induced refinement of neighbors.", "quantifier": "every set of requests on any number of processes", "why_tests_cant": "interaction of two distributed closures (spreading of don't-refines and of induced refines)", "anchors": ["dccrg.hpp: Dccrg::dont_refine", "dccrg.hpp: Dccrg::override_refines", "dccrg.hpp: Dccrg::induce_refines"]}
{"id": "C20", "title": "dont_refine affects only the next stop_refining", "statement": "dont_refine() has an effect only during the next call to stop_refining(): in a later refinement round the same cell can be refined normally.", "quantifier": "every history with at least two refinement rounds", "why_tests_cant": "requires histories of two rounds with particular requests", "anchors": ["dccrg.hpp: Dccrg::dont_refine", "dccrg.hpp: Dccrg::override_refines", "dccrg.hpp: Dccrg::stop_refining"]}
{"id": "C21", "title": "dont_unrefine is honored", "statement": "A cell for which dont_unrefine() returned true before stop_refining() on any process is not removed by unrefinement in that stop_refining(), no matter which process requested the unrefinement of which sibling.", "quantifier": "every set of requests on any number of processes", "why_tests_cant": "requests of different processes for siblings of the same family interact", "anchors": ["dccrg.hpp: Dccrg::dont_unrefine", "dccrg.hpp: Dccrg::override_unrefines"]}
{"id": "C22", "title": "Refinement takes precedence over unrefinement", "statement": "In stop_refining() no cell is both refined and unrefined: if any sibling of a family is refined then no cell of that family is unrefined, also when the requests come from different processes or the refinement is induced.", "quantifier": "every set of requests on any number of processes", "why_tests_cant": "distributed race between requests", "anchors": ["dccrg.hpp: Dccrg::override_unrefines", "dccrg.hpp: Dccrg::refine_completely", "dccrg.hpp: Dccrg::unrefine_completely"]}
{"id": "C23", "title": "Requested refinement happens", "statement": "If refine_completely(cell) was the last request that concerns the cell and returned true, and no cell on any process has a dont_refine request, then after stop_refining() the cell has been replaced by its eight children.", "quantifier": "every set of requests on any number of processes", "why_tests_cant": "must hold regardless of the other requests", "anchors": ["dccrg.hpp: Dccrg::refine_completely", "dccrg.hpp: Dccrg::stop_refining", "dccrg.hpp: Dccrg::execute_refines"]}
{"id": "C24", "title": "Exactly the necessary cells are refined", "statement": "stop_refining() refines exactly the least set of cells that contains the requested cells that are not vetoed and is closed under 'a coarser neighbor of a refined cell is refined'; the set does not depend on how the cells are distributed over processes or on message timing.", "quantifier": "every set of requests, every distribution of cells over any number of processes", "why_tests_cant": "requires comparing all distributions", "anchors": ["dccrg.hpp: Dccrg::induce_refines"]}
{"id": "C25", "title": "All processes agree about the grid", "statement": "After every collective call all processes have identical knowledge about which cells exist and which process owns each one.", "quantifier": "every history of collective calls, any number of processes", "why_tests_cant": "consistency of replicated state over all histories", "anchors": ["dccrg.hpp: Dccrg::is_consistent", "dccrg.hpp: Dccrg::execute_refines", "dccrg.hpp: Dccrg::finish_balance_load", "dccrg.hpp: All_Gather"]}
{"id": "C26", "title": "Cell data lives exactly on the owner", "statement": "Between collective calls a process has (non-copy) data of a cell if and only if the cell exists and the process owns it.", "quantifier": "every history, any number of processes", "why_tests_cant": "all histories", "anchors": ["dccrg.hpp: Dccrg::verify_user_data", "dccrg.hpp: Dccrg::execute_refines", "dccrg.hpp: Dccrg::finish_balance_load"]}
{"id": "C27", "title": "New cells are placed with their family", "statement": "Children of a refined cell are created on the process that owned the cell; the parent of unrefined cells is created on the process that owned the first child; stop_refining() returns on each process exactly the new children it owns.", "quantifier": "every stop_refining on any number of processes", "why_tests_cant": "all request sets and distributions", "anchors": ["dccrg.hpp: Dccrg::execute_refines"]}
{"id": "C28", "title": "Data of refined and unrefined cells is preserved", "statement": "After stop_refining() and until cleared, data of every refined cell is available on the process that owned it, and data of every unrefined child is available on the process that owns the new parent, unchanged, even if the children were on different processes; data of all other cells is unchanged. After clear_refined_unrefined_data() of a process, and after load balancing, operator[] finds no data for cells that do not exist, while data of existing cells is not affected by clearing.", "quantifier": "every set of requests, every distribution, every data values, every message delivery order", "why_tests_cant": "involves transfers between all pairs of processes", "anchors": ["dccrg.hpp: Dccrg::execute_refines", "dccrg.hpp: Dccrg::operator[]", "dccrg.hpp: Dccrg::get_removed_cells"]}
{"id": "C29", "title": "Pin requests and weights follow refinement", "statement": "Children of a refined cell inherit its pin request and weight; removed cells have neither.", "quantifier": "every stop_refining with any pin requests and weights", "why_tests_cant": "all histories", "anchors": ["dccrg.hpp: Dccrg::execute_refines", "dccrg.hpp: Dccrg::get_cell_weight"]}
{"id": "C30", "title": "Load balancing preserves cells and data", "statement": "Balancing the load with any partitioning result does not change which cells exist or any cell's data, and moves each cell to exactly the process chosen for it; all processes agree about the new owners.", "quantifier": "every partition proposed by the partitioner, any number of processes, any data", "why_tests_cant": "the partitioner may return any assignment", "anchors": ["dccrg.hpp: Dccrg::balance_load", "dccrg.hpp: Dccrg::initialize_balance_load", "dccrg.hpp: Dccrg::continue_balance_load", "dccrg.hpp: Dccrg::finish_balance_load", "dccrg.hpp: Dccrg::make_new_partition"]}
{"id": "C31", "title": "Pinned cells end up on the requested process", "statement": "After balance_load() every cell with a pin request resides on the process given in the request, whatever the partitioner proposes, and unpinned cells follow the partitioner.", "quantifier": "every set of pin/unpin requests on any processes, every partitioner result", "why_tests_cant": "all combinations of pins and partitions", "anchors": ["dccrg.hpp: Dccrg::pin", "dccrg.hpp: Dccrg::unpin", "dccrg.hpp: Dccrg::update_pin_requests", "dccrg.hpp: Dccrg::make_new_partition"]}
{"id": "C32", "title": "The last pin/unpin call wins", "statement": "When pin(cell, process) or unpin(cell) return true the cell's pin state after the next load balance is the one given by the last call.", "quantifier": "every sequence of pin and unpin calls between load balances", "why_tests_cant": "only particular call sequences violate it", "anchors": ["dccrg.hpp: Dccrg::pin", "dccrg.hpp: Dccrg::unpin"]}
{"id": "C33", "title": "Remote neighbor data equals the owner's data after an update", "statement": "After update_copies_of_remote_neighbors(id) each process' copy of every remote cell in neighbors_of of its local cells (default or user neighborhood) equals the data the owner had when the update started.", "quantifier": "every distribution, any number of processes, any data, any message delivery order", "why_tests_cant": "all interleavings of sends and receives between all processes", "anchors": ["dccrg.hpp: Dccrg::update_copies_of_remote_neighbors", "dccrg.hpp: Dccrg::start_remote_neighbor_copy_updates", "dccrg.hpp: Dccrg::wait_remote_neighbor_copy_updates", "dccrg.hpp: Dccrg::start_user_data_receives", "dccrg.hpp: Dccrg::start_user_data_sends"]}
{"id": "C34", "title": "Send and receive lists of two processes match", "statement": "For every pair of processes the list of (cell, tag) one sends to the other is identical to the list of (cell, tag) the other receives from it, for default and user neighborhoods, so that every message is received and no receive waits forever; each process' lists contain every cell at most once.", "quantifier": "every distribution on any number of processes", "why_tests_cant": "the lists are computed independently by each process from its own neighbor lists", "anchors": ["dccrg.hpp: Dccrg::recalculate_neighbor_update_send_receive_lists"]}
{"id": "C35", "title": "Process boundary cells", "statement": "A local cell is reported as being on the process boundary (outer) exactly when some cell in its neighbors_of or neighbors_to is owned by another process, otherwise as inner; remote boundary cells are exactly those remote neighbors; inner and outer cells partition local cells.", "quantifier": "every distribution on any number of processes", "why_tests_cant": "all distributions", "anchors": ["dccrg.hpp: Dccrg::update_remote_neighbor_info", "dccrg.hpp: Dccrg::get_local_cells_on_process_boundary", "dccrg.hpp: Dccrg::get_remote_cells_on_process_boundary"]}
{"id": "C36", "title": "Updating reports success", "statement": "update_copies_of_remote_neighbors(id) returns true when the neighborhood with given id exists, including the default neighborhood.", "quantifier": "every grid, every neighborhood id", "why_tests_cant": "return value for every id and every history of add/remove neighborhood", "anchors": ["dccrg.hpp: Dccrg::update_copies_of_remote_neighbors", "dccrg.hpp: Dccrg::start_remote_neighbor_copy_updates"]}
{"id": "C37", "title": "Cell selection by neighbor types", "statement": "get_cells(criteria, exact_match) returns exactly the local cells whose set of neighbor types (local/remote neighbor of/to) equals a given criterion (exact match), or shares at least one type with a given criterion (otherwise); all local cells without criteria and none for an unknown neighborhood.", "quantifier": "every set of cells, every criteria", "why_tests_cant": "all combinations of neighbor types", "anchors": ["dccrg.hpp: Dccrg::get_cells", "dccrg.hpp: Dccrg::is_neighbor_type_match"]}
{"id": "C38", "title": "Iterator ranges", "statement": "Inner, outer, local, remote and all-cell ranges enumerate exactly the corresponding cells once each; remote cells are those of the default neighborhood. For each cell the neighbors_of range has every item of get_neighbors_of once; the neighbors_to range has exactly the cells of get_neighbors_to, represented by their items in get_neighbors_of where they have any; the range of all neighbors has all those once. Data of all those cells and of neighbors of local cells is available.", "quantifier": "every distribution and neighborhood", "why_tests_cant": "all refinement patterns and distributions", "anchors": ["dccrg.hpp: Dccrg::update_cell_pointers"]}
{"id": "C39", "title": "Face neighbors", "statement": "get_face_neighbors_of(cell) returns exactly the neighbors_of that share a face with the cell, with the direction of that face. Across each of the six faces there are no neighbors, one that is as large or twice as large, or four of half the size.", "quantifier": "every tiled, balanced set of existing cells and every cell", "why_tests_cant": "all refinement patterns", "anchors": ["dccrg.hpp: Dccrg::get_face_neighbors_of"]}
{"id": "C40", "title": "User neighborhoods", "statement": "add_neighborhood(id, items) succeeds exactly if the id is free, is not the default id, items are nonzero and within the default neighborhood; afterwards neighbors of the cell with that id are exactly the subset of the default neighbors given by items; remove_neighborhood makes the id free again.", "quantifier": "every neighborhood and id, every history of adding/removing", "why_tests_cant": "all neighborhoods", "anchors": ["dccrg.hpp: Dccrg::add_neighborhood", "dccrg.hpp: Dccrg::remove_neighborhood"]}
{"id": "C41", "title": "Saving and loading a grid restores it", "statement": "Loading a file written by save_grid_data, with any number of processes, restores exactly the same existing cells with the same data, grid length, maximum refinement level, periodicity, neighborhood length and geometry.", "quantifier": "every tiled balanced grid, every data sizes, any number of writing and reading processes", "why_tests_cant": "all grids and pairs of process counts", "anchors": ["dccrg.hpp: Dccrg::save_grid_data", "dccrg.hpp: Dccrg::start_loading_grid_data", "dccrg.hpp: Dccrg::continue_loading_grid_data", "dccrg.hpp: Dccrg::load_cells"]}
{"id": "C42", "title": "File regions do not overlap", "statement": "In a file written by save_grid_data the user header, metadata, cell list and the data of every cell occupy disjoint byte ranges without gaps, and the data offset stored for each cell is where its data begins, for any number of processes and any cell data sizes.", "quantifier": "every distribution, every cell data size", "why_tests_cant": "offsets are computed by different processes from gathered sizes", "anchors": ["dccrg.hpp: Dccrg::save_grid_data"]}
{"id": "C43", "title": "Loading a list of cells creates exactly that grid", "statement": "load_cells() called with lists of cells whose union is a valid (tiled and balanced) set of cells makes exactly those cells exist, starting from an unrefined grid with any initial distribution.", "quantifier": "every valid set of cells, any number of processes", "why_tests_cant": "all refinement patterns", "anchors": ["dccrg.hpp: Dccrg::load_cells"]}
{"id": "C44", "title": "Cell geometry is consistent", "statement": "With Cartesian geometry (in exact arithmetic) the boxes [get_min, get_max] of existing cells have the edge lengths given by get_length, centers given by get_center in the middle, cover the grid from get_start to get_end, and do not overlap; children's boxes partition their parent's box.", "quantifier": "every geometry parameters, every cell", "why_tests_cant": "all parameters and cells", "anchors": ["dccrg_cartesian_geometry.hpp: Cartesian_Geometry::get_center", "dccrg_cartesian_geometry.hpp: Cartesian_Geometry::get_min", "dccrg_cartesian_geometry.hpp: Cartesian_Geometry::get_length"]}
{"id": "C45", "title": "Locating a coordinate", "statement": "With Cartesian geometry (in exact arithmetic) get_cell(level, coordinate) returns the cell of that level whose box contains the coordinate for every coordinate inside of the grid, including its boundaries, and error_cell outside of a non-periodic grid; the center of each cell is located back to the cell.", "quantifier": "every geometry parameters, every coordinate, every level", "why_tests_cant": "continuum of coordinates; boundary coordinates are exceptional", "anchors": ["dccrg_cartesian_geometry.hpp: Cartesian_Geometry::get_cell", "dccrg_cartesian_geometry.hpp: Cartesian_Geometry::get_indices"]}
{"id": "C46", "title": "Periodic coordinates", "statement": "get_real_coordinate returns the given coordinate if it is inside of the grid, and in a periodic dimension the coordinate inside of the grid that differs from it by an integer multiple of the grid length, and NaN otherwise.", "quantifier": "every coordinate and geometry parameters (exact arithmetic)", "why_tests_cant": "continuum of inputs", "anchors": ["dccrg_cartesian_geometry.hpp: Cartesian_Geometry::get_real_coordinate", "dccrg_no_geometry.hpp: No_Geometry::get_real_coordinate", "dccrg_stretched_cartesian_geometry.hpp: Stretched_Cartesian_Geometry::get_real_coordinate"]}
{"id": "C47", "title": "Stretched geometry locates coordinates", "statement": "With stretched Cartesian geometry (exact arithmetic) accepted coordinate vectors are strictly increasing with one more entry than level 0 cells; cells' boxes tile the grid; get_indices(coordinate) gives the indices of the smallest cell containing the coordinate for every coordinate in the grid including its start.", "quantifier": "every accepted set of coordinates, every coordinate", "why_tests_cant": "continuum of inputs; failure at exact boundaries", "anchors": ["dccrg_stretched_cartesian_geometry.hpp: Stretched_Cartesian_Geometry::set", "dccrg_stretched_cartesian_geometry.hpp: Stretched_Cartesian_Geometry::get_indices"]}
{"id": "C48", "title": "Invalid geometry parameters are rejected without effect", "statement": "set() of each geometry returns false and leaves the geometry unchanged when given non-positive lengths or non-increasing / wrong number of coordinates, and otherwise stores them.", "quantifier": "every parameters, every previous state", "why_tests_cant": "all inputs", "anchors": ["dccrg_cartesian_geometry.hpp: Cartesian_Geometry::set", "dccrg_stretched_cartesian_geometry.hpp: Stretched_Cartesian_Geometry::set"]}
{"id": "C49", "title": "Gathering returns every process' values in rank order", "statement": "All_Gather gives every process the list of all processes' value lists, unchanged, in rank order, including empty lists; All_Reduce gives the sum (mod 2^64) of all values; Some_Reduce gives the sum over the given processes.", "quantifier": "every number of processes, every list of values with less than 2^31 values in total (counts are int), every order in which MPI adds values", "why_tests_cant": "displacement arithmetic for all length combinations", "anchors": ["dccrg_mpi_support.hpp: All_Gather", "dccrg_mpi_support.hpp: All_Reduce", "dccrg_mpi_support.hpp: Some_Reduce"]}
{"id": "C50", "title": "Unsplittable requests are rejected", "statement": "refine_completely, unrefine_completely, dont_refine and dont_unrefine return false without changing anything for cells that do not exist (and, for the first two, are not local); unrefine_completely returns false without effect when a sibling has children, unless refine_completely or dont_unrefine has returned true for a sibling (then it returns true without effect, as documented for dont_unrefine).", "quantifier": "every state and every 64-bit cell id", "why_tests_cant": "all ids in all states", "anchors": ["dccrg.hpp: Dccrg::refine_completely", "dccrg.hpp: Dccrg::unrefine_completely", "dccrg.hpp: Dccrg::dont_refine", "dccrg.hpp: Dccrg::dont_unrefine"]}
{"id": "C51", "title": "Hierarchical partitioning assigns parts consistently", "statement": "For hierarchical load balancing with levels of given processes per part, the part numbers reported to the partitioner divide processes as asked: processes with the same part numbers on all levels up to some level are within as many consecutive ranks as were given for that level, exactly blocks of that many ranks if the number of processes of each level divides the ones of previous levels, and different processes are told apart if the last level has one process per part; levels that do not exist are errors.", "quantifier": "every number of processes and every list of processes per part", "why_tests_cant": "all combinations", "anchors": ["dccrg.hpp: Dccrg::get_part_number", "dccrg.hpp: Dccrg::add_partitioning_level"]}
{"id": "C52", "title": "Partitioner callbacks are consistent with each other", "statement": "The numbers of neighbors and hyperedge connections announced to the partitioner equal the number of entries later written for the same cells, so that the buffers are filled exactly; no cell lists itself or error_cell as a graph neighbor.", "quantifier": "every distribution and neighborhood", "why_tests_cant": "sizes are computed by separate functions", "anchors": ["dccrg.hpp: Dccrg::fill_number_of_neighbors_for_cells", "dccrg.hpp: Dccrg::fill_neighbor_lists", "dccrg.hpp: Dccrg::fill_number_of_hyperedges", "dccrg.hpp: Dccrg::fill_hyperedge_lists"]}
{"id": "C53", "title": "Repeated requests are idempotent and order independent where promised", "statement": "Calling refine_completely for the same cell twice is the same as calling it once; the set of cells refined by stop_refining does not depend on the order in which different cells' refine requests were made when there are no don't-requests.", "quantifier": "every state and every sequence of requests", "why_tests_cant": "all permutations of requests", "anchors": ["dccrg.hpp: Dccrg::refine_completely"]}
{"id": "C54", "title": "Cell weights", "statement": "get_cell_weight returns the last successfully set weight for a local cell, 1 if none has been set since the last load balance and NaN for a cell that is not an existing local cell; set_cell_weight fails without effect for non-existing or non-local cells; children of a refined cell inherit its weight and load balancing removes all weights.", "quantifier": "every history of setting weights, refining and balancing", "why_tests_cant": "all histories", "anchors": ["dccrg.hpp: Dccrg::set_cell_weight", "dccrg.hpp: Dccrg::get_cell_weight", "dccrg.hpp: Dccrg::execute_refines", "dccrg.hpp: Dccrg::initialize_balance_load"]}
{"id": "C55", "title": "Operations return in every reachable state", "statement": "In every state reachable by initializing a grid and calling its functions, every function of the grid returns instead of aborting, throwing or looping, provided that MPI supports as many message tags as there are possible cells, that the partitioner returns consistent lists and that the given neighborhood exists.", "quantifier": "every grid, every history of calls and every next call", "why_tests_cant": "all histories; loops in refinement and neighbor searches have no static bound", "anchors": ["dccrg.hpp: Dccrg::stop_refining", "dccrg.hpp: Dccrg::balance_load", "dccrg.hpp: Dccrg::update_copies_of_remote_neighbors", "dccrg.hpp: Dccrg::refine_completely"]}
{"id": "C56", "title": "Unrefinement happens only and always when it should", "statement": "A family of cells is replaced by its parent in stop_refining only if unrefine_completely returned true for one of its cells; and it is replaced if unrefine_completely returned true for one of them, no cell has been requested to be refined or not to be unrefined, the family exists and no cell in the parent's neighborhood is smaller than the family. If dont_refine has not been used, a family is replaced exactly when one of it has been requested, it exists, none of it is refined nor requested to be refined or not to be unrefined, and no cell in the parent's neighborhood is smaller than the family or will be after refinement; so unrefinement does not depend on the number of processes, on owners of cells or on the order of calls.", "quantifier": "every history of requests on all processes", "why_tests_cant": "all grids and request histories", "anchors": ["dccrg.hpp: Dccrg::unrefine_completely", "dccrg.hpp: Dccrg::stop_refining", "dccrg.hpp: Dccrg::override_unrefines"]}
{"id": "C57", "title": "A request to refine withdraws requests to unrefine nearby", "statement": "When refine_completely(c) returns true on a process and c can still be refined, earlier requests of that process to unrefine the siblings of c, or of any neighbor b of c (in either direction) not smaller than c, are withdrawn: unless unrefine_completely is called again for that family, the next stop_refining leaves it as it is, even if the request to refine c is itself overridden later by dont_refine.", "quantifier": "all grids, process counts, reachable states, cells c and b, and all sequences of other calls before and after", "why_tests_cant": "the effect shows only in histories where the refinement is cancelled later; tests exercise single requests", "anchors": ["dccrg.hpp: Dccrg::refine_completely", "dccrg.hpp: Dccrg::unrefine_completely", "dccrg.hpp: Dccrg::stop_refining"]}
{"id": "C58", "title": "Center of a cell given by refinement level and indices", "statement": "get_center(level, indices) of each geometry returns the center of the cell of that level at those indices, and NaN if the level or the indices are outside of the grid.", "quantifier": "every mapping, geometry, level and indices (exact arithmetic)", "why_tests_cant": "all levels and indices, boundaries included", "anchors": ["dccrg_cartesian_geometry.hpp: Cartesian_Geometry::get_center", "dccrg_no_geometry.hpp: No_Geometry::get_center", "dccrg_stretched_cartesian_geometry.hpp: Stretched_Cartesian_Geometry::get_center"]}
{"id": "C59", "title": "Stretched geometry agrees with the geometry it was created from", "statement": "A stretched geometry set from a Cartesian geometry of a grid of the same length gives the same sizes, centers and corners for every cell, and a geometry of a grid of different length is rejected; a stretched geometry for which set() has not been called has unit cells starting from the origin, whatever the length of the grid.", "quantifier": "every mapping, Cartesian geometry and cell (exact arithmetic)", "why_tests_cant": "all cells of all grids", "anchors": ["dccrg_stretched_cartesian_geometry.hpp: Stretched_Cartesian_Geometry::set", "dccrg_stretched_cartesian_geometry.hpp: Stretched_Cartesian_Geometry::reset"]}
{"id": "C60", "title": "Files of other byte order are refused", "statement": "A file written by save_grid_data on a machine of other byte order is not loaded: load_grid_data returns false and creates no cells.", "quantifier": "every saved grid, any numbers of processes, both byte orders", "why_tests_cant": "needs machines of both byte orders and all files", "anchors": ["dccrg.hpp: Dccrg::start_loading_grid_data", "dccrg.hpp: Dccrg::save_grid_data"]}
{"id": "C61", "title": "Options of hierarchical partitioning", "statement": "The value of an option of a level of hierarchical partitioning is the last one that was given, until the option or level is removed; adding, changing and removing options and levels does not affect other options and levels, except that levels after a removed one move by one; options reserved for the grid are never set; nothing happens when a level does not exist.", "quantifier": "every sequence of calls that add and remove levels and options, all names and values", "why_tests_cant": "all sequences of calls", "anchors": ["dccrg.hpp: Dccrg::add_partitioning_level", "dccrg.hpp: Dccrg::remove_partitioning_level", "dccrg.hpp: Dccrg::add_partitioning_option", "dccrg.hpp: Dccrg::remove_partitioning_option", "dccrg.hpp: Dccrg::get_partitioning_options", "dccrg.hpp: Dccrg::get_partitioning_option_value"]}
{"id": "C62", "title": "Split-phase updates of remote neighbors", "statement": "When processes start updates of remote neighbor data and later wait for them, each at its own pace and calculating in between, then after waiting for the receives of an update a process sees, for every remote neighbor, the data which its owner had when the owner started its corresponding update. This holds however messages are delivered, also when several updates with different neighborhoods are in progress, as long as cells being sent are not modified before sends have been waited for and no cell is received by two updates at a time. Waiting always ends once the other processes have started their updates.", "quantifier": "every reachable grid, any number of processes, updates and neighborhoods, every interleaving of calls of processes, changes to cell data and delivery of messages, one message per cell or per process", "why_tests_cant": "all interleavings of processes and of message delivery", "anchors": ["dccrg.hpp: Dccrg::start_remote_neighbor_copy_updates", "dccrg.hpp: Dccrg::start_remote_neighbor_copy_receives", "dccrg.hpp: Dccrg::start_remote_neighbor_copy_sends", "dccrg.hpp: Dccrg::wait_remote_neighbor_copy_updates", "dccrg.hpp: Dccrg::wait_remote_neighbor_copy_update_receives", "dccrg.hpp: Dccrg::wait_remote_neighbor_copy_update_sends"]}
{"id": "C63", "title": "Copying a grid", "statement": "A grid constructed as a copy of another, with other type of cell data or geometry, has the same cells on the same processes, with the same neighbors, process boundaries, neighborhoods, weights and pins, and transfers data of the same cells. Data of cells and of copies of remote neighbors in it are default constructed. Requests for refinement made with the original are not part of the copy. Everything that holds for grids created otherwise holds for the copy, as long as the original exists and isn't changed (C65).", "quantifier": "every reachable grid, all types of cell data", "why_tests_cant": "all states in which a grid can be copied and everything that can be done with the copy", "anchors": ["dccrg.hpp: Dccrg::Dccrg"]}
{"id": "C64", "title": "Stopping refinement without requests", "statement": "If no request to refine or unrefine cells has succeeded since the last stop_refining or load balancing, stop_refining returns no cells and changes no cells, owners, data of cells, pins, weights or neighborhoods. Copies of data of remote neighbors are default constructed again.", "quantifier": "every history of calls without requests to refine or unrefine after the last stop_refining or load balancing", "why_tests_cant": "all histories", "anchors": ["dccrg.hpp: Dccrg::stop_refining"]}
{"id": "C65", "title": "A copy of a grid does not depend on the original", "statement": "After a grid has been copied, whatever is done with the original, including destroying it, does not affect the copy, and whatever is done with the copy does not affect the original; this does not depend on whether types of the grids differ.", "quantifier": "all sequences of constructing, copying, changing and destroying grids", "why_tests_cant": "all sequences; dangling references are often unnoticed", "anchors": ["dccrg.hpp: Dccrg::Dccrg", "dccrg_mapping.hpp: Mapping::length", "dccrg.hpp: Dccrg::length", "dccrg.hpp: Dccrg::cells", "dccrg.hpp: Dccrg::get_number_of_cells"]}
{"id": "C66", "title": "Load balancing in several steps", "statement": "Load can be balanced by calling initialize_balance_load, then continue_balance_load any number of times, each transferring those parts of cell data that datatypes given by the user say, and finally finish_balance_load. The grid afterwards is the same as after balance_load except for values of cell data. Data of a cell that moved are what results from applying the transfers in order to default constructed data, including changes made by users to data of the cell on either process in between. Data of other cells are changed only by users. Transfers that together cover all data give the same result as balance_load. Between the first and last call the sets of cells reported as added and removed are exactly those that the process gains and loses. All this always completes if there are enough message tags.", "quantifier": "every reachable grid, result of the partitioner, number and contents of transfers, and changes of data in between", "why_tests_cant": "all sequences of transfers and changes of data, all grids and partitions", "anchors": ["dccrg.hpp: Dccrg::initialize_balance_load", "dccrg.hpp: Dccrg::continue_balance_load", "dccrg.hpp: Dccrg::finish_balance_load", "dccrg.hpp: Dccrg::get_cells_added_by_balance_load", "dccrg.hpp: Dccrg::get_cells_removed_by_balance_load"]}
{"id": "C67", "title": "Updating a part of data of remote neighbors", "statement": "When datatypes given by the user transfer only a part of cell data, updating copies of remote neighbors changes in every copy of a remote neighbor that part to what the owner of the cell has, and leaves the rest of the copy, all other copies and everything else as they were. Every remote neighbor has a copy.", "quantifier": "every reachable grid, neighborhood and choice of transferred parts", "why_tests_cant": "all grids and choices of parts", "anchors": ["dccrg.hpp: Dccrg::update_copies_of_remote_neighbors", "dccrg.hpp: Dccrg::start_user_data_transfers"]}
{"id": "C68", "title": "All cells of the grid", "statement": "get_all_cells returns on every process exactly the existing cells of the whole grid, each once, in increasing order if sorted is requested; the sorted list is the same on all processes.", "quantifier": "all grids, process counts and reachable states", "why_tests_cant": "every history of refinement and load balancing", "anchors": ["dccrg.hpp: Dccrg::get_all_cells", "dccrg.hpp: Dccrg::get_child"]}
{"id": "C69", "title": "Cells removed by unrefinement", "statement": "After stop_refining, get_removed_cells returns on a process exactly the cells that existed before, don't exist any more and whose parent is now a cell of the process, each once and sorted if requested. The list stays the same whatever else is done until stop_refining, load balancing or clear_refined_unrefined_data, and is empty after the latter two and in a copy of the grid.", "quantifier": "all grids, process counts, request histories and later operations", "why_tests_cant": "families split between processes, all orders of operations", "anchors": ["dccrg.hpp: Dccrg::get_removed_cells", "dccrg.hpp: Dccrg::stop_refining", "dccrg.hpp: Dccrg::clear_refined_unrefined_data"]}
{"id": "C70", "title": "Numbers of cells in updates", "statement": "get_number_of_update_receive_cells is the number of cells of other processes that are neighbors of cells of the process, get_number_of_update_send_cells the number of pairs of a cell of the process and another process which has a cell whose neighbor it is; over all processes the totals are equal. Both are the largest uint64_t for a neighborhood that doesn't exist.", "quantifier": "all grids, process counts, reachable states and neighborhoods", "why_tests_cant": "all partitions and neighborhoods", "anchors": ["dccrg.hpp: Dccrg::get_number_of_update_send_cells", "dccrg.hpp: Dccrg::get_number_of_update_receive_cells"]}
{"id": "C71", "title": "Requests at coordinates", "statement": "refine_completely_at, unrefine_completely_at and dont_unrefine_at do the same and return the same as the functions without _at called for the existing cell which contains the coordinate; outside of the grid they return false and change nothing.", "quantifier": "all grids, reachable states, processes, earlier requests and coordinates (exact arithmetic)", "why_tests_cant": "all coordinates, cell boundaries included", "anchors": ["dccrg.hpp: Dccrg::refine_completely_at", "dccrg.hpp: Dccrg::unrefine_completely_at", "dccrg.hpp: Dccrg::dont_unrefine_at", "dccrg.hpp: Dccrg::get_existing_cell"]}
{"id": "C72", "title": "Cells in a box", "statement": "find_cells returns exactly the existing cells between given refinement levels that overlap the given box of indices, each once, in order of where they start in the box: x first, then y, then z.", "quantifier": "all grids, sets of existing cells, boxes and ranges of refinement levels", "why_tests_cant": "all mixtures of refinement levels and all boxes", "anchors": ["dccrg.hpp: Dccrg::find_cells"]}
{"id": "C73", "title": "Neighbors at an offset", "statement": "get_neighbors_of_at_offset returns for a cell of the process exactly those neighbors that are in the region of the size of the cell at the given offset, and nothing for other cells, zero offset and offsets outside of the neighborhood.", "quantifier": "all grids, process counts, reachable states, cells and offsets", "why_tests_cant": "all mixtures of refinement levels and periodicities", "anchors": ["dccrg.hpp: Dccrg::get_neighbors_of_at_offset", "dccrg.hpp: Dccrg::indices_from_neighborhood"]}
{"id": "C74", "title": "Settings of a grid", "statement": "After any sequence of calls that configure a grid, each setting (periodicity, neighborhood length, load balancing method, sending of single cells, maximum refinement level) has the value given last by an accepted call, or its default; the length of the grid is the first one that was accepted. Calls that are rejected change nothing.", "quantifier": "all sequences of setup calls with any arguments, accepted or not", "why_tests_cant": "all orders of calls", "anchors": ["dccrg.hpp: Dccrg::set_initial_length", "dccrg.hpp: Dccrg::set_maximum_refinement_level", "dccrg.hpp: Dccrg::set_periodic", "dccrg.hpp: Dccrg::set_neighborhood_length", "dccrg.hpp: Dccrg::set_load_balancing_method", "dccrg.hpp: Dccrg::set_send_single_cells"]}
{"id": "C75", "title": "Initialization happens once", "statement": "initialize succeeds exactly if a length has been accepted and initialize has not been called before; a failed initialize can be repeated after correcting the settings; after initialize, and after loading a grid, length and maximum refinement level can't be changed anymore.", "quantifier": "all sequences of setup calls, initialize calls and loads", "why_tests_cant": "all orders of calls", "anchors": ["dccrg.hpp: Dccrg::initialize", "dccrg.hpp: Dccrg::set_initial_length", "dccrg.hpp: Dccrg::set_maximum_refinement_level", "dccrg.hpp: Dccrg::start_loading_grid_data"]}
{"id": "C76", "title": "Ids of accepted grids fit into 64 bits", "statement": "If all setup calls were accepted then ids of all cells that the grid can have fit into 64 bits.", "quantifier": "all sequences of accepted setup calls", "why_tests_cant": "all lengths, levels and orders of calls", "anchors": ["dccrg.hpp: Dccrg::set_initial_length", "dccrg.hpp: Dccrg::set_maximum_refinement_level", "dccrg_mapping.hpp: Mapping::set_length", "dccrg_mapping.hpp: Mapping::set_maximum_refinement_level"]}
{"id": "C77", "title": "Initial cells along a space-filling curve", "statement": "When built with a space-filling curve, initialize creates every cell of level 0 once and gives each process a contiguous piece of the curve; sizes of pieces differ by at most one, larger ones first; the result does not depend on the number of caching batches, and can be reached also without the curve by load balancing.", "quantifier": "all grid lengths, process counts, curves that visit every cell once, numbers of batches above 0", "why_tests_cant": "all lengths, process counts and numbers of batches", "anchors": ["dccrg.hpp: Dccrg::create_level_0_cells", "dccrg.hpp: Dccrg::initialize"]}
{"id": "C78", "title": "Files for visualization", "statement": "write_vtk_file writes on every process a VTK file which contains exactly the local cells, each once, in ascending order, and in which every cell is a voxel whose eight corners are the corners of the cell in the geometry of the grid.", "quantifier": "all grids, process counts, reachable states and geometries", "why_tests_cant": "all sets of local cells, including more cells than fit into narrower types", "anchors": ["dccrg.hpp: Dccrg::write_vtk_file", "dccrg.hpp: Dccrg::get_cells"]}
{"id": "C79", "title": "Neighbor searches never overflow", "statement": "Searches for neighbors (find_neighbors_of, find_neighbors_to, neighbors across faces, get_existing_cell, is_neighbor) calculated with the integer types of the code (int, uint64_t) return the exact neighbors and never execute undefined behavior, for every grid whose cell ids fit into 64 bits.", "quantifier": "all grids whose ids fit into 64 bits, reachable states, cells and neighborhoods", "why_tests_cant": "lengths and indices near the limits of their types", "anchors": ["dccrg.hpp: Dccrg::find_neighbors_of", "dccrg.hpp: Dccrg::find_neighbors_to", "dccrg.hpp: Dccrg::indices_from_neighborhood", "dccrg.hpp: Dccrg::get_existing_cell", "dccrg.hpp: Dccrg::is_neighbor"]}
{"id": "C80", "title": "Stored information is never out of date", "statement": "Neighbors of cells, neighbors across faces, cells on process boundaries, lists of cells to send and receive in updates, and iterators over cells are stored by processes. What functions return is always what existing cells, their owners and neighborhoods imply at that time, after any history of operations including copying the grid; processes agree on lists of cells to send and receive. Iterators are available for every neighborhood that exists and for none that has been removed.", "quantifier": "all grids, process counts, histories of operations, cells and neighborhoods", "why_tests_cant": "all histories; stale information is noticed only if it happens to matter", "anchors": ["dccrg.hpp: Dccrg::update_neighbors", "dccrg.hpp: Dccrg::update_user_neighbors", "dccrg.hpp: Dccrg::update_remote_neighbor_info", "dccrg.hpp: Dccrg::recalculate_neighbor_update_send_receive_lists", "dccrg.hpp: Dccrg::update_cell_pointers", "dccrg.hpp: Dccrg::get_neighbors_of", "dccrg.hpp: Dccrg::get_face_neighbors_of", "dccrg.hpp: Dccrg::all_cells", "dccrg.hpp: Dccrg::remove_neighborhood"]}
{"id": "C81", "title": "Loaded grids are complete", "statement": "A grid that has been loaded from a file can be used like a grid that has been initialized: its processes have copies of remote neighbors, iterators go over its cells, lists of neighbors and boundaries are up to date, and all operations succeed, whatever was in the file and whatever is done with the grid later.", "quantifier": "all saved grids, numbers of writing and reading processes, and histories of operations after loading", "why_tests_cant": "all files and histories; grids without refined cells behave differently from others", "anchors": ["dccrg.hpp: Dccrg::start_loading_grid_data", "dccrg.hpp: Dccrg::load_cells", "dccrg.hpp: Dccrg::load_grid_data", "dccrg.hpp: Dccrg::local_cells", "dccrg.hpp: Dccrg::operator[]"]}
{"id": "C82", "title": "Geometry without rounding", "statement": "If start of the grid and lengths of cells are multiples of a power of two and are not too far from each other in size, then rounding of floating point numbers does not affect the geometry: positions and sizes of all cells, and indices and cells of all coordinates that are multiples of the same power, are exact. This includes default parameters and No_Geometry, which return equal numbers for all cells and coordinates, infinities and NaN included.", "quantifier": "all mappings, parameters that are such multiples, cells and coordinates (IEEE 754 binary64)", "why_tests_cant": "every operation may round; tests see a few coordinates", "anchors": ["dccrg_cartesian_geometry.hpp: Cartesian_Geometry::get_center", "dccrg_cartesian_geometry.hpp: Cartesian_Geometry::get_cell", "dccrg_cartesian_geometry.hpp: Cartesian_Geometry::get_real_coordinate", "dccrg_cartesian_geometry.hpp: Cartesian_Geometry::get_indices", "dccrg_no_geometry.hpp: No_Geometry::get_center", "dccrg_no_geometry.hpp: No_Geometry::get_cell"]}
{"id": "C83", "title": "Rounding errors of geometry", "statement": "For parameters that don't overflow or vanish, lengths of cells are exact, centers, corners and the end of the grid are within a few rounding errors of exact ones, centers are between corners, and a coordinate more than three rounding errors inside of a cell is located in the cell. A rounding error is 2^-53 times the distance of the start of the grid from zero plus the length of the grid.", "quantifier": "all mappings, moderate parameters, cells and coordinates (IEEE 754 binary64)", "why_tests_cant": "errors of several operations add up; worst cases are not known beforehand", "anchors": ["dccrg_cartesian_geometry.hpp: Cartesian_Geometry::get_length", "dccrg_cartesian_geometry.hpp: Cartesian_Geometry::get_center", "dccrg_cartesian_geometry.hpp: Cartesian_Geometry::get_min", "dccrg_cartesian_geometry.hpp: Cartesian_Geometry::get_max", "dccrg_cartesian_geometry.hpp: Cartesian_Geometry::get_end", "dccrg_cartesian_geometry.hpp: Cartesian_Geometry::get_cell"]}
{"id": "C84", "title": "Centers of cells are located in the cells, with rounding", "statement": "The center returned for a cell is located in the cell, for all accepted parameters of the geometry, with floating point numbers.", "quantifier": "all mappings, accepted parameters and cells (IEEE 754 binary64)", "why_tests_cant": "fails only for extreme ratios of start and length", "anchors": ["dccrg_cartesian_geometry.hpp: Cartesian_Geometry::get_center", "dccrg_cartesian_geometry.hpp: Cartesian_Geometry::get_cell", "dccrg_cartesian_geometry.hpp: Cartesian_Geometry::set"]}
{"id": "C85", "title": "Coordinates in periodic grids, with rounding", "statement": "In a periodic dimension every coordinate is in the same cell as its image inside of the grid, with floating point numbers.", "quantifier": "all mappings, parameters and coordinates (IEEE 754 binary64)", "why_tests_cant": "fails for coordinates that tests don't use: very close to faces, or far away", "anchors": ["dccrg_cartesian_geometry.hpp: Cartesian_Geometry::get_real_coordinate", "dccrg_cartesian_geometry.hpp: Cartesian_Geometry::get_cell"]}
{"id": "C86", "title": "Locating coordinates is defined", "statement": "Indices and cells of all coordinates are defined, whatever the coordinate and for all parameters that the geometry accepts: no number that doesn't fit is converted to an integer.", "quantifier": "all mappings, accepted parameters and coordinates, infinities and NaN included (IEEE 754 binary64)", "why_tests_cant": "undefined behavior of conversions isn't visible in tests", "anchors": ["dccrg_cartesian_geometry.hpp: Cartesian_Geometry::get_indices", "dccrg_cartesian_geometry.hpp: Cartesian_Geometry::get_cell", "dccrg_cartesian_geometry.hpp: Cartesian_Geometry::set"]}
{"id": "C87", "title": "Debug builds behave like release builds", "statement": "No self-check of debug builds ever fails and none changes what functions do: after every history of operations whose arguments follow the documentation, where load is balanced by balance_load, the next operation has the same effect, return value and error in a debug build as in a release build.", "quantifier": "all grids, process counts, histories of operations, arguments and answers of the partitioner", "why_tests_cant": "all histories; a check that fails wrongly only in rare states ends a program that works otherwise", "anchors": ["dccrg.hpp: Dccrg::verify_neighbors", "dccrg.hpp: Dccrg::verify_remote_neighbor_info", "dccrg.hpp: Dccrg::verify_user_data", "dccrg.hpp: Dccrg::is_consistent", "dccrg.hpp: Dccrg::pin_requests_succeeded", "dccrg.hpp: Dccrg::execute_refines", "dccrg.hpp: Dccrg::update_neighbors"]}
{"id": "C88", "title": "Verification notices inconsistent processes", "statement": "If is_consistent returns true then the same cells exist on the same processes for all processes.", "quantifier": "all states of all processes, also ones that are not reachable", "why_tests_cant": "all combinations of states of processes", "anchors": ["dccrg.hpp: Dccrg::is_consistent"]}
{"id": "C89", "title": "Pointers to data are valid", "statement": "operator[] gives a pointer exactly for cells whose data the process has, to a different object for every cell. Pointers in items of iterators, of cells and of their neighbors, are those given by operator[] at any time, never null for cells and for neighbors of local cells. Members that users add to items have values for the current grid. A pointer that a user has kept stays valid as long as its cell stays on the process; pointers to copies of remote neighbors stay valid until the grid or its partition changes.", "quantifier": "all grids, process counts, histories of operations, answers of the partitioner, neighborhoods and functions for additional members", "why_tests_cant": "all histories; a pointer to erased data or data of another cell usually seems to work", "anchors": ["dccrg.hpp: Dccrg::operator[]", "dccrg.hpp: Dccrg::update_cell_pointers", "dccrg.hpp: Dccrg::Cells_Item", "dccrg.hpp: Dccrg::Neighbors_Item", "dccrg.hpp: Dccrg::allocate_copies_of_remote_neighbors", "dccrg.hpp: Dccrg::execute_refines", "dccrg.hpp: Dccrg::finish_balance_load", "dccrg.hpp: Dccrg::add_neighborhood", "dccrg.hpp: Dccrg::remove_neighborhood"]}
{"id": "C90", "title": "Stretched geometry without rounding", "statement": "If the start of the grid and lengths of the smallest cells of a stretched geometry are multiples of a power of two and coordinates are not too far from each other in size, then rounding of floating point numbers does not affect the geometry: positions and sizes of all cells are exact, and every coordinate, also one that is not such a multiple, is located as in exact numbers; infinities and NaN are in no cell.", "quantifier": "all mappings, coordinates of the grid that are such multiples, cells and coordinates to locate (IEEE 754 binary64)", "why_tests_cant": "every operation may round; tests see a few coordinates", "anchors": ["dccrg_stretched_cartesian_geometry.hpp: Stretched_Cartesian_Geometry::get_center", "dccrg_stretched_cartesian_geometry.hpp: Stretched_Cartesian_Geometry::get_length", "dccrg_stretched_cartesian_geometry.hpp: Stretched_Cartesian_Geometry::get_indices", "dccrg_stretched_cartesian_geometry.hpp: Stretched_Cartesian_Geometry::get_cell", "dccrg_stretched_cartesian_geometry.hpp: Stretched_Cartesian_Geometry::get_real_coordinate"]}
{"id": "C91", "title": "Rounding errors of stretched geometry", "statement": "For coordinates that don't overflow or vanish in calculations, start and end of the grid are exact, lengths of cells have a relative error of at most 2^-53, centers and corners are within six rounding errors of exact ones, centers are between corners, and a coordinate more than four rounding errors inside of a cell is located in the cell. A rounding error is 2^-53 times the distance of the level 0 cell from zero plus its length.", "quantifier": "all mappings, moderate coordinates of the grid, cells and coordinates to locate (IEEE 754 binary64)", "why_tests_cant": "errors of several operations add up; worst cases are not known beforehand", "anchors": ["dccrg_stretched_cartesian_geometry.hpp: Stretched_Cartesian_Geometry::get_center", "dccrg_stretched_cartesian_geometry.hpp: Stretched_Cartesian_Geometry::get_length", "dccrg_stretched_cartesian_geometry.hpp: Stretched_Cartesian_Geometry::get_min", "dccrg_stretched_cartesian_geometry.hpp: Stretched_Cartesian_Geometry::get_max", "dccrg_stretched_cartesian_geometry.hpp: Stretched_Cartesian_Geometry::get_indices", "dccrg_stretched_cartesian_geometry.hpp: Stretched_Cartesian_Geometry::get_cell"]}
{"id": "C92", "title": "Centers of cells are located in the cells of a stretched geometry, with rounding", "statement": "The center returned for a cell is located in the cell, for all accepted coordinates of a stretched geometry, with floating point numbers.", "quantifier": "all mappings, accepted coordinates of the grid and cells (IEEE 754 binary64)", "why_tests_cant": "fails only for extreme ratios of coordinates and lengths", "anchors": ["dccrg_stretched_cartesian_geometry.hpp: Stretched_Cartesian_Geometry::get_center", "dccrg_stretched_cartesian_geometry.hpp: Stretched_Cartesian_Geometry::get_cell", "dccrg_stretched_cartesian_geometry.hpp: Stretched_Cartesian_Geometry::set"]}
{"id": "C93", "title": "Locating coordinates in a stretched geometry returns", "statement": "get_indices and get_cell of a stretched geometry return, for every coordinate and for all coordinates of the grid that set accepts; a coordinate in the grid is located in a cell of the grid that contains it.", "quantifier": "all mappings, accepted coordinates of the grid and coordinates to locate, infinities and NaN included (IEEE 754 binary64)", "why_tests_cant": "endless loops appear only for coordinates that tests don't use", "anchors": ["dccrg_stretched_cartesian_geometry.hpp: Stretched_Cartesian_Geometry::get_indices", "dccrg_stretched_cartesian_geometry.hpp: Stretched_Cartesian_Geometry::get_cell", "dccrg_stretched_cartesian_geometry.hpp: Stretched_Cartesian_Geometry::set"]}
{"id": "C94", "title": "Stretched geometry from a Cartesian one, with rounding", "statement": "A stretched geometry can be set from every Cartesian geometry of a grid of the same length, and its cells are then the same up to rounding errors.", "quantifier": "all mappings and accepted parameters of the Cartesian geometry (IEEE 754 binary64)", "why_tests_cant": "fails only for extreme ratios of start and length", "anchors": ["dccrg_stretched_cartesian_geometry.hpp: Stretched_Cartesian_Geometry::set", "dccrg_cartesian_geometry.hpp: Cartesian_Geometry::get_start"]}
{"id": "C95", "title": "The cell at a coordinate", "statement": "get_existing_cell, refine_completely_at, unrefine_completely_at and dont_unrefine_at with a coordinate act on the existing cell that get_cell of the geometry finds at the coordinate for the refinement level of that cell, and do nothing if there is no such cell. A coordinate a few rounding errors inside of an existing cell, or a number of periods away from such a coordinate, leads to that cell.", "quantifier": "all geometries, parameters and coordinates (IEEE 754 binary64), grids, process counts and histories of operations", "why_tests_cant": "all combinations of grids and coordinates; floating point rounding", "anchors": ["dccrg.hpp: Dccrg::get_existing_cell", "dccrg.hpp: Dccrg::refine_completely_at", "dccrg.hpp: Dccrg::unrefine_completely_at", "dccrg.hpp: Dccrg::dont_unrefine_at"]}
{"id": "C96", "title": "Requests at centers of cells", "statement": "A request at the center of an existing cell, as returned by the geometry, is a request for that cell, for all accepted parameters.", "quantifier": "all geometries, accepted parameters, existing cells, grids, process counts and histories of operations (IEEE 754 binary64)", "why_tests_cant": "fails only for extreme ratios of start and length", "anchors": ["dccrg.hpp: Dccrg::refine_completely_at", "dccrg.hpp: Dccrg::unrefine_completely_at", "dccrg.hpp: Dccrg::dont_unrefine_at", "dccrg_cartesian_geometry.hpp: Cartesian_Geometry::get_center", "dccrg_stretched_cartesian_geometry.hpp: Stretched_Cartesian_Geometry::get_center"]}
{"id": "C97", "title": "Results do not depend on timing of processes", "statement": "If processes make the calls that all of them must make in the same order, and any other calls between them, then whatever the speed of processes and whether MPI buffers messages or not: no process waits forever, no exception is thrown, and what each process stores and what users' programs return are the same. Users' programs may decide what to call from what their process stores.", "quantifier": "all user programs, timings of processes, buffering by MPI, grids, process counts and histories of operations", "why_tests_cant": "timing is chosen by the machine; a deadlock needs an unlucky schedule", "anchors": ["dccrg.hpp: Dccrg::stop_refining", "dccrg.hpp: Dccrg::override_refines", "dccrg.hpp: Dccrg::induce_refines", "dccrg.hpp: Dccrg::override_unrefines", "dccrg.hpp: Dccrg::execute_refines", "dccrg.hpp: Dccrg::balance_load", "dccrg.hpp: Dccrg::update_pin_requests", "dccrg.hpp: Dccrg::update_copies_of_remote_neighbors", "dccrg.hpp: Dccrg::start_user_data_transfers", "dccrg_mpi_support.hpp: All_Gather, All_Reduce"]}
{"id": "C98", "title": "Saving that is interrupted", "statement": "If the program or the computer stops while a grid is being saved, other grids in the same file, before or after the one being saved, are loaded as before, and the file of the interrupted grid is not loaded as if it was complete.", "quantifier": "all grids, process counts, datatypes and points at which saving stops, with any of the bytes of unfinished writes in the file", "why_tests_cant": "needs a crash at every point of every save; which bytes reach the file is up to the system", "anchors": ["dccrg.hpp: Dccrg::save_grid_data", "dccrg.hpp: Dccrg::load_grid_data", "dccrg.hpp: Dccrg::start_loading_grid_data"]}
{"id": "C99", "title": "Transferred bytes", "statement": "When data of cells are transferred between processes, the bytes described by get_mpi_datatype of the cell on the receiving process get, in order, the values of bytes described by get_mpi_datatype of the cell on the sending process, which are called with the id of the cell, both processes and the neighborhood. No other byte of any process changes. The result is the same whether one message is sent per cell or one for all cells (set_send_single_cells), and in whatever order messages are delivered.", "quantifier": "all cells, lists of cells, datatypes, addresses of data, contents of memory, numbers of processes and orders of delivery, one message per cell or for all cells", "why_tests_cant": "all layouts of memory and all orders of delivery", "anchors": ["dccrg.hpp: Dccrg::start_user_data_receives", "dccrg.hpp: Dccrg::start_user_data_sends", "dccrg.hpp: Dccrg::set_send_single_cells", "dccrg.hpp: Dccrg::update_copies_of_remote_neighbors"]}
{"id": "C100", "title": "The version of get_mpi_datatype that is used", "statement": "A class of cell data with any of the documented versions of get_mpi_datatype can be used. If it has several, one that takes arguments has precedence over ones without. Without any, all bytes of basic types and of arrays of them are transferred.", "quantifier": "all classes of cell data, all basic types, lengths of arrays and arguments", "why_tests_cant": "all combinations of member functions; a test compiles a few of them", "anchors": ["dccrg_get_cell_datatype.hpp: get_cell_mpi_datatype", "dccrg_get_cell_datatype.hpp: get_mpi_datatype_basic"]}
{"id": "C101", "title": "Saving and loading do not depend on timing of processes", "statement": "If all processes call save_grid_data, or load_grid_data or its parts, with the arguments that must be identical, then whatever the speed of processes and however long MPI lets them wait: the call returns on every process, the file after saving is the same, whatever the order in which writes of processes happen, and the loaded grid and the returned value are the same. Only process 0 needs to give a header when saving.", "quantifier": "all grids, process counts when saving and when loading, headers, datatypes, lists of cells to write, timings of processes, orders of writes, and files", "why_tests_cant": "timing is chosen by the machine; a deadlock or a race needs an unlucky schedule", "anchors": ["dccrg.hpp: Dccrg::save_grid_data", "dccrg.hpp: Dccrg::load_grid_data", "dccrg.hpp: Dccrg::start_loading_grid_data", "dccrg.hpp: Dccrg::continue_loading_grid_data", "dccrg.hpp: Dccrg::finish_loading_grid_data", "dccrg.hpp: Dccrg::load_cells"]}
{"id": "C102", "title": "Failures of a process when saving or loading are not hidden", "statement": "If save_grid_data or load_grid_data fails on one process then it returns on no process as if it had succeeded, whatever the speed of processes: if a cell to be saved isn't a local cell of the process that was asked to save it, or if an id is missing in the file, or cells of a process are not in the file.", "quantifier": "all arguments, files, grids, process counts and timings of processes", "why_tests_cant": "depends on the timing of processes after one of them failed", "anchors": ["dccrg.hpp: Dccrg::save_grid_data", "dccrg.hpp: Dccrg::load_grid_data", "dccrg.hpp: Dccrg::start_loading_grid_data"]}
{"id": "C103", "title": "Requests while load is being balanced", "statement": "Between initialize_balance_load and finish_balance_load every process may request cells to be refined, unrefined, not refined or not unrefined, set weights and pins, and change data, any number of times and between any calls of continue_balance_load. All functions return, the grid after load balancing is that of balance_load, and the next stop_refining does what it would do if the requests had been made after load balancing: what was requested is refined unless forbidden, nothing else is, and so on, also if a cell that was requested to be refined is moved to another process meanwhile.", "quantifier": "all histories, partitionings, process counts, orders and numbers of calls on any processes between the phases", "why_tests_cant": "requests are stored by one process and carried out by another one; needs combinations of histories, requests and movements of cells", "anchors": ["dccrg.hpp: Dccrg::initialize_balance_load", "dccrg.hpp: Dccrg::continue_balance_load", "dccrg.hpp: Dccrg::finish_balance_load", "dccrg.hpp: Dccrg::refine_completely", "dccrg.hpp: Dccrg::unrefine_completely", "dccrg.hpp: Dccrg::stop_refining"]}
{"id": "C104", "title": "The last request to pin a cell wins also while load is being balanced", "statement": "If pin returned true between the phases of load balancing and there were no later requests to pin or unpin the cell, it will be on the given process after next load balancing; if unpin returned true, it goes where the partitioner tells.", "quantifier": "all histories, partitionings, process counts, orders and numbers of calls between the phases", "why_tests_cant": "needs combinations of histories, requests and movements of cells between processes", "anchors": ["dccrg.hpp: Dccrg::pin", "dccrg.hpp: Dccrg::unpin", "dccrg.hpp: Dccrg::update_pin_requests", "dccrg.hpp: Dccrg::initialize_balance_load", "dccrg.hpp: Dccrg::finish_balance_load"]}
{"id": "C105", "title": "Load can be balanced in phases any number of times", "statement": "In every history in which operations on the grid alternate in any order with load balancing in phases, with any calls of single processes between the phases, all operations return, processes agree about owners of cells, every point of the grid is in exactly one cell, neighbors differ by at most one refinement level, data of every cell is on its owner only, updates give remote neighbors the data of their owners, cells go to the process they are pinned to, and stop_refining refines and unrefines what has been requested since the start of the last load balancing or the last stop_refining.", "quantifier": "all histories, including copies, partitionings, process counts, and calls between the phases", "why_tests_cant": "what a process remembers from one load balancing can disturb the next operations; needs combinations of histories", "anchors": ["dccrg.hpp: Dccrg::initialize_balance_load", "dccrg.hpp: Dccrg::continue_balance_load", "dccrg.hpp: Dccrg::finish_balance_load", "dccrg.hpp: Dccrg::stop_refining", "dccrg.hpp: Dccrg::update_copies_of_remote_neighbors", "dccrg.hpp: Dccrg::get_neighbors_of"]}
{"id": "C106", "title": "Load balancing in phases does not depend on timing of processes", "statement": "If all processes call initialize_balance_load, continue_balance_load any number of times and finish_balance_load, with any calls of single processes in between and any operations before and after, then whatever the speed of processes: the calls return on every process, what user programs see on their processes and return is the same, and so is the grid at the end, which is that of balance_load if all data of cells has been transferred.", "quantifier": "all programs of users that decide what to call from the state of their process, histories, partitionings, process counts and timings of processes", "why_tests_cant": "timing is chosen by the machine; a deadlock or a race needs an unlucky schedule", "anchors": ["dccrg.hpp: Dccrg::initialize_balance_load", "dccrg.hpp: Dccrg::continue_balance_load", "dccrg.hpp: Dccrg::finish_balance_load", "dccrg.hpp: Dccrg::make_new_partition", "dccrg.hpp: Dccrg::start_user_data_transfers"]}
{"id": "C107", "title": "Lists kept by processes are up to date also when load is balanced in phases", "statement": "In every history in which operations on the grid alternate in any order with load balancing in phases, with any calls of single processes between the phases, storing never fails and neighbors, face neighbors, cells on process boundaries and lists of cells to send and receive that functions return are those of the current grid; lists of different processes agree; iterators are never out of date and exist for all neighborhoods, except in a copy of a grid before its next refinement or load balancing, where they exist for the default neighborhood. Between the phases neighbors are those before load balancing, cells to send and receive are those that move, and functions that return cells on process boundaries return none, or throw if given another neighborhood.", "quantifier": "all histories, including copies, partitionings, process counts, neighborhoods, and calls between the phases", "why_tests_cant": "a list that is forgotten to be recalculated or cleared is only seen by later calls; needs combinations of histories", "anchors": ["dccrg.hpp: Dccrg::initialize_balance_load", "dccrg.hpp: Dccrg::finish_balance_load", "dccrg.hpp: Dccrg::get_neighbors_of", "dccrg.hpp: Dccrg::get_local_cells_on_process_boundary", "dccrg.hpp: Dccrg::get_cells_to_send", "dccrg.hpp: Dccrg::update_cell_pointers"]}
{"id": "C108", "title": "Debug builds do the same when load is balanced in phases", "statement": "In every history in which load is also balanced in phases, with any calls of single processes in between, debug builds do the same as release builds: no check under DEBUG fails in any operation, in any phase of load balancing, in calls between the phases, and in the functions that verify the grid.", "quantifier": "all histories, partitionings, process counts, and calls between the phases", "why_tests_cant": "debug checks depend on everything that has been stored before, on every process; needs combinations of histories", "anchors": ["dccrg.hpp: Dccrg::initialize_balance_load", "dccrg.hpp: Dccrg::continue_balance_load", "dccrg.hpp: Dccrg::finish_balance_load", "dccrg.hpp: Dccrg::update_pin_requests", "dccrg.hpp: Dccrg::is_consistent", "dccrg.hpp: Dccrg::verify_neighbors"]}
{"id": "C109", "title": "Pointers to data of cells are valid also when load is balanced in phases", "statement": "In every history in which load is also balanced in phases, with any calls of single processes in between, objects of cells never make a call fail; operator[] gives a pointer exactly for cells whose data the process has and different pointers for different cells; pointers in items of iterators are those operator[] gives, at every time, also between phases; pointers to cells that stay on their process stay valid, pointers to arriving cells obtained between phases are valid after the last phase.", "quantifier": "all histories, including copies, partitionings, process counts, neighborhoods, and calls between the phases", "why_tests_cant": "a dangling pointer usually still shows old data; needs combinations of histories and memory reuse", "anchors": ["dccrg.hpp: Dccrg::operator[]", "dccrg.hpp: Dccrg::initialize_balance_load", "dccrg.hpp: Dccrg::continue_balance_load", "dccrg.hpp: Dccrg::finish_balance_load", "dccrg.hpp: Dccrg::update_cell_pointers", "dccrg.hpp: Dccrg::all_cells"]}
{"id": "C110", "title": "Datatypes, requests and files of MPI are neither used after being freed nor left behind", "statement": "In every sequence of updates of remote neighbors, load balancing and refinement, saving and loading, every datatype is committed before it is used for communication or in files, no datatype is used or freed after it has been freed, every request is waited for exactly once, also if new transfers are started before earlier ones have been waited for, no file is used after it has been closed; nothing is left behind: datatypes that cells return and that dccrg makes are freed, files are closed, datatypes, requests and files of users are not touched.", "quantifier": "all sequences of calls, numbers of cells and processes, orders in which messages are posted, and datatypes returned by cells, named, derived, committed or not", "why_tests_cant": "leaks and uses after free are silent with most implementations of MPI and depend on datatypes of users", "anchors": ["dccrg.hpp: Dccrg::start_user_data_receives", "dccrg.hpp: Dccrg::start_user_data_sends", "dccrg.hpp: Dccrg::wait_user_data_transfer_receives", "dccrg.hpp: Dccrg::save_grid_data", "dccrg.hpp: Dccrg::start_loading_grid_data", "dccrg.hpp: Dccrg::continue_loading_grid_data", "dccrg.hpp: Dccrg::finish_loading_grid_data"]}
{"id": "C111", "title": "Views of files put bytes of every cell to its place", "statement": "For whatever address, count and datatype cells return, the view of the file that each process sets when it saves or loads data of cells is one that MPI allows; writing or reading all cells of a process at once gives the same as writing or reading every cell at its own place: the j-th byte a cell describes is j bytes after the place of the cell in the file, paddings in memory are not in the file, other bytes of the file and of memory do not change; a grid that has been saved and is loaded, with any number of calls of continue_loading_grid_data, has its data in objects of cells.", "quantifier": "all lists of cells, addresses, counts, datatypes of cells, contents of files and of memory, and numbers of calls and processes", "why_tests_cant": "overlapping or unordered views depend on datatypes and orders of all cells of a process; implementations of MPI do not always report them", "anchors": ["dccrg.hpp: Dccrg::save_grid_data", "dccrg.hpp: Dccrg::continue_loading_grid_data", "dccrg.hpp: Dccrg::load_grid_data"]}
{"id": "C112", "title": "Saving given cells", "statement": "If lists of cells are given to save_grid_data, the file has exactly the given cells, each once and in order of rank, with their data where the list says, and nothing before the offset changes; a cell given by a process that does not have it is not saved quietly. If all cells of the grid are given, in any order, the file is loaded as if no lists had been given, and if some cell of the grid is missing from the file, loading does not return a grid on all processes.", "quantifier": "all grids, distributions, lists of cells, process counts when saving and loading and contents of the file before", "why_tests_cant": "lists are given by each process separately and every subset of cells and number of processes matters", "anchors": ["dccrg.hpp: Dccrg::save_grid_data", "dccrg.hpp: Dccrg::start_loading_grid_data", "dccrg.hpp: Dccrg::continue_loading_grid_data"]}
{"id": "C113", "title": "Every grid can be turned into every other", "statement": "Any arrangement of cells that covers the grid and in which refinement levels of neighbors differ by at most one can be made by refining and unrefining cells, starting from a grid in any state: there are calls to refine_completely, unrefine_completely and stop_refining, none of which fails, after which the grid has exactly those cells on every process.", "quantifier": "all states of grids, numbers of processes and neighborhood lengths, and all arrangements of cells", "why_tests_cant": "a claim about existence of calls for every pair of grids", "anchors": ["dccrg.hpp: Dccrg::refine_completely", "dccrg.hpp: Dccrg::unrefine_completely", "dccrg.hpp: Dccrg::stop_refining", "dccrg.hpp: Dccrg::dont_refine", "dccrg.hpp: Dccrg::balance_load"]}
{"id": "C114", "title": "Restarting any number of times", "statement": "A grid can be initialized, operated on, copied, saved, loaded by any other number of processes and operated on again any number of times and in any order: every operation and every restart succeeds, the grid is always in a state that it could have without restarts, and after any number of restarts in a row it has the same cells with the same data.", "quantifier": "all histories of operations, copies and restarts, numbers of processes of each run, contents of files before saving, orders of writes and classes of cells", "why_tests_cant": "histories with restarts on different numbers of processes are unbounded", "anchors": ["dccrg.hpp: Dccrg::save_grid_data", "dccrg.hpp: Dccrg::load_grid_data", "dccrg.hpp: Dccrg::start_loading_grid_data", "dccrg.hpp: Dccrg::stop_refining", "dccrg.hpp: Dccrg::balance_load"]}
{"id": "C115", "title": "Results of simulations do not depend on processes", "statement": "A simulation is a list of stages: updating remote neighbors and giving every cell new data that depends on its data and that of its neighbors; asking for cells to be refined, unrefined or not unrefined depending on their data, calling stop_refining and giving new children and parents data from that of their parents and children; and moving cells with any partitioning, pins and weights. If two runs of the same stages start from the same cells and data, for example from initialize, they end with the same cells and data, whatever the numbers of processes, owners of cells and orders in which processes handle their cells. Every stage can be performed, and functions that calculate new data always see current data of the cell and all of its neighbors.", "quantifier": "all lists of stages, functions that calculate data and decide on refinement, grids, numbers of processes, partitionings, pins, weights and orders of calls", "why_tests_cant": "compares runs with all pairs of process counts, partitionings and orders of calls", "anchors": ["dccrg.hpp: Dccrg::update_copies_of_remote_neighbors", "dccrg.hpp: Dccrg::get_neighbors_of", "dccrg.hpp: Dccrg::refine_completely", "dccrg.hpp: Dccrg::unrefine_completely", "dccrg.hpp: Dccrg::dont_unrefine", "dccrg.hpp: Dccrg::stop_refining", "dccrg.hpp: Dccrg::get_removed_cells", "dccrg.hpp: Dccrg::balance_load"]}
{"id": "C116", "title": "Calculating while data of remote neighbors is on its way", "statement": "If every process repeats: start updating remote neighbors, calculate inner cells, wait for receives, calculate outer cells, change inner cells, wait for sends, change outer cells, then for any number of turns, paces of processes and orders of messages no call fails, some process can always go on until all have finished, cells are not changed while they are being sent and copies are not read while they are being received, and all cells have the same data as if every turn was an update of remote neighbors followed by calculating all cells, on any number of processes.", "quantifier": "all grids, distributions, neighborhoods, numbers of turns, functions that calculate new data, interleavings of processes and of messages", "why_tests_cant": "depends on timing of all processes and messages, over several turns that can overlap on different processes", "anchors": ["dccrg.hpp: Dccrg::start_remote_neighbor_copy_updates", "dccrg.hpp: Dccrg::wait_remote_neighbor_copy_update_receives", "dccrg.hpp: Dccrg::wait_remote_neighbor_copy_update_sends", "dccrg.hpp: Dccrg::inner_cells", "dccrg.hpp: Dccrg::outer_cells", "examples/game_of_life.cpp: main"]}
{"id": "C117", "title": "Restarting a simulation does not change its results", "statement": "A simulation is a list of stages as in C115, and it can be interrupted any number of times between stages, saved with save_grid_data and continued by a program that loads the file with any other number of processes; classes of cells are such that loading a cell gives the data that was saved, and their datatypes are named or have a count of 1. If two runs of the same stages start from the same cells and data they end with the same cells and data, wherever each of them has been restarted, or if one of them has not been restarted at all. Every stage can be performed, also right after a restart, and the simulation can be restarted after every stage.", "quantifier": "all lists of stages, functions that calculate data and decide on refinement, grids, places and numbers of restarts, numbers of processes of each program, partitionings, orders of calls and of writes, contents of files before saving", "why_tests_cant": "compares runs with all combinations of stages, restarts and process counts; a loaded grid is made in a different way than the one that was saved", "anchors": ["dccrg.hpp: Dccrg::save_grid_data", "dccrg.hpp: Dccrg::load_grid_data", "dccrg.hpp: Dccrg::start_loading_grid_data", "dccrg.hpp: Dccrg::continue_loading_grid_data", "dccrg.hpp: Dccrg::update_copies_of_remote_neighbors", "dccrg.hpp: Dccrg::stop_refining", "dccrg.hpp: Dccrg::balance_load"]}
{"id": "C118", "title": "Programs that know the format of saved files can read them", "statement": "A program that knows the order in which save_grid_data writes (header, byte order, mapping, length of neighborhood, topology, geometry, number of cells, list of cells and places of their data, data of cells) reads from a file saved with a header of one 64-bit number and cells of one unsigned int, without creating a grid: the header, the members of the grid and every existing cell exactly once, with the data it had, on whatever process it was. Files from computers with the other byte order are skipped. The file that is written for visualization draws every cell between its minimum and maximum, with its data, if there are at most 2^29 cells. Each of the given files is converted by exactly one process.", "quantifier": "all grids with Cartesian geometry, histories, numbers of processes, data of cells, orders of writes and contents of the file before", "why_tests_cant": "places of data in the file are computed by each process from its own cells; every distribution of cells and order of writes matters", "anchors": ["dccrg.hpp: Dccrg::save_grid_data", "dccrg_mapping.hpp: Mapping::read", "dccrg_topology.hpp: Grid_Topology::read", "dccrg_cartesian_geometry.hpp: Cartesian_Geometry::read", "examples/dc2vtk.cpp: main", "examples/game_of_life_with_output.cpp: game_of_life_cell"]}
{"id": "C119", "title": "Cells on both sides of a face know each other", "statement": "A cell is a face neighbor of another in some direction exactly when the other is its face neighbor in the opposite direction, whatever processes are asked and whatever the sizes of cells, hence what cells of all processes lose through their faces is gained by others. Offsets of neighbors in iterators tell which neighbors share a face with a cell: those which overlap with the cell in two dimensions and touch it in the third are exactly the face neighbors of the cell, each once in each direction, and no neighbor overlaps with the cell in all dimensions.", "quantifier": "all grids and histories, numbers of processes, neighborhoods which have the six faces, cells and their neighbors, and amounts that are opposite on the two sides of a face", "why_tests_cant": "depends on sizes and places of all pairs of cells and on periodicity, where a cell can be several neighbors of another", "anchors": ["dccrg.hpp: Dccrg::get_face_neighbors_of", "dccrg.hpp: Dccrg::update_cell_pointers", "dccrg.hpp: Dccrg::find_neighbors_of", "tests/advection/solve.hpp: calculate_fluxes"]}
{"id": "C120", "title": "What is advected is conserved and does not depend on processes", "statement": "If calculations with real numbers are exact, the solver of the advection test (calculate fluxes of inner cells, update remote neighbors, calculate fluxes of outer cells, apply fluxes) succeeds in every state in which no refinement has been requested, adds to density of every cell exactly what comes through its faces from its face neighbors, on whatever processes they and copies of them are, each face once, and keeps other data. The total of density times volume over all cells of all processes does not change in any number of turns of any length, whichever cells are moved to other processes between turns. Programs that start from the same cells and data end with the same cells and data with any numbers of processes and owners of cells.", "quantifier": "all grids and histories, numbers of processes, data of cells, neighborhoods which have the six faces, lengths of turns and movements of cells between turns", "why_tests_cant": "a face between processes is handled by both and one between local cells by one of them, depends on all pairs of cells, their sizes and owners and on periodicity", "anchors": ["tests/advection/solve.hpp: calculate_fluxes", "tests/advection/solve.hpp: apply_fluxes", "tests/advection/2d.cpp: main", "dccrg.hpp: Dccrg::inner_cells", "dccrg.hpp: Dccrg::outer_cells", "dccrg.hpp: Dccrg::local_cells", "dccrg.hpp: Dccrg::update_copies_of_remote_neighbors"]}
{"id": "C121", "title": "Adapting the grid conserves what is advected", "statement": "In the advection test, whichever cells processes ask to be refined, not to be unrefined and to be unrefined, adapting the grid succeeds: cells that stay keep their density, new cells get the density of the cell that was refined and cells that replace unrefined cells get the average of their densities, also if those were on other processes, and copies of remote neighbors are up to date. Cells that processes ask to be refined are refined, with larger cells near them, and cells that they ask to be unrefined are unrefined if no other request, missing sibling or smaller cell nearby prevents that. The result is the same with any number of processes if the same requests are made. With exact calculations and a geometry of dccrg, the total of density times volume stays that of initial densities whatever turns, adaptations and movements of cells follow each other, and every turn and adaptation is possible.", "quantifier": "all grids with Cartesian or stretched geometry, histories, numbers of processes, initial densities, requests of cells, lengths of turns and movements of cells", "why_tests_cant": "removed cells go to the process of their parent and data of several processes is combined; all histories of turns and adaptations matter", "anchors": ["tests/advection/adapter.hpp: adapt_grid", "tests/advection/initialize.hpp: initialize", "tests/advection/2d.cpp: main", "dccrg.hpp: Dccrg::stop_refining", "dccrg.hpp: Dccrg::get_removed_cells", "dccrg.hpp: Dccrg::clear_refined_unrefined_data"]}
{"id": "C122", "title": "Results of the advection test do not depend on processes", "statement": "If calculations with real numbers are exact, the advection test (initial refinement of the grid, then steps that move densities, with adaptation of the grid on some of them, with loads balanced in any way between them) never fails, and two runs of it from grids with the same cells on any numbers of processes have after the same steps the same cells, the same data in them and the same length of the next step. On an adaptation exactly those cells are refined, in addition to larger cells near them, whose density before the step differs by more than the limit of their refinement level from a cell on the other side of a face with the same lower corner in other dimensions, and those are unrefined whose differences and differences of their siblings are below the lower limit, if no smaller cell would be near the result, on whatever processes the cells and their neighbors are. The length of every step is the largest with which nothing moves further than the length of its cell. The total of density times volume does not change.", "quantifier": "every grid, geometry, initial density, velocity, parameters, number of initial rounds, numbers of processes, partitions, sequences of steps with or without adaptation and operations between them that move cells", "why_tests_cant": "Tests run the program with few processes and look at pictures; whether a difference is seen by the right process depends on every partition", "anchors": ["tests/advection/adapter.hpp: check_for_adaptation", "tests/advection/solve.hpp: max_time_step", "tests/advection/2d.cpp: main"]}
{"id": "C123", "title": "Data of variable size is transferred in two updates", "statement": "If cells have a variable number of items and get_mpi_datatype describes either the number of items or the items, then updating copies of remote neighbors with the former, resizing copies of remote cells to the number that was received and updating copies with the latter succeeds and makes every copy of a remote neighbor equal to data of that cell on its process, whatever numbers of items were in copies before; nothing else changes. The same with continue_balance_load called twice and cells in get_cells_to_receive resized in between gives the same result as balance_load of data with a fixed size.", "quantifier": "all grids, states, numbers of processes and of items in cells (up to what fits in an int), moves of cells", "why_tests_cant": "numbers of items differ between cells, processes and times, and a wrong number leads to undefined behavior that most runs do not show", "anchors": ["dccrg.hpp: Dccrg::update_copies_of_remote_neighbors", "dccrg.hpp: Dccrg::remote_cells", "dccrg.hpp: Dccrg::continue_balance_load", "dccrg.hpp: Dccrg::get_cells_to_receive", "tests/particles/cell.hpp: Cell", "tests/particles/simple.cpp: main", "tests/variable_data_size/variable_data_size.cpp: main"]}
{"id": "C124", "title": "Results of the Poisson test do not depend on processes", "statement": "The solver of the Poisson test, started in any reachable state with any right hand side, solution and left over data, returns normally, and if the same cells are solved and the same cells are skipped then data of every cell afterwards are equal on any number of processes and for any distribution of cells. The grid, the right hand side and the solution in cells that are not solved do not change.", "quantifier": "all grids, lengths of cells, data, sets of cells to solve and to skip, stopping criteria, numbers of processes, partitions and histories of the grid", "why_tests_cant": "the solver exchanges different parts of data at several places of every iteration, and a value that was not exchanged gives a wrong result only for some partitions", "anchors": ["tests/poisson/poisson_solve.hpp: Poisson_Solve::solve", "tests/poisson/poisson_solve.hpp: Poisson_Solve::cache_system_info", "tests/poisson/poisson_solve.hpp: Poisson_Solve::initialize_solver", "tests/poisson/poisson_solve.hpp: Poisson_Cell"]}
{"id": "C125", "title": "What the Poisson test solves", "statement": "While the solver of the Poisson test iterates, the residual that it works with is what the current solution leaves of the right hand side in every cell to solve, where solutions of other cells are used and not changed. If the given solution is exact already then it is kept, and the result depends only on the right hand side and the solution given in cells.", "quantifier": "all grids, lengths of cells, data, sets of cells to solve and to skip, numbers of iterations, processes, partitions and histories of the grid", "why_tests_cant": "tests compare a few problems with analytic solutions within a tolerance, starting from fresh data", "anchors": ["tests/poisson/poisson_solve.hpp: Poisson_Solve::solve", "tests/poisson/poisson_solve.hpp: Poisson_Solve::initialize_solver"]}
{"id": "C126", "title": "The transpose of the matrix in the Poisson test", "statement": "In every iteration of the solver of the Poisson test, the product of one search direction with the matrix times the other search direction is equal to the product of the latter with the transpose of the matrix times the former, summed over cells of all processes.", "quantifier": "all grids, sizes of neighboring cells, lengths of cells, data, sets of cells to solve and to skip, numbers of iterations, processes, partitions and histories of the grid", "why_tests_cant": "the products are calculated from factors of different cells on different processes, and an error only slows down or stops convergence", "anchors": ["tests/poisson/poisson_solve.hpp: Poisson_Solve::solve", "tests/poisson/poisson_solve.hpp: Poisson_Solve::set_scaling_factor"]}
{"id": "C127", "title": "The equation that the Poisson test solves", "statement": "In every iteration of the solver of the Poisson test the residual in every cell to solve is its right hand side minus the sum over dimensions of the difference of slopes of the solution on both sides of the cell divided by half of the distance between neighbors, where slopes are towards the mean of the solution over cells on the other side of a face that are not skipped, whatever their number, sizes and processes. A uniform solution has no residual when the right hand side is zero.", "quantifier": "all grids, sizes of neighboring cells, lengths of cells, data, sets of cells to solve and to skip, numbers of iterations, processes, partitions and histories of the grid", "why_tests_cant": "factors of a face depend on sizes of cells on both sides of the cell and on which are skipped; tests compare a few problems with analytic solutions within a tolerance", "anchors": ["tests/poisson/poisson_solve.hpp: Poisson_Solve::set_scaling_factor", "tests/poisson/poisson_solve.hpp: Poisson_Solve::cache_system_info", "dccrg.hpp: Dccrg::get_face_neighbors_of"]}
{"id": "C128", "title": "The other solver of the Poisson test", "statement": "If lengths of cells are positive then solve_failsafe of the Poisson test returns normally from every reachable state, and data of all cells and the norm of the last iteration are the same with any number of processes and distribution of cells. It does not change the grid, right hand sides nor solutions of cells that are not solved. If cells on the other side of a face have equal lengths and all or none of them are skipped, then a solution that satisfies the equation in all cells to solve is kept in all cells, and if the norm of the last iteration is zero then the equation holds in every cell to solve that has neighbors: the right hand side is the sum over dimensions of the difference of slopes of the solution on both sides of the cell divided by half of the distance between neighbors.", "quantifier": "all grids, sizes of neighboring cells, positive lengths of cells, data, sets of cells to solve and to skip, stopping criteria, numbers of iterations, processes, partitions and histories of the grid", "why_tests_cant": "tests compare a few problems with analytic solutions within a tolerance; a neighbor that is missed or not updated matters only for some grids and partitions", "anchors": ["tests/poisson/poisson_solve.hpp: Poisson_Solve::solve_failsafe", "tests/poisson/poisson_solve.hpp: Poisson_Solve::cache_system_info"]}
{"id": "C129", "title": "Particles are neither lost nor multiplied", "statement": "A step of the particle test (transfer particles of remote neighbors, move all particles, put those that left their cell to lists of neighbors of the cell) started in any reachable state with any particles in cells returns normally. The number of particles in all cells of all processes with any property that does not change by moving, e.g. a label, does not change, and afterwards every particle is in the list of the cell in which its position is.", "quantifier": "all grids, particles, movements, numbers of processes, partitions and histories of the grid", "why_tests_cant": "processes move particles of copies of remote cells independently of owners of those cells, and whether they agree depends on partition, positions and order of particles", "anchors": ["tests/particles/simple.cpp: propagate_particles", "tests/particles/simple.cpp: main", "tests/particles/cell.hpp: Cell"]}
{"id": "C130", "title": "Every neighbor is at one offset", "statement": "If the grid is in every periodic dimension at least as long as the neighborhood of a cell, i.e. there is room for one more than twice the length of the neighborhood (at least one) of cells of the size of the cell, then the list of neighbors returned by get_neighbors_of for the cell has every neighbor at only one offset, whatever its size, and does not have the cell itself. Loops over neighbors_of of a cell in iterators then have every neighbor exactly once.", "quantifier": "all grids and histories, numbers of processes, processes that are asked, cells, sizes of neighbors, default and other neighborhoods", "why_tests_cant": "depends on sizes of neighbors, length of neighborhood and all dimensions of the grid; user programs rely on this when they add something to every neighbor or look for a neighbor with given id", "anchors": ["dccrg.hpp: Dccrg::get_neighbors_of", "dccrg.hpp: Dccrg::find_neighbors_of", "dccrg.hpp: Dccrg::update_cell_pointers", "tests/particles/simple.cpp: propagate_particles"]}
{"id": "C131", "title": "The game of life examples play the game of life", "statement": "In a grid of one layer of cells that cannot be refined, with neighborhood length 1, the number of neighbors that a cell has in loops over its neighbors_of and that are alive is the number of live squares among the eight squares around the square of the cell, where squares outside of the board are dead unless the grid is periodic. After any number of turns of examples/game_of_life.cpp (overlapping calculation and communication) or examples/simple_game_of_life.cpp, cells are alive exactly where Conway's rules say, and the verification in examples/simple_game_of_life.cpp never fails.", "quantifier": "all lengths and periodicity of the grid in two dimensions, initial boards, numbers of turns, processes, partitions and interleavings of processes and messages", "why_tests_cant": "the state of a cell after a turn depends on data of remote neighbors that must be neither too old nor too new, for every partition and timing", "anchors": ["examples/game_of_life.cpp: get_live_neighbor_counts", "examples/game_of_life.cpp: apply_rules", "examples/game_of_life.cpp: main", "examples/simple_game_of_life.cpp: main"]}
{"id": "C132", "title": "Games of life in a neighborhood of the user", "statement": "In a grid of one layer of cells that cannot be refined, with a neighborhood added by the user that stays inside of the layer, any number of turns (load balanced in any way, copies of remote neighbors updated in that neighborhood, live neighbors counted and rules applied) can be played, and afterwards cells are alive exactly where the rules of the game of life with squares at offsets of that neighborhood say. With the neighborhood of tests/user_neighborhood/game_of_life.cpp these are four games of life on boards of half the length that do not affect each other, and the verification in that test never fails, also if the test was run for longer.", "quantifier": "all lengths and periodicity of the grid in two dimensions, neighborhoods inside of the layer, initial boards, numbers of turns, processes and ways in which cells are moved between turns; the verification for the grid and initial board of the test", "why_tests_cant": "data of remote neighbors in a neighborhood of the user is right only if lists of cells to send and receive in that neighborhood are rebuilt correctly after every possible partition", "anchors": ["tests/user_neighborhood/game_of_life.cpp: get_live_cells", "tests/user_neighborhood/game_of_life.cpp: main", "dccrg.hpp: Dccrg::add_neighborhood", "dccrg.hpp: Dccrg::update_copies_of_remote_neighbors", "dccrg.hpp: Dccrg::balance_load"]}
{"id": "C133", "title": "Number of neighbors in grids with cells of the same size", "statement": "If the maximum refinement level is 0, or if all cells have the same refinement level, then the list of neighbors of a cell has exactly one cell for every offset of the neighborhood that is inside of the grid, in the order of the neighborhood, and it is the cell at that offset from the cell, on the other side of the grid if necessary. If the grid is periodic in all dimensions and not shorter than the neighborhood then every cell that iterators have on any process has as many neighbors_of and as many neighbors_to as the neighborhood has offsets: (2 n + 1)^3 - 1 in the default neighborhood with length n > 0 and 6 if n is 0.", "quantifier": "all grids with maximum refinement level 0 and all grids in which all cells have the same level, histories, processes, default and other neighborhoods without repeated offsets, cells", "why_tests_cant": "depends on the shape of the neighborhood, lengths and periodicity of the grid and position of the cell; a test has one grid and a few neighborhoods", "anchors": ["dccrg.hpp: Dccrg::get_neighbors_of", "dccrg.hpp: Dccrg::get_neighbors_to", "dccrg.hpp: Dccrg::add_neighborhood", "dccrg.hpp: Dccrg::update_cell_pointers", "tests/user_neighborhood/neighbor_list_length.cpp: main"]}
{"id": "C134", "title": "Files of the game of life have the game", "statement": "In a grid of one layer of cells with any maximum refinement level whose cells have not been refined (examples/game_of_life_with_output.cpp), cells are alive after any number of turns exactly where Conway's rules say, with or without overlap of calculation and communication. From a file that save_grid_data writes after any number of turns on any number of processes, examples/dc2vtk.cpp reads the number of the turn and every square of the board exactly once, and no other cells, alive exactly where Conway's rules say.", "quantifier": "all lengths, maximum refinement levels and periodicity of the grid in two dimensions, initial boards, numbers of turns, processes, partitions, interleavings of processes and messages, orders of writes to the file and byte orders", "why_tests_cant": "the file is written by all processes to places that depend on how cells are distributed, and data of cells depends on when data of neighbors was transferred", "anchors": ["examples/game_of_life_with_output.cpp: main", "examples/game_of_life_with_output.cpp: write_game_data", "examples/dc2vtk.cpp: main", "dccrg.hpp: Dccrg::save_grid_data"]}
