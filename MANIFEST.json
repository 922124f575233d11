{
 "claims": [
  {
   "property": "C01",
   "status": "proved",
   "theorems": [
    "Dccrg.Mapping.C01_id_roundtrip"
   ],
   "note": ""
  },
  {
   "property": "C02",
   "status": "proved",
   "theorems": [
    "Dccrg.Mapping.C02_index_roundtrip"
   ],
   "note": ""
  },
  {
   "property": "C03",
   "status": "proved",
   "theorems": [
    "Dccrg.Mapping.C03_cell_error_iff",
    "Dccrg.Mapping.C03_invalid_iff"
   ],
   "note": ""
  },
  {
   "property": "C04",
   "status": "partial",
   "theorems": [
    "Dccrg.Mapping.C04_no_children_partial",
    "Dccrg.Mapping.C04_false",
    "Dccrg.Mapping.allChildren_beyond_last"
   ],
   "note": "False of the code for ids beyond the last cell (unsigned wraparound yields cell 1 as eighth child); proved for error_cell and all valid ids, negation proved with a witness."
  },
  {
   "property": "C05",
   "status": "proved",
   "theorems": [
    "Dccrg.Mapping.C05_children",
    "Dccrg.Mapping.C05_parent",
    "Dccrg.Mapping.C05_level_0_parent"
   ],
   "note": ""
  },
  {
   "property": "C06",
   "status": "proved",
   "theorems": [
    "Dccrg.Mapping.C06_children_partition",
    "Dccrg.Mapping.C06_nested_or_disjoint"
   ],
   "note": ""
  },
  {
   "property": "C07",
   "status": "partial",
   "theorems": [
    "Dccrg.Mapping.C07_accepted_level_fits_partial",
    "Dccrg.Mapping.C07_fitting_level_accepted",
    "Dccrg.Mapping.C07_rejected_no_effect",
    "Dccrg.Mapping.C07_false",
    "Dccrg.Mapping.C07_negative_accepted",
    "Dccrg.Mapping.C07_accepted_iff"
   ],
   "note": "False of the code for 305 numbers of level 0 cells (floating point check, all of them listed in C07_accepted_iff) and for negative levels; proved for all grids with fewer than 31532895852494961 level 0 cells, and exactly which levels are accepted for all grids with fewer than 2^64."
  },
  {
   "property": "C08",
   "status": "partial",
   "theorems": [
    "Dccrg.Mapping.C08_set_length_partial",
    "Dccrg.Mapping.C08_sum",
    "Dccrg.Mapping.C08_false"
   ],
   "note": "False of the code: the sum instead of the product of lengths is checked (C08_sum); everything else about the call is proved."
  },
  {
   "property": "C09",
   "status": "partial",
   "theorems": [
    "Dccrg.C09_mapping_size",
    "Dccrg.C09_topology_size",
    "Dccrg.C09_geometry_size",
    "Dccrg.C09_mapping_partial",
    "Dccrg.C09_mapping_stream_partial",
    "Dccrg.C09_topology",
    "Dccrg.C09_topology_stream",
    "Dccrg.C09_geometry",
    "Dccrg.C09_geometry_accepted",
    "Dccrg.C09_geometry_kind",
    "Dccrg.C09_cartesian_stream",
    "Dccrg.C09_false",
    "Dccrg.C09_default_stretched"
   ],
   "note": "records survive writing and reading for both byte orders; mapping: proved when the record is one whose length is acceptable at level 0 and level acceptable after that, which is how it is read back; C09_false: a maximum refinement level set before the length gives a mapping that was accepted but cannot be read back; C09_default_stretched: default stretched geometry of a grid longer than one cell cannot be read back"
  },
  {
   "property": "C10",
   "status": "proved",
   "theorems": [
    "Dccrg.C10_initial_distribution"
   ],
   "note": "also shows that load is balanced within one cell and cells are contiguous"
  },
  {
   "property": "C11",
   "status": "proved",
   "theorems": [
    "Dccrg.C11_neighborhood_indices"
   ],
   "note": "unbounded offsets and grid lengths"
  },
  {
   "property": "C12",
   "status": "proved",
   "theorems": [
    "Dccrg.C12_existing_cell"
   ],
   "note": "any level range, tiled grids (tiling is C13)"
  },
  {
   "property": "C13",
   "status": "proved",
   "theorems": [
    "Dccrg.C13_tiling",
    "Dccrg.C13_volume"
   ],
   "note": "in every reachable state on every process"
  },
  {
   "property": "C14",
   "status": "proved",
   "theorems": [
    "Dccrg.C14_level_difference"
   ],
   "note": "in every reachable state; includes completeness of the flood fill in override_unrefines"
  },
  {
   "property": "C15",
   "status": "proved",
   "theorems": [
    "Dccrg.C15_neighbors_of",
    "Dccrg.C15_not_existing"
   ],
   "note": "includes termination of the search loop"
  },
  {
   "property": "C16",
   "status": "proved",
   "theorems": [
    "Dccrg.C16_neighbors_to",
    "Dccrg.C16_duality"
   ],
   "note": ""
  },
  {
   "property": "C17",
   "status": "proved",
   "theorems": [
    "Dccrg.C17_is_neighbor",
    "Dccrg.C17_agrees"
   ],
   "note": "a cell is always its own is_neighbor, agreement is between different cells"
  },
  {
   "property": "C18",
   "status": "proved",
   "theorems": [
    "Dccrg.C18_six",
    "Dccrg.C18_symmetric"
   ],
   "note": ""
  },
  {
   "property": "C19",
   "status": "proved",
   "theorems": [
    "Dccrg.C19_dont_refine",
    "Dccrg.C19_vetoed"
   ],
   "note": ""
  },
  {
   "property": "C20",
   "status": "partial",
   "theorems": [
    "Dccrg.C20_partial",
    "Dccrg.C20_false"
   ],
   "note": "False of the code: cells_not_to_refine survive stop_refining; negation proved for every later state until load is balanced, and that load balancing removes requests."
  },
  {
   "property": "C21",
   "status": "proved",
   "theorems": [
    "Dccrg.C21_dont_unrefine"
   ],
   "note": ""
  },
  {
   "property": "C22",
   "status": "proved",
   "theorems": [
    "Dccrg.C22_precedence"
   ],
   "note": ""
  },
  {
   "property": "C23",
   "status": "proved",
   "theorems": [
    "Dccrg.C23_requested_refinement"
   ],
   "note": ""
  },
  {
   "property": "C24",
   "status": "proved",
   "theorems": [
    "Dccrg.C24_refined_cells",
    "Dccrg.C24_least",
    "Dccrg.C24_distribution",
    "Dccrg.C24_children"
   ],
   "note": "independent of number of processes and of the distribution of cells and requests"
  },
  {
   "property": "C25",
   "status": "proved",
   "theorems": [
    "Dccrg.C25_processes_agree"
   ],
   "note": ""
  },
  {
   "property": "C26",
   "status": "proved",
   "theorems": [
    "Dccrg.C26_data_on_owner"
   ],
   "note": ""
  },
  {
   "property": "C27",
   "status": "proved",
   "theorems": [
    "Dccrg.C27_owners",
    "Dccrg.C27_new_cells"
   ],
   "note": ""
  },
  {
   "property": "C28",
   "status": "proved",
   "theorems": [
    "Dccrg.C28_data",
    "Dccrg.C28_until_cleared",
    "Dccrg.C28_cleared"
   ],
   "note": ""
  },
  {
   "property": "C29",
   "status": "proved",
   "theorems": [
    "Dccrg.C29_pins_and_weights"
   ],
   "note": ""
  },
  {
   "property": "C30",
   "status": "proved",
   "theorems": [
    "Dccrg.C30_cells_and_data",
    "Dccrg.C31_owners"
   ],
   "note": ""
  },
  {
   "property": "C31",
   "status": "proved",
   "theorems": [
    "Dccrg.C31_owners",
    "Dccrg.C31_accepted",
    "Dccrg.C31_stay_pinned"
   ],
   "note": ""
  },
  {
   "property": "C32",
   "status": "partial",
   "theorems": [
    "Dccrg.C32_pin_partial",
    "Dccrg.C32_unpin",
    "Dccrg.C32_false"
   ],
   "note": "false of the code for a cell whose previous pin was removed after last load balancing; the rest is proved"
  },
  {
   "property": "C33",
   "status": "proved",
   "theorems": [
    "Dccrg.C33_copies",
    "Dccrg.C33_rest",
    "Dccrg.C33_update_succeeds"
   ],
   "note": ""
  },
  {
   "property": "C34",
   "status": "proved",
   "theorems": [
    "Dccrg.C34_lists"
   ],
   "note": ""
  },
  {
   "property": "C35",
   "status": "proved",
   "theorems": [
    "Dccrg.C35_outer",
    "Dccrg.C35_inner",
    "Dccrg.C35_remote"
   ],
   "note": ""
  },
  {
   "property": "C36",
   "status": "partial",
   "theorems": [
    "Dccrg.C36_true_partial",
    "Dccrg.C36_false"
   ],
   "note": "false of the code for the id of the default neighborhood; proved for all other ids"
  },
  {
   "property": "C37",
   "status": "proved",
   "theorems": [
    "Dccrg.C37_get_cells"
   ],
   "note": ""
  },
  {
   "property": "C38",
   "status": "proved",
   "theorems": [
    "Dccrg.C38_ranges",
    "Dccrg.C38_unknown"
   ],
   "note": "remote range is that of the default neighborhood for every id, as documented"
  },
  {
   "property": "C39",
   "status": "proved",
   "theorems": [
    "Dccrg.C39_face_neighbors",
    "Dccrg.C39_face_sizes",
    "Dccrg.C39_are_neighbors"
   ],
   "note": ""
  },
  {
   "property": "C40",
   "status": "proved",
   "theorems": [
    "Dccrg.C40_add",
    "Dccrg.C40_agree",
    "Dccrg.C40_neighbors",
    "Dccrg.C40_remove",
    "Dccrg.C40_again"
   ],
   "note": ""
  },
  {
   "property": "C41",
   "status": "partial",
   "theorems": [
    "Dccrg.C41_load_partial",
    "Dccrg.C41_save",
    "Dccrg.C41_false"
   ],
   "note": "proved for every reachable grid, any numbers of writing and reading processes, any order of writes, both byte orders and any number of calls to continue_loading_grid_data, for members that survive reading (C09) and datatypes whose count is 1 (or which are named, when saved; or are used in the last call, when loaded); sizes must fit where the code stores them and cell ids into MPI tags; C41_false: with several calls and a count other than 1 data are read from a wrong place. Whether the loaded grid has copies of remote neighbors is C81"
  },
  {
   "property": "C42",
   "status": "partial",
   "theorems": [
    "Dccrg.C42_regions_partial",
    "Dccrg.C42_disjoint_partial",
    "Dccrg.C42_offsets",
    "Dccrg.C42_file_partial",
    "Dccrg.C42_false"
   ],
   "note": "proved for all numbers of processes, flags and sizes of data when datatypes of cells are named or have count 1; C42_false: false of the code for derived datatypes with count above 1, whose data overlap"
  },
  {
   "property": "C43",
   "status": "proved",
   "theorems": [
    "Dccrg.C43_load_cells"
   ],
   "note": "starting from an unrefined grid without pending requests, as after initialization"
  },
  {
   "property": "C44",
   "status": "proved",
   "theorems": [
    "Dccrg.C44_cartesian_consistent",
    "Dccrg.C44_cartesian_tiles",
    "Dccrg.C44_no_geometry_consistent",
    "Dccrg.C44_no_geometry_tiles"
   ],
   "note": "exact arithmetic, for Cartesian_Geometry and No_Geometry"
  },
  {
   "property": "C45",
   "status": "partial",
   "theorems": [
    "Dccrg.C45_inside_partial",
    "Dccrg.C45_inside_unique",
    "Dccrg.C45_center",
    "Dccrg.C45_outside",
    "Dccrg.C45_invalid",
    "Dccrg.C45_periodic_partial",
    "Dccrg.C45_end",
    "Dccrg.C45_false",
    "Dccrg.C45_existing_partial",
    "Dccrg.C45_existing_outside",
    "Dccrg.C45_no_geometry_partial"
   ],
   "note": "false of the code for coordinates equal to the end of the grid (and whole periods after it); proved everywhere else"
  },
  {
   "property": "C46",
   "status": "proved",
   "theorems": [
    "Dccrg.C46_cartesian",
    "Dccrg.C46_no_geometry",
    "Dccrg.C46_stretched"
   ],
   "note": "exact arithmetic"
  },
  {
   "property": "C47",
   "status": "partial",
   "theorems": [
    "Dccrg.C47_consistent",
    "Dccrg.C47_tiles",
    "Dccrg.C47_level_0",
    "Dccrg.C47_locate_partial",
    "Dccrg.C47_center",
    "Dccrg.C47_outside",
    "Dccrg.C47_start",
    "Dccrg.C47_false"
   ],
   "note": "false of the code for coordinates equal to the start of the grid (undefined behavior); proved everywhere else"
  },
  {
   "property": "C48",
   "status": "partial",
   "theorems": [
    "Dccrg.C48_cartesian_partial",
    "Dccrg.C48_cartesian_rejects",
    "Dccrg.C48_cartesian_constructor",
    "Dccrg.C48_cartesian_accepted",
    "Dccrg.C48_stretched_partial",
    "Dccrg.C48_stretched_rejects",
    "Dccrg.C48_stretched_accepted",
    "Dccrg.C48_false"
   ],
   "note": "false of the code for NaN, which is accepted; proved for all other numbers, including infinities and subnormal numbers"
  },
  {
   "property": "C49",
   "status": "proved",
   "theorems": [
    "Dccrg.C49_gather",
    "Dccrg.C49_too_many",
    "Dccrg.C49_reduce",
    "Dccrg.C49_some",
    "Dccrg.C49_some_mismatch"
   ],
   "note": "a total of 2^31 or more values makes displacements overflow int, which is undefined behavior"
  },
  {
   "property": "C50",
   "status": "proved",
   "theorems": [
    "Dccrg.C50_not_local",
    "Dccrg.C50_not_existing",
    "Dccrg.C50_sibling_refined"
   ],
   "note": ""
  },
  {
   "property": "C51",
   "status": "proved",
   "theorems": [
    "Dccrg.C51_levels",
    "Dccrg.C51_size",
    "Dccrg.C51_blocks",
    "Dccrg.C51_distinct"
   ],
   "note": "for every list of positive numbers of processes per part, which add_partitioning_level guarantees"
  },
  {
   "property": "C52",
   "status": "proved",
   "theorems": [
    "Dccrg.C52_graph",
    "Dccrg.C52_fatal",
    "Dccrg.C52_hypergraph",
    "Dccrg.C52_cells"
   ],
   "note": "in every reachable state; numbers are not bounded by int and ids by the type used by the partitioner"
  },
  {
   "property": "C53",
   "status": "proved",
   "theorems": [
    "Dccrg.C53_twice",
    "Dccrg.C53_order"
   ],
   "note": ""
  },
  {
   "property": "C54",
   "status": "proved",
   "theorems": [
    "Dccrg.C54_get_weight",
    "Dccrg.C54_set_weight",
    "Dccrg.C54_children",
    "Dccrg.C54_balance"
   ],
   "note": ""
  },
  {
   "property": "C55",
   "status": "proved",
   "theorems": [
    "Dccrg.C55_operations_return"
   ],
   "note": "for the operations modelled in Hist.lean"
  },
  {
   "property": "C56",
   "status": "proved",
   "theorems": [
    "Dccrg.C56_only_requested",
    "Dccrg.C56_requested_unrefinement",
    "Dccrg.C56_unrefined_cells",
    "Dccrg.C56_distribution"
   ],
   "note": ""
  },
  {
   "property": "C57",
   "status": "proved",
   "theorems": [
    "Dccrg.C57_refine_withdraws"
   ],
   "note": ""
  },
  {
   "property": "C58",
   "status": "partial",
   "theorems": [
    "Dccrg.C58_center_at_partial",
    "Dccrg.C58_no_geometry_partial",
    "Dccrg.C58_stretched",
    "Dccrg.C58_false"
   ],
   "note": "false of the code for Cartesian_Geometry and No_Geometry with indices that are not the first of a cell and indices equal to the length of the grid; proved for other indices, and for all indices of Stretched_Cartesian_Geometry"
  },
  {
   "property": "C59",
   "status": "partial",
   "theorems": [
    "Dccrg.C59_of_cartesian",
    "Dccrg.C59_of_cartesian_length",
    "Dccrg.C59_reset_partial",
    "Dccrg.C59_default",
    "Dccrg.C59_false"
   ],
   "note": "false of the code for the default stretched geometry of a grid longer than 1; the rest is proved"
  },
  {
   "property": "C60",
   "status": "proved",
   "theorems": [
    "Dccrg.C60_other_order"
   ],
   "note": "for everything that can be saved"
  },
  {
   "property": "C61",
   "status": "proved",
   "theorems": [
    "Dccrg.C61_query",
    "Dccrg.C61_add",
    "Dccrg.C61_remove",
    "Dccrg.C61_negative",
    "Dccrg.C61_add_option",
    "Dccrg.C61_remove_option"
   ],
   "note": "for every sequence of calls; reserved options throw although documentation says that nothing happens"
  },
  {
   "property": "C62",
   "status": "proved",
   "theorems": [
    "Dccrg.C62_copies",
    "Dccrg.C62_order",
    "Dccrg.C62_progress",
    "Dccrg.C62_finite"
   ],
   "note": "for every interleaving of calls, writes and delivery of messages; the grid is not refined or balanced while updates are in progress"
  },
  {
   "property": "C63",
   "status": "proved",
   "theorems": [
    "Dccrg.C63_structure",
    "Dccrg.C63_data",
    "Dccrg.C63_requests",
    "Dccrg.C63_pins"
   ],
   "note": "for every reachable grid and copies of other type; as long as the original exists and isn't changed, see C65"
  },
  {
   "property": "C64",
   "status": "proved",
   "theorems": [
    "Dccrg.C64_no_requests"
   ],
   "note": "in every reachable state"
  },
  {
   "property": "C65",
   "status": "partial",
   "theorems": [
    "Dccrg.C65_length_partial",
    "Dccrg.C65_data_partial",
    "Dccrg.C65_false_length",
    "Dccrg.C65_false_balance",
    "Dccrg.C65_false_same"
   ],
   "note": "false of the code: length of a copy refers to the original, the partitioner asks the original about cells of the copy, and copies of same type share cell pointers; proved that length is right while the original exists, and that data of cells of a copy of other type are independent"
  },
  {
   "property": "C66",
   "status": "proved",
   "theorems": [
    "Dccrg.C66_same_grid",
    "Dccrg.C66_data",
    "Dccrg.C66_returns",
    "Dccrg.C66_parts",
    "Dccrg.C66_added_removed"
   ],
   "note": "for every sequence of transfers and changes of data; received data are merged after each transfer as a cell is received once per transfer"
  },
  {
   "property": "C67",
   "status": "proved",
   "theorems": [
    "Dccrg.C67_copies",
    "Dccrg.C67_rest",
    "Dccrg.C67_history"
   ],
   "note": "in every reachable state"
  },
  {
   "property": "C68",
   "status": "proved",
   "theorems": [
    "Dccrg.C68_all_cells"
   ],
   "note": "in every reachable state"
  },
  {
   "property": "C69",
   "status": "proved",
   "theorems": [
    "Dccrg.C69_removed_cells",
    "Dccrg.C69_kept",
    "Dccrg.C69_gone"
   ],
   "note": "in every reachable state"
  },
  {
   "property": "C70",
   "status": "proved",
   "theorems": [
    "Dccrg.C70_receive",
    "Dccrg.C70_send",
    "Dccrg.C70_total"
   ],
   "note": "in every reachable state"
  },
  {
   "property": "C71",
   "status": "partial",
   "theorems": [
    "Dccrg.C71_at_coordinate_partial",
    "Dccrg.C71_outside",
    "Dccrg.C71_periodic_partial",
    "Dccrg.C71_end",
    "Dccrg.C71_no_geometry_partial",
    "Dccrg.C71_stretched_partial",
    "Dccrg.C71_false"
   ],
   "note": "exact arithmetic, all geometries, see C95 for rounding; missing: coordinates at the end of the grid (start of the grid for stretched geometry), which are not located by the code: nothing is requested there, see C71_end and C71_false"
  },
  {
   "property": "C72",
   "status": "partial",
   "theorems": [
    "Dccrg.C72_find_partial",
    "Dccrg.C72_every_box",
    "Dccrg.C72_inside_partial",
    "Dccrg.C72_endless",
    "Dccrg.C72_levels",
    "Dccrg.C72_false"
   ],
   "note": "proved as stated, in 64-bit arithmetic, for boxes whose lower corner is aligned to cells of the maximum level given; C72_every_box says exactly what is returned for every box inside of the grid: cells that contain a point a whole number of steps from the lower corner, hence other boxes miss cells at their end (C72_false); error_cell is in the result if such a point isn't covered by cells of given levels; boxes that end at the end of 64-bit indices hang, levels out of range are undefined behavior"
  },
  {
   "property": "C73",
   "status": "partial",
   "theorems": [
    "Dccrg.C73_entries",
    "Dccrg.C73_same_size_partial",
    "Dccrg.C73_false",
    "Dccrg.C73_outside_neighborhood"
   ],
   "note": "false of the code for neighbors smaller or larger than the cell; exact characterization proved, and the property for neighbors of same size"
  },
  {
   "property": "C74",
   "status": "proved",
   "theorems": [
    "Dccrg.Setup.C74_settings",
    "Dccrg.Setup.C74_length",
    "Dccrg.Setup.C74_length_default",
    "Dccrg.Setup.C74_level",
    "Dccrg.Setup.C74_rejected"
   ],
   "note": "all sequences of calls of a default constructed grid"
  },
  {
   "property": "C75",
   "status": "partial",
   "theorems": [
    "Dccrg.Setup.C75_initialize_iff",
    "Dccrg.Setup.C75_grid",
    "Dccrg.Setup.C75_retry_false",
    "Dccrg.Setup.C75_late_false",
    "Dccrg.Setup.C75_loaded_false"
   ],
   "note": "when initialize succeeds is proved; false of the code: a failed initialize cannot be repeated, the level can be changed after initialize, and the length after loading"
  },
  {
   "property": "C76",
   "status": "partial",
   "theorems": [
    "Dccrg.Setup.C76_ids_fit_partial",
    "Dccrg.Setup.C76_false"
   ],
   "note": "proved if the length is set before the level and there are fewer than 31532895852494961 level 0 cells; false if the level was set first, because it is not checked again"
  },
  {
   "property": "C77",
   "status": "proved",
   "theorems": [
    "Dccrg.C77_shares",
    "Dccrg.C77_batches",
    "Dccrg.C77_zero_batches",
    "Dccrg.C77_returns",
    "Dccrg.C77_reachable"
   ],
   "note": "the library of curves is any bijection between positions and cells of level 0"
  },
  {
   "property": "C78",
   "status": "partial",
   "theorems": [
    "Dccrg.C78_file_partial",
    "Dccrg.C78_many_false",
    "Dccrg.C78_precision_false"
   ],
   "note": "proved for processes with at most 2^29 cells, up to printing of coordinates; false with more cells because numbers of points are 32-bit, and for grids far from the origin because coordinates are printed with six digits"
  },
  {
   "property": "C79",
   "status": "partial",
   "theorems": [
    "Dccrg.C79_neighbors_of_partial",
    "Dccrg.C79_neighbors_to_partial",
    "Dccrg.C79_six",
    "Dccrg.C79_existing",
    "Dccrg.C79_is_neighbor",
    "Dccrg.C79_far_item_false",
    "Dccrg.C79_long_grid_false"
   ],
   "note": "proved for neighborhood items at most 1022 cells away and, for find_neighbors_to, dimensions of at most 2^64-2^31 indices; both limits are needed: int overflows beyond the first, uint64_t wraps around beyond the second"
  },
  {
   "property": "C80",
   "status": "partial",
   "theorems": [
    "Dccrg.C80_histories",
    "Dccrg.C80_neighbors",
    "Dccrg.C80_faces",
    "Dccrg.C80_boundaries",
    "Dccrg.C80_lists",
    "Dccrg.C80_iterators_partial",
    "Dccrg.C80_no_stale_iterators",
    "Dccrg.C80_copy",
    "Dccrg.C80_removed",
    "Dccrg.C80_iterators_false",
    "Dccrg.C80_removed_false"
   ],
   "note": "everything stored is proved up to date after any history; false of the code: a copy has no iterators of user neighborhoods, and all_cells of a removed neighborhood returns the old range instead of throwing"
  },
  {
   "property": "C81",
   "status": "partial",
   "theorems": [
    "Dccrg.C81_loaded",
    "Dccrg.C81_operations",
    "Dccrg.C81_lists",
    "Dccrg.C81_complete_partial",
    "Dccrg.C81_no_iterators",
    "Dccrg.C81_user_iterators",
    "Dccrg.C81_repair",
    "Dccrg.C81_false"
   ],
   "note": "proved: all operations succeed and stored lists are up to date in every loaded grid, and a grid with refined cells is complete; false of the code if all cells in the file are of refinement level 0: loops over cells are empty until stop_refining or balance_load, and there are no copies of remote neighbors until an update, stop_refining, balance_load or add_neighborhood"
  },
  {
   "property": "C82",
   "status": "proved",
   "theorems": [
    "Dccrg.C82_cells",
    "Dccrg.C82_coordinates",
    "Dccrg.C82_center",
    "Dccrg.C82_default",
    "Dccrg.C82_no_geometry",
    "Dccrg.C82_no_geometry_center"
   ],
   "note": "IEEE 754 binary64 with round-to-nearest-even after every operation; coordinates in the grid are at most 2^51 multiples of the power of two"
  },
  {
   "property": "C83",
   "status": "proved",
   "theorems": [
    "Dccrg.C83_positions",
    "Dccrg.C83_located",
    "Dccrg.C83_faces_false"
   ],
   "note": "C83_faces_false shows that a distance from faces is needed"
  },
  {
   "property": "C84",
   "status": "partial",
   "theorems": [
    "Dccrg.C84_center_partial",
    "Dccrg.C84_false"
   ],
   "note": "proved for cells whose length is at least 2^-49 of the distance of the start of the grid from zero plus the length of the grid; false of the code for two cells of length 1 from 2^60"
  },
  {
   "property": "C85",
   "status": "partial",
   "theorems": [
    "Dccrg.C85_periodic_partial",
    "Dccrg.C85_false"
   ],
   "note": "proved for coordinates whose image k periods away is at least 10(|k|+1) rounding errors inside of the cell; false of the code: -2^-100 and -2^100 are in no cell of a periodic grid of 49 cells of length 1"
  },
  {
   "property": "C86",
   "status": "partial",
   "theorems": [
    "Dccrg.C86_defined_partial",
    "Dccrg.C86_false"
   ],
   "note": "proved for parameters that neither overflow nor vanish in calculations; false of the code for cells of smallest positive length and for a grid longer than the largest double, both of which are accepted"
  },
  {
   "property": "C87",
   "status": "proved",
   "theorems": [
    "Dccrg.C87_operations",
    "Dccrg.C87_initialize",
    "Dccrg.C87_copy",
    "Dccrg.C87_histories",
    "Dccrg.C87_verify"
   ],
   "note": "load balancing in phases is C108; checks of arguments that are given against documentation, and of calls before initialize, are not included; loaded grids without copies of remote neighbors (C81) are not included"
  },
  {
   "property": "C88",
   "status": "partial",
   "theorems": [
    "Dccrg.C88_consistent_partial",
    "Dccrg.C88_consistent_false"
   ],
   "note": "proved for processes with the same number of cells; false of the code: a process whose list of cells is the beginning of that of process 0 is accepted"
  },
  {
   "property": "C89",
   "status": "proved",
   "theorems": [
    "Dccrg.C89_histories",
    "Dccrg.C89_access",
    "Dccrg.C89_items",
    "Dccrg.C89_kept"
   ],
   "note": "load balancing in phases is C109; additional members are functions of cells and their processes; loaded grids without copies of remote neighbors (C81) are not included"
  },
  {
   "property": "C90",
   "status": "proved",
   "theorems": [
    "Dccrg.C90_cells",
    "Dccrg.C90_located",
    "Dccrg.C90_center",
    "Dccrg.C90_real"
   ],
   "note": "IEEE 754 binary64 with round-to-nearest-even after every operation; coordinates of the grid are at most 2^49 multiples of the power of two; a coordinate at the start of the grid has undefined behavior as in exact numbers, see C47"
  },
  {
   "property": "C91",
   "status": "proved",
   "theorems": [
    "Dccrg.C91_positions",
    "Dccrg.C91_located",
    "Dccrg.C91_near"
   ],
   "note": "C91_near is about coordinates closer to faces; C93_false shows that a distance from the end of level 0 cells is needed"
  },
  {
   "property": "C92",
   "status": "partial",
   "theorems": [
    "Dccrg.C92_center_partial",
    "Dccrg.C92_false"
   ],
   "note": "proved for cells whose length is at least 2^-48 of the distance of their level 0 cell from zero plus its length; false of the code for coordinates 2^60, 2^60+256, 2^60+512"
  },
  {
   "property": "C93",
   "status": "partial",
   "theorems": [
    "Dccrg.C93_hangs",
    "Dccrg.C93_returns_partial",
    "Dccrg.C93_start",
    "Dccrg.C93_false"
   ],
   "note": "when the code hangs is characterized for finite coordinates of the grid; proved that it returns for level 0 cells of length at least 2^-1050 and coordinates that are not at the start of the grid; false of the code: endless loop for coordinates of smallest positive distance, no cell at the end of the grid, previous cell for an infinite last coordinate"
  },
  {
   "property": "C94",
   "status": "partial",
   "theorems": [
    "Dccrg.C94_exact_partial",
    "Dccrg.C94_rounded_partial",
    "Dccrg.C94_false"
   ],
   "note": "proved for parameters without rounding, and for cells longer than five rounding errors; false of the code for cells of length 1 from 2^60"
  },
  {
   "property": "C95",
   "status": "proved",
   "theorems": [
    "Dccrg.C95_agrees",
    "Dccrg.C95_cartesian",
    "Dccrg.C95_no_geometry",
    "Dccrg.C95_stretched",
    "Dccrg.C95_none",
    "Dccrg.C95_near",
    "Dccrg.C95_near_stretched"
   ],
   "note": ""
  },
  {
   "property": "C96",
   "status": "partial",
   "theorems": [
    "Dccrg.C96_center_partial",
    "Dccrg.C96_center_stretched_partial",
    "Dccrg.C96_false"
   ],
   "note": "proved for cells whose length is at least 2^-49 of the distance of the grid from zero plus its length (2^-48 of level 0 cell for stretched geometry); false of the code for cells of length 1 from 2^60"
  },
  {
   "property": "C97",
   "status": "proved",
   "theorems": [
    "Dccrg.C97",
    "Dccrg.C97_ends",
    "Dccrg.C97_operations",
    "Dccrg.C97_stop"
   ],
   "note": "processes are programs that call collective functions and post messages (Sched, SchedOps); every operation of Hist, in every order"
  },
  {
   "property": "C98",
   "status": "partial",
   "theorems": [
    "Dccrg.C98_outside_partial",
    "Dccrg.C98_other_grid_partial",
    "Dccrg.C98_check_partial",
    "Dccrg.C98_list_partial",
    "Dccrg.C98_false",
    "Dccrg.C98_mixed_false"
   ],
   "note": "other grids in the file are proved safe for datatypes that are named or of count 1; a new file is refused if the check of byte order or the id of a cell is missing; false of the code: missing data of cells are not noticed, and saving over an older file can leave a mixture of both"
  },
  {
   "property": "C99",
   "status": "partial",
   "theorems": [
    "Dccrg.C99_transfer",
    "Dccrg.C99_ends",
    "Dccrg.C99_update",
    "Dccrg.C99_single_partial",
    "Dccrg.C99_single_false"
   ],
   "note": "proved if sender and receiver describe the same number of bytes for every cell, no byte is received twice and none is sent and received at the same time; false of the code if fewer bytes are sent for a cell than the receiver describes and all cells are in one message"
  },
  {
   "property": "C100",
   "status": "partial",
   "theorems": [
    "Dccrg.C100_one",
    "Dccrg.C100_compiles",
    "Dccrg.C100_precedence_partial",
    "Dccrg.C100_basic",
    "Dccrg.C100_false"
   ],
   "note": "proved except for precedence in classes that have a version with arguments only as const and a version without arguments that isn't const, for which it is false"
  },
  {
   "property": "C101",
   "status": "partial",
   "theorems": [
    "Dccrg.C101_save",
    "Dccrg.C101_load",
    "Dccrg.C101_file_partial",
    "Dccrg.C101_restart_partial",
    "Dccrg.C101_false"
   ],
   "note": "returning, what each process writes and what is loaded are proved for all arguments; that the file doesn't depend on the order of writes is proved for datatypes that are named or of count 1 and false of the code for others, as C42; MPI functions for files need not make processes wait for each other but may"
  },
  {
   "property": "C102",
   "status": "partial",
   "theorems": [
    "Dccrg.C102_cells",
    "Dccrg.C102_load",
    "Dccrg.C102_false"
   ],
   "note": "proved when saving for cells that are not local, and when loading for ids that are missing in the file; false of the code if cells of one process are not in the list of the file: others can return; functions of MPI for files need not make processes wait for each other but may; numbers that overflow int are not considered"
  },
  {
   "property": "C103",
   "status": "proved",
   "theorems": [
    "Dccrg.C103_same_grid",
    "Dccrg.C103_returns",
    "Dccrg.C103_stop_returns",
    "Dccrg.C103_refined_cells",
    "Dccrg.C103_children",
    "Dccrg.C103_dont_refine",
    "Dccrg.C103_dont_unrefine",
    "Dccrg.C103_only_requested",
    "Dccrg.C103_requested_unrefinement"
   ],
   "note": "weights and pins are covered as calls that do not disturb the rest; what they do themselves is C104 for pins; weights set for a cell that leaves are lost"
  },
  {
   "property": "C104",
   "status": "partial",
   "theorems": [
    "Dccrg.C104_pin_partial",
    "Dccrg.C104_unpin_partial",
    "Dccrg.C104_later_partial",
    "Dccrg.C104_returns",
    "Dccrg.C104_false",
    "Dccrg.C104_debug_false"
   ],
   "note": "proved for requests made between the phases, also by the old process of a cell that leaves, and for later requests if there was none between the phases, with the exception of C32 for pins; false of the code for a request after one made between the phases by the old process, which can win over later requests of the new process and ends debug builds"
  },
  {
   "property": "C105",
   "status": "proved",
   "theorems": [
    "Dccrg.C105_grid",
    "Dccrg.C105_returns",
    "Dccrg.C105_copies",
    "Dccrg.C105_pinned",
    "Dccrg.C105_refined_cells",
    "Dccrg.C105_vetoes",
    "Dccrg.C105_unrefined",
    "Dccrg.C105_unrefined_cells"
   ],
   "note": "histories are those of C103 any number of times; where cells with requests for pins go is C104"
  },
  {
   "property": "C106",
   "status": "proved",
   "theorems": [
    "Dccrg.C106",
    "Dccrg.C106_ends",
    "Dccrg.C106_parts"
   ],
   "note": "operations that all processes call between the phases are not modelled"
  },
  {
   "property": "C107",
   "status": "proved",
   "theorems": [
    "Dccrg.C107_histories",
    "Dccrg.C107_lists",
    "Dccrg.C107_iterators",
    "Dccrg.C107_between"
   ],
   "note": "histories are those of C105; iterators of copies are C80"
  },
  {
   "property": "C108",
   "status": "partial",
   "theorems": [
    "Dccrg.C108_operations",
    "Dccrg.C108_balance_partial",
    "Dccrg.C108_phases",
    "Dccrg.C108_own",
    "Dccrg.C108_false"
   ],
   "note": "false of the code in exactly one case: load balancing throws in debug builds, and only there, when a process has a request for the pin of a cell of another process; this needs a pin or unpin call between the phases for a cell that is leaving (C104)"
  },
  {
   "property": "C109",
   "status": "partial",
   "theorems": [
    "Dccrg.C109_histories",
    "Dccrg.C109_access",
    "Dccrg.C109_items",
    "Dccrg.C109_kept",
    "Dccrg.C109_between",
    "Dccrg.C109_between_items",
    "Dccrg.C109_phases",
    "Dccrg.C109_false"
   ],
   "note": "proved at all times except that between phases pointers of items to cells of other processes are dangling (C109_false); which ones are is proved for all histories in C109_between_items; additional members are functions of cells and their processes, as in C89"
  },
  {
   "property": "C110",
   "status": "partial",
   "theorems": [
    "Dccrg.C110_calls_partial",
    "Dccrg.C110_waited",
    "Dccrg.C110_unchanged",
    "Dccrg.C110_false",
    "Dccrg.C110_kept_false"
   ],
   "note": "false of the code: loading leaves behind one datatype for every cell with a derived datatype, and files that have been refused stay open (C110_false); everything else is proved, with exact numbers of what is left behind, for cells that return named or new datatypes. A class that returns the same derived datatype for several cells uses a freed datatype (C110_kept_false). Communicators of grids and data of Zoltan are never freed and are not part of the claim"
  },
  {
   "property": "C111",
   "status": "partial",
   "theorems": [
    "Dccrg.C111_save_partial",
    "Dccrg.C111_written_partial",
    "Dccrg.C111_load_partial",
    "Dccrg.C111_calls_partial",
    "Dccrg.C111_restart_partial",
    "Dccrg.C111_false",
    "Dccrg.C111_named_false"
   ],
   "note": "false of the code for derived datatypes with a count other than 1 (C111_false) and for named datatypes with holes such as MPI_SHORT_INT (C111_named_false): cells overlap in the view. Proved for every other datatype"
  },
  {
   "property": "C112",
   "status": "partial",
   "theorems": [
    "Dccrg.C112_given_partial",
    "Dccrg.C112_all_partial",
    "Dccrg.C112_others",
    "Dccrg.C112_missing",
    "Dccrg.C112_false",
    "Dccrg.C112_twice_false"
   ],
   "note": "false of the code if a process that has cells gives none while others do: all of its cells are written (C112_false), and if a cell is given twice: the file may be loaded although another cell is missing (C112_twice_false). Proved for all lists without repeated cells in which every process with cells gives some"
  },
  {
   "property": "C113",
   "status": "partial",
   "theorems": [
    "Dccrg.C113_any_partial",
    "Dccrg.C113_balanced",
    "Dccrg.C113_never",
    "Dccrg.C113_false"
   ],
   "note": "proved if dont_refine has not returned true since load was last balanced, and for every state after balancing load. False of the code otherwise: cells for which dont_refine has returned true are not refined any more until load is balanced (C20)"
  },
  {
   "property": "C114",
   "status": "partial",
   "theorems": [
    "Dccrg.C114_states_partial",
    "Dccrg.C114_operations",
    "Dccrg.C114_restart_partial",
    "Dccrg.C114_kept_partial",
    "Dccrg.C81_false",
    "Dccrg.C41_false"
   ],
   "note": "with the exceptions of C41 (datatypes that are neither named nor of count 1, data that a further call reads again, see C41_false) and C81 (copies of remote neighbors are missing after loading a grid without refined cells, see C81_false)"
  },
  {
   "property": "C115",
   "status": "proved",
   "theorems": [
    "Dccrg.C115_same_results",
    "Dccrg.C115_data_is_there",
    "Dccrg.C115_possible",
    "Dccrg.C115_possible_all",
    "Dccrg.C115_initialize"
   ],
   "note": "dont_refine is not among the requests of a stage: with it the cells that are unrefined depend on the order of calls (C57)"
  },
  {
   "property": "C116",
   "status": "proved",
   "theorems": [
    "Dccrg.C116_results",
    "Dccrg.C116_no_deadlock",
    "Dccrg.C116_finite",
    "Dccrg.C116_no_race",
    "Dccrg.C116_finishes"
   ],
   "note": ""
  },
  {
   "property": "C117",
   "status": "proved",
   "theorems": [
    "Dccrg.C117_same_results",
    "Dccrg.C117_as_without_restarts",
    "Dccrg.C117_possible",
    "Dccrg.C117_restart"
   ],
   "note": "other classes of cells are not restored by loading, see C41 and C41_false; a grid without refined cells has no copies of remote neighbors right after loading (C81), and results of stages are the same nevertheless"
  },
  {
   "property": "C118",
   "status": "proved",
   "theorems": [
    "Dccrg.C118_read",
    "Dccrg.C118_lines",
    "Dccrg.C118_other_order",
    "Dccrg.C118_once"
   ],
   "note": "for more than 2^29 cells the numbers of points wrap around as in C78_many_false; coordinates are printed with six digits, see C78_precision_false"
  },
  {
   "property": "C119",
   "status": "proved",
   "theorems": [
    "Dccrg.C119_symmetric",
    "Dccrg.C119_offsets",
    "Dccrg.C119_fluxes_cancel"
   ],
   "note": ""
  },
  {
   "property": "C120",
   "status": "proved",
   "theorems": [
    "Dccrg.C120_turn",
    "Dccrg.C120_conserved",
    "Dccrg.C120_same_results"
   ],
   "note": "rational numbers instead of double: with rounding neither the sum nor the order of additions is exact"
  },
  {
   "property": "C121",
   "status": "proved",
   "theorems": [
    "Dccrg.C121_adapt",
    "Dccrg.C121_cells",
    "Dccrg.C121_copies",
    "Dccrg.C121_same_results",
    "Dccrg.C121_conserved"
   ],
   "note": "rational numbers instead of double; which cells are requested is arbitrary here and decided by check_for_adaptation in C122; lengths and velocities of cells are given functions of the cell"
  },
  {
   "property": "C122",
   "status": "proved",
   "theorems": [
    "Dccrg.C122_possible",
    "Dccrg.C122_same_results",
    "Dccrg.C122_step",
    "Dccrg.C122_cells",
    "Dccrg.C122_time_step",
    "Dccrg.C122_conserved",
    "Dccrg.C122_faces_false"
   ],
   "note": "rational numbers instead of double; the end of the simulation and saving of files are not modelled, steps are any sequence"
  },
  {
   "property": "C123",
   "status": "proved",
   "theorems": [
    "Dccrg.C123_copies",
    "Dccrg.C123_balance"
   ],
   "note": "the numbers of items described by sender and receiver of a cell must be equal, otherwise this model says that behavior is undefined"
  },
  {
   "property": "C124",
   "status": "proved",
   "theorems": [
    "Dccrg.C124_same_results",
    "Dccrg.C124_rest"
   ],
   "note": "rational numbers instead of double; pow(x, 1/p) and pow(x, p) in the residual are given functions; MPI_Allreduce adds without rounding so order of addition does not matter; when the dot products are zero the model leaves the loop where the code does"
  },
  {
   "property": "C125",
   "status": "partial",
   "theorems": [
    "Dccrg.C125_residual_partial",
    "Dccrg.C125_guess_false",
    "Dccrg.C125_stale_false"
   ],
   "note": "missing: the claim without assumptions is false. Search directions left in cells that are not solved are used as if they were corrections of their solutions; an exact guess is replaced by the best solution so far, which has not been set. Proved: the residual when nothing is left in these cells. Rational numbers instead of double"
  },
  {
   "property": "C126",
   "status": "partial",
   "theorems": [
    "Dccrg.C126_transpose_partial",
    "Dccrg.C126_false"
   ],
   "note": "missing: false if face neighbors that are solved have different sizes. Proved if they have the same size, and search directions are zero at the start in cells that are not solved. Rational numbers instead of double"
  },
  {
   "property": "C127",
   "status": "partial",
   "theorems": [
    "Dccrg.C127_equation_partial",
    "Dccrg.C127_uniform_partial",
    "Dccrg.C127_skipped_false"
   ],
   "note": "missing: false if only some of the cells on the other side of a face are skipped, and as C125 if search directions are left in cells that are not solved. Cells on the other side of a face must have equal lengths, which they have with all geometries of dccrg. Rational numbers instead of double"
  },
  {
   "property": "C128",
   "status": "proved",
   "theorems": [
    "Dccrg.C128_same_results",
    "Dccrg.C128_rest",
    "Dccrg.C128_exact",
    "Dccrg.C128_kept",
    "Dccrg.C128_converges_false"
   ],
   "note": "C128_converges_false is not about the claim: iterations do not have to converge although there is a solution. Rational numbers instead of double"
  },
  {
   "property": "C129",
   "status": "partial",
   "theorems": [
    "Dccrg.C129_conserved_partial",
    "Dccrg.C129_long_partial",
    "Dccrg.C129_alone_partial",
    "Dccrg.C129_multiplied_false",
    "Dccrg.C129_place_false",
    "Dccrg.C129_defined_false"
   ],
   "note": "missing: the claim without assumptions is false, also in the grid of the test. Proved if all cells have the same size and every particle that leaves its cell moves to a cell that is exactly once in the list of neighbors of its cell and which is known to every process that has a copy of its cell; a particle can then stay in the list in which it was. In grids of C130 it is enough that the cell is a neighbor, and with one process the last assumption is not needed. get_real_coordinate and get_existing_cell are given functions"
  },
  {
   "property": "C130",
   "status": "proved",
   "theorems": [
    "Dccrg.C130_once",
    "Dccrg.C130_iterator",
    "Dccrg.C130_short_false"
   ],
   "note": "C130_short_false shows that the length is the smallest possible. The list itself, unlike iterators, can have a larger neighbor several times at the same offset"
  },
  {
   "property": "C131",
   "status": "proved",
   "theorems": [
    "Dccrg.C131_counts",
    "Dccrg.C131_iterator",
    "Dccrg.C131_overlap",
    "Dccrg.C131_simple",
    "Dccrg.C131_set",
    "Dccrg.C131_verified"
   ],
   "note": "is_alive is a natural number. C131_overlap is about the loop with overlap (C116), C131_simple about updates followed by calculation (C115), C131_verified about the checks in examples/simple_game_of_life.cpp"
  },
  {
   "property": "C132",
   "status": "proved",
   "theorems": [
    "Dccrg.C132_game",
    "Dccrg.C132_interlaced",
    "Dccrg.C132_iterator",
    "Dccrg.C132_possible",
    "Dccrg.C132_verified"
   ],
   "note": "only the first integer of cell data is modelled. C132_interlaced is about the neighborhood of the test in any grid of even length, C132_verified about the grid and initial board of the test, for every number of turns divisible by 4; data that isn't set at the start is assumed to be zero"
  },
  {
   "property": "C133",
   "status": "proved",
   "theorems": [
    "Dccrg.C133_of",
    "Dccrg.C133_count",
    "Dccrg.C133_to",
    "Dccrg.C133_iterator",
    "Dccrg.C133_default",
    "Dccrg.C133_same_of",
    "Dccrg.C133_same_to",
    "Dccrg.C133_same_iterator",
    "Dccrg.C133_short_false"
   ],
   "note": "C133_same_* are about cells of any one refinement level. C133_short_false shows that the length of the grid can not be smaller. C133_of is about grids of any length and periodicity, C133_iterator and C133_default about periodic grids that are not shorter than the neighborhood"
  },
  {
   "property": "C134",
   "status": "proved",
   "theorems": [
    "Dccrg.C134_overlap",
    "Dccrg.C134_simple",
    "Dccrg.C134_saved",
    "Dccrg.C134_file"
   ],
   "note": "is_alive is a natural number that must initially fit in 32 bits. C134_file is about turns without overlap of calculation and communication, C134_overlap says that turns with overlap give the same board and C134_saved is about any state in which cells are as on a board. What is written by dc2vtk of cells that it has read is in C118_lines"
  }
 ]
}