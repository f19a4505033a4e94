{
 "claims": [
  {
   "property": "C01",
   "status": "proved",
   "theorems": [
    "LHF.C01_setXOR_exact",
    "LHF.C01_setXOR_comm",
    "LHF.C01_setXOR_assoc",
    "LHF.C01_setXOR_cancel",
    "LHF.C01_symmetricDiff_vector",
    "LHF.C01_symmetricDiff_set"
   ],
   "note": "Exactness, commutativity, associativity and self-inverse law for setXOR; exactness for both overloads of symmetricDiff."
  },
  {
   "property": "C02",
   "status": "proved",
   "theorems": [
    "LHF.C02_setIntersect_set",
    "LHF.C02_setIntersect_vector",
    "LHF.C02_setIntersect_vector_elements",
    "LHF.C02_setIntersect_vector_same",
    "LHF.C02_same_vectors_unsorted"
   ],
   "note": "Both overloads; identical unsorted vectors are returned as they are (C02_same_vectors_unsorted)."
  },
  {
   "property": "C03",
   "status": "partial",
   "theorems": [
    "LHF.C03_setUnion_partial",
    "LHF.C03_setUnion_self_lost",
    "LHF.C03_setUnion_violated"
   ],
   "note": "Proved for different arguments; C03_setUnion_violated and C03_setUnion_self_lost: equal arguments give the empty vector."
  },
  {
   "property": "C04",
   "status": "proved",
   "theorems": [
    "LHF.C04_intersect_exact"
   ],
   "note": "Proved in full."
  },
  {
   "property": "C05",
   "status": "proved",
   "theorems": [
    "LHF.C05_facets_set",
    "LHF.C05_facets_vector",
    "LHF.C05_subsets_of_size",
    "LHF.C05_subsets_negative",
    "LHF.C05_facets_empty"
   ],
   "note": "Proved in full for the three overloads, with the empty set and negative sizes."
  },
  {
   "property": "C06",
   "status": "proved",
   "theorems": [
    "LHF.C06_partition_exact",
    "LHF.C06_partition_defined_iff",
    "LHF.C06_each_point_in_one_partition"
   ],
   "note": "Proved in full, with the exact condition for staying in bounds."
  },
  {
   "property": "C07",
   "status": "partial",
   "theorems": [
    "LHF.C07_radius_partition_exact",
    "LHF.C07_max_radius",
    "LHF.C07_coverage_partial",
    "LHF.C07_zero_radius_drops_all",
    "LHF.C07_coverage_violated"
   ],
   "note": "The content of the partitions and the maximal radius are exact for every input; coverage is proved for a positive maximal radius and refuted for radius 0."
  },
  {
   "property": "C08",
   "status": "proved",
   "theorems": [
    "LHF.C08_boundary_partition_exact",
    "LHF.C08_short_labels_oob"
   ],
   "note": "Proved in full; labels shorter than the data are read out of range (C08_short_labels_oob)."
  },
  {
   "property": "C09",
   "status": "partial",
   "theorems": [
    "LHF.C09_mapPartitionIndexing_no_effect",
    "LHF.C09_mapped_iff_fixed_partial",
    "LHF.C09_mapping_violated"
   ],
   "note": "The stated effect holds only when the mapping changes nothing (C09_mapped_iff_fixed_partial); C09_mapPartitionIndexing_no_effect is the exact behaviour."
  },
  {
   "property": "C10",
   "status": "proved",
   "theorems": [
    "LHF.C10_distance_is_euclidean",
    "LHF.C10_metric",
    "LHF.C10_out_of_range_iff",
    "LHF.C10_empty_second",
    "LHF.C10_scalar_overload"
   ],
   "note": "Proved over the reals, with the exact condition for the out-of-range read; the scalar overload is the square, not the distance."
  },
  {
   "property": "C11",
   "status": "proved",
   "theorems": [
    "LHF.C11_distance_matrix",
    "LHF.C11_distance_matrix_euclidean"
   ],
   "note": "Proved for every distance function and instantiated with the Euclidean one."
  },
  {
   "property": "C12",
   "status": "proved",
   "theorems": [
    "LHF.C12_insert_builds_graph",
    "LHF.C12_dimension_zero"
   ],
   "note": "Proved in full."
  },
  {
   "property": "C13",
   "status": "proved",
   "theorems": [
    "LHF.C13_expansion_is_rips",
    "LHF.C13_rips_of_euclidean_cloud"
   ],
   "note": "Proved in full, also end to end from a Euclidean point cloud."
  },
  {
   "property": "C14",
   "status": "proved",
   "theorems": [
    "LHF.C14_face_weight_le",
    "LHF.C14_weight_is_largest_distance"
   ],
   "note": "Proved in full."
  },
  {
   "property": "C15",
   "status": "proved",
   "theorems": [
    "LHF.C15_downward_closed",
    "LHF.C15_build_is_simplicial_complex"
   ],
   "note": "Proved in full."
  },
  {
   "property": "C16",
   "status": "proved",
   "theorems": [
    "LHF.C16_expand_idempotent_monotone"
   ],
   "note": "Proved in full."
  },
  {
   "property": "C17",
   "status": "proved",
   "theorems": [
    "LHF.C17_tree_is_rips",
    "LHF.C17_rips_of_euclidean_cloud",
    "LHF.C17_empty_matrix"
   ],
   "note": "Proved in full, also end to end from a Euclidean point cloud. head and nodeCount, which the constructor leaves uninitialised, are taken to be null and 0."
  },
  {
   "property": "C18",
   "status": "proved",
   "theorems": [
    "LHF.C18_tree_array_agree",
    "LHF.C18_differ_at_epsilon"
   ],
   "note": "Proved in full, with a counterexample at distance exactly epsilon."
  },
  {
   "property": "C19",
   "status": "proved",
   "theorems": [
    "LHF.C19_array_counts",
    "LHF.C19_tree_counts"
   ],
   "note": "Proved in full."
  },
  {
   "property": "C20",
   "status": "partial",
   "theorems": [
    "LHF.C20_array_filtration_order",
    "LHF.C20_tree_first_query_partial",
    "LHF.C20_tree_unqueried",
    "LHF.C20_tree_violated"
   ],
   "note": "Array: in full. Tree: for the first query only; C20_tree_violated refutes later ones."
  },
  {
   "property": "C21",
   "status": "proved",
   "theorems": [
    "LHF.C21_find_exact",
    "LHF.C21_find_empty",
    "LHF.C21_findWeight_exact",
    "LHF.C21_findWeight_negative_iff",
    "LHF.C21_findWeight_oob",
    "LHF.C21_deletion_exact",
    "LHF.C21_clear"
   ],
   "note": "Proved in full; the empty vector and over-long vectors are read out of range (C21_findWeight_oob, C21_find_empty)."
  },
  {
   "property": "C22",
   "status": "proved",
   "theorems": [
    "LHF.C22_h0_merge_times",
    "LHF.C22_single_linkage"
   ],
   "note": "Proved for every filtered complex with an edge layer, and for the Rips complexes of C13/C17."
  },
  {
   "property": "C23",
   "status": "partial",
   "theorems": [
    "LHF.C23_one_infinite_bar_partial",
    "LHF.C23_bar_count",
    "LHF.C23_violated"
   ],
   "note": "Exact bar count for every input; the property holds for connected input and is refuted for disconnected input."
  },
  {
   "property": "C24",
   "status": "proved",
   "theorems": [
    "LHF.C24_minimum_spanning_forest",
    "LHF.C24_early_exit"
   ],
   "note": "Proved in full."
  },
  {
   "property": "C25",
   "status": "proved",
   "theorems": [
    "LHF.C25_head_increases",
    "LHF.C25_fuel_irrelevant",
    "LHF.C25_terminates"
   ],
   "note": "Proved in full."
  },
  {
   "property": "C26",
   "status": "proved",
   "theorems": [
    "LHF.C26_intervals_well_formed"
   ],
   "note": "Proved in full."
  },
  {
   "property": "C27",
   "status": "proved",
   "theorems": [
    "LHF.C27_pairs_are_rank",
    "LHF.C27_rank_of_boundary"
   ],
   "note": "Proved in full."
  },
  {
   "property": "C28",
   "status": "partial",
   "theorems": [
    "LHF.C28_standard_deaths_partial",
    "LHF.C28_violated",
    "LHF.C28_square_violated"
   ],
   "note": "Deaths are those of the standard pairing (under the stated condition on skipped rows); which birth belongs to which death is not, and C28_violated, C28_square_violated refute it. C54 shows what is still right."
  },
  {
   "property": "C29",
   "status": "partial",
   "theorems": [
    "LHF.C29_last_facet_violated",
    "LHF.C29_end_dereference_iff_partial",
    "LHF.C29_readings_agree",
    "LHF.C29_violated"
   ],
   "note": "Exact condition of the end dereference proved; the property is refuted. In particular it happens whenever the last simplex of a dimension is a facet of another simplex (C29_last_facet_violated)."
  },
  {
   "property": "C30",
   "status": "partial",
   "theorems": [
    "LHF.C30_table_agrees_partial",
    "LHF.C30_violated"
   ],
   "note": "Dimensions at least 1 agree; dimension 0 is refuted."
  },
  {
   "property": "C31",
   "status": "proved",
   "theorems": [
    "LHF.C31_independent_rows",
    "LHF.C31_empty_matrix"
   ],
   "note": "Proved in full; the empty matrix is read out of range."
  },
  {
   "property": "C32",
   "status": "proved",
   "theorems": [
    "LHF.C32_checkFace_sets",
    "LHF.C32_checkFace_vectors",
    "LHF.C32_checkFace_general",
    "LHF.C32_boundary_matrix",
    "LHF.C32_boundary_of_boundary"
   ],
   "note": "Proved in full."
  },
  {
   "property": "C33",
   "status": "partial",
   "theorems": [
    "LHF.C33_reduce_partial",
    "LHF.C33_independent_rows_violated",
    "LHF.C33_cases"
   ],
   "note": "Proved for matrices with dependent rows; on every matrix with independent rows the code reads out of range (C33_independent_rows_violated). The two cases are exhaustive (C33_cases)."
  },
  {
   "property": "C34",
   "status": "proved",
   "theorems": [
    "LHF.C34_csv_roundtrip",
    "LHF.C34_csv_exact",
    "LHF.C34_barcodes_not_readable",
    "LHF.C34_missing_file"
   ],
   "note": "Proved in full for conversions that round-trip and print no separators, which the decimal example meets; barcode files cannot be read back because of their header."
  },
  {
   "property": "C35",
   "status": "proved",
   "theorems": [
    "LHF.C35_mat_roundtrip",
    "LHF.C35_empty_table",
    "LHF.C35_truncated_file_repeats_value"
   ],
   "note": "Proved in full; C35_truncated_file_repeats_value shows the reading of a file that ends early."
  },
  {
   "property": "C36",
   "status": "partial",
   "theorems": [
    "LHF.C36_stream_agrees_partial",
    "LHF.C36_blank_line_violated",
    "LHF.C36_trailing_comma_violated",
    "LHF.C36_written_files_violated",
    "LHF.C36_one_character_violated",
    "LHF.C36_long_line_violated"
   ],
   "note": "Proved under the stated conditions; each condition is shown to be necessary by a refutation."
  },
  {
   "property": "C37",
   "status": "proved",
   "theorems": [
    "LHF.C37_argument_precedence",
    "LHF.C37_given_or_not",
    "LHF.C37_trailing_name"
   ],
   "note": "Proved in full."
  },
  {
   "property": "C38",
   "status": "partial",
   "theorems": [
    "LHF.C38_mode_selection",
    "LHF.C38_unknown_mode",
    "LHF.C38_explicit_pipeline_kept_partial",
    "LHF.C38_mpi_replaces_pipeline_violated"
   ],
   "note": "Proved for mpi off; with mpi 1 the explicit pipeline is replaced."
  },
  {
   "property": "C39",
   "status": "proved",
   "theorems": [
    "LHF.C39_runs_components_in_order",
    "LHF.C39_every_text",
    "LHF.C39_statistics"
   ],
   "note": "Proved for every string."
  },
  {
   "property": "C40",
   "status": "proved",
   "theorems": [
    "LHF.C40_unconfigured",
    "LHF.C40_unknown_names",
    "LHF.C40_no_stage_leaves_packet",
    "LHF.C40_no_pipeline"
   ],
   "note": "Proved in full."
  },
  {
   "property": "C41",
   "status": "proved",
   "theorems": [
    "LHF.C41_nearest_is_exact",
    "LHF.C41_empty_tree",
    "LHF.C41_nearest_point"
   ],
   "note": "Proved for every sort, every abs not above the absolute value and every distance that dominates coordinate differences."
  },
  {
   "property": "C42",
   "status": "partial",
   "theorems": [
    "LHF.C42_range_query_partial",
    "LHF.C42_boundary_violated",
    "LHF.C42_range_query_points_partial"
   ],
   "note": "Proved for radius comparisons off the boundary; C42_boundary_violated refutes the boundary case."
  },
  {
   "property": "C43",
   "status": "partial",
   "theorems": [
    "LHF.C43_clustering",
    "LHF.C43_clusters_are_components",
    "LHF.C43_dbscan_euclidean",
    "LHF.C43_dbscan_exact",
    "LHF.C43_zero_epsilon_violated"
   ],
   "note": "proved for every positive epsilon; with epsilon 0 the query misses the query point itself, and C43_zero_epsilon_violated shows the stated clustering then fails."
  },
  {
   "property": "C44",
   "status": "proved",
   "theorems": [
    "LHF.C44_round",
    "LHF.C44_result"
   ],
   "note": "Proved in full, with NaN centroids."
  },
  {
   "property": "C45",
   "status": "partial",
   "theorems": [
    "LHF.C45_every_point_labelled_violated",
    "LHF.C45_all_but_last_labelled_partial"
   ],
   "note": "Violated for every input; the other points are labelled."
  },
  {
   "property": "C46",
   "status": "proved",
   "theorems": [
    "LHF.C46_statistics",
    "LHF.C46_merge_radius"
   ],
   "note": "Proved in full."
  },
  {
   "property": "C47",
   "status": "proved",
   "theorems": [
    "LHF.C47_nearest",
    "LHF.C47_nearest_empty",
    "LHF.C47_merging",
    "LHF.C47_exactly_one"
   ],
   "note": "Proved in full."
  },
  {
   "property": "C48",
   "status": "proved",
   "theorems": [
    "LHF.C48_bracket"
   ],
   "note": "Proved in full."
  },
  {
   "property": "C49",
   "status": "partial",
   "theorems": [
    "LHF.C49_never_returns_violated",
    "LHF.C49_not_configured_partial"
   ],
   "note": "the property is violated on every input (C49_never_returns_violated); only the unconfigured case works."
  },
  {
   "property": "C50",
   "status": "proved",
   "theorems": [
    "LHF.C50_window",
    "LHF.C50_completes",
    "LHF.C50_result",
    "LHF.C50_other_complex_violated"
   ],
   "note": "Proved for simplexTree, which the naive mode selects; C50_other_complex_violated shows what happens with another complex."
  },
  {
   "property": "C51",
   "status": "proved",
   "theorems": [
    "LHF.C51_aligned"
   ],
   "note": "Proved in full, whatever the statistics update does."
  },
  {
   "property": "C52",
   "status": "partial",
   "theorems": [
    "LHF.C52_clear_undefined",
    "LHF.C52_reuse_partial",
    "LHF.C52_labels_and_count_violated"
   ],
   "note": "Labels are shifted and counts are wrong (refuted); shape and weights are right (partial). clear itself is undefined behaviour under the strict reading (C52_clear_undefined)."
  },
  {
   "property": "C53",
   "status": "partial",
   "theorems": [
    "LHF.C53_array_getDimEdges",
    "LHF.C53_tree_getDimEdges_partial",
    "LHF.C53_violated"
   ],
   "note": "Array in full; tree with its own meaning; common meaning refuted."
  },
  {
   "property": "C54",
   "status": "proved",
   "theorems": [
    "LHF.C54_betti_curve",
    "LHF.C54_betti_curve_exact"
   ],
   "note": "Proved in full."
  },
  {
   "property": "C55",
   "status": "partial",
   "theorems": [
    "LHF.C55_no_edges_out_of_range",
    "LHF.C55_isolated_points_violated",
    "LHF.C55_empty_complex"
   ],
   "note": "refuted for complexes without an edge layer; C25 shows that all others give a result."
  },
  {
   "property": "C56",
   "status": "partial",
   "theorems": [
    "LHF.C56_negative_simplices",
    "LHF.C56_empty_layer_violated"
   ],
   "note": "proved for complexes without empty layers; an empty top layer is read out of range (C56_empty_layer_violated)."
  },
  {
   "property": "C57",
   "status": "partial",
   "theorems": [
    "LHF.C57_clearing_sound",
    "LHF.C57_same_as_persistencePairs",
    "LHF.C57_missing_layer_violated"
   ],
   "note": "proved when the complex has a layer of dimension dim; otherwise it is read out of range (C57_missing_layer_violated)."
  },
  {
   "property": "C58",
   "status": "partial",
   "theorems": [
    "LHF.C58_set_elimination_partial",
    "LHF.C58_few_columns_violated"
   ],
   "note": "Proved when row indices are below the number of columns; refuted otherwise."
  },
  {
   "property": "C59",
   "status": "partial",
   "theorems": [
    "LHF.C59_persistencePairs_violated",
    "LHF.C59_optPersistencePairs_violated",
    "LHF.C59_isolated_points_partial"
   ],
   "note": "Refuted for every complex with an edge; isolated points work."
  },
  {
   "property": "C60",
   "status": "proved",
   "theorems": [
    "LHF.C60_known_modes_run_all_stages"
   ],
   "note": "Proved in full."
  },
  {
   "property": "C61",
   "status": "partial",
   "theorems": [
    "LHF.C61_data_runs_pipeline_once_partial",
    "LHF.C61_upscale_never_runs_violated",
    "LHF.C61_mpi_never_runs_violated",
    "LHF.C61_console_writes_no_file",
    "LHF.C61_reduced_runs_partial",
    "LHF.C61_preprocessing"
   ],
   "note": "Stated about the whole program: proved without upscaling (standard modes: one run; reduced: one run per partition and one for the centroids); refuted with upscaling and with mpi. The preprocessing step is stated for every name."
  },
  {
   "property": "C62",
   "status": "partial",
   "theorems": [
    "LHF.C62_unknown_complex_type_violated",
    "LHF.C62_known_complex_type_partial"
   ],
   "note": "Proved for known types; refuted for all others."
  },
  {
   "property": "C63",
   "status": "proved",
   "theorems": [
    "LHF.C63_seeds",
    "LHF.C63_too_few_rows"
   ],
   "note": "Proved in full."
  },
  {
   "property": "C64",
   "status": "proved",
   "theorems": [
    "LHF.C64_objective_never_increases",
    "LHF.C64_converges"
   ],
   "note": "Proved in full."
  },
  {
   "property": "C65",
   "status": "partial",
   "theorems": [
    "LHF.C65_result_partial",
    "LHF.C65_no_cluster_violated",
    "LHF.C65_result_after_check"
   ],
   "note": "Proved when the initial clustering finds a cluster, and in general when the stream is long enough for one check of the groups; refuted otherwise."
  },
  {
   "property": "C66",
   "status": "partial",
   "theorems": [
    "LHF.C66_small_input_violated"
   ],
   "note": "violated; the theorem shows that every data set with fewer than 1000 rows leaves the defined behaviour."
  },
  {
   "property": "C67",
   "status": "partial",
   "theorems": [
    "LHF.C67_defined_iff",
    "LHF.C67_window_never_moves_violated",
    "LHF.C67_accept_fails_violated",
    "LHF.C67_constant_stream",
    "LHF.C67_replacement_fails_violated"
   ],
   "note": "violated; C67_defined_iff says exactly which streams are defined executions (those whose rows after the 200th are all ordinary, so nothing is ever replaced)."
  },
  {
   "property": "C68",
   "status": "proved",
   "theorems": [
    "LHF.C68_mean",
    "LHF.C68_initial_statistics"
   ],
   "note": "Proved in full for windows of distinct positions with rows of equal length."
  },
  {
   "property": "C69",
   "status": "partial",
   "theorems": [
    "LHF.C69_partition_rule",
    "LHF.C69_outdated",
    "LHF.C69_victim_outdated",
    "LHF.C69_partition",
    "LHF.C69_partition_extremes",
    "LHF.C69_victim_elsewhere",
    "LHF.C69_oldest_violated",
    "LHF.C69_not_oldest_violated"
   ],
   "note": "the exact rule for the choice of partition, the choice of the outdated partition and of the point that goes are proved; that the evicted point is the oldest one is violated."
  },
  {
   "property": "C70",
   "status": "partial",
   "theorems": [
    "LHF.C70_past_end_violated",
    "LHF.C70_no_triangle",
    "LHF.C70_tree_run_partial",
    "LHF.C70_tree_run_or_undefined",
    "LHF.C70_tree_run_default",
    "LHF.C70_tree_run_no_edge"
   ],
   "note": "proved for the reading of the end iterator as 'not a pivot' and for the runs that return when that read is undefined; whether it happens is C29. The tree's uninitialised members are taken to be zero. It happens on every cloud whose widest pairs below epsilon lie in a triangle, with dimensions 2 or more (C70_past_end_violated), and never on a cloud without triangles (C70_no_triangle)."
  },
  {
   "property": "C71",
   "status": "partial",
   "theorems": [
    "LHF.C71_past_end_violated",
    "LHF.C71_no_triangle",
    "LHF.C71_array_run_partial",
    "LHF.C71_array_run_or_undefined",
    "LHF.C71_array_run_no_edge"
   ],
   "note": "as C70; with dimensions = 0 this complex has no edges and the run reads out of range. Past-the-end reads as for C70 (C71_past_end_violated, C71_no_triangle)."
  },
  {
   "property": "C72",
   "status": "proved",
   "theorems": [
    "LHF.C72_rank_nullity",
    "LHF.C72_no_faces",
    "LHF.C72_betti"
   ],
   "note": "Proved in full for two neighbouring layers of any simplicial complex; checkFace is the vector version the pipe uses."
  },
  {
   "property": "C73",
   "status": "partial",
   "theorems": [
    "LHF.C73_out_of_range_violated",
    "LHF.C73_no_rows_violated",
    "LHF.C73_debug_violated"
   ],
   "note": "the property is refuted for every input with dimensions >= 1; there is no input on which intervals are written."
  },
  {
   "property": "C74",
   "status": "partial",
   "theorems": [
    "LHF.C74_csv_values_partial",
    "LHF.C74_no_final_newline_partial",
    "LHF.C74_one_digit_violated"
   ],
   "note": "proved for lines of at least two characters (spaces not counted); refuted for shorter lines, which are skipped."
  },
  {
   "property": "C75",
   "status": "proved",
   "theorems": [
    "LHF.C75_algorithm"
   ],
   "note": "Proved in full over the reals; neighbourhoods may contain or omit points at distance exactly epsilon (the kd-tree search leaves the boundary open, see C42)."
  },
  {
   "property": "C76",
   "status": "partial",
   "theorems": [
    "LHF.C76_indexed_is_rips_partial",
    "LHF.C76_four_points_violated",
    "LHF.C76_empty"
   ],
   "note": "proved whenever at most three layers arise (maxDim <= 2 or no four points mutually close) and refuted in every other case."
  },
  {
   "property": "C77",
   "status": "partial",
   "theorems": [
    "LHF.C77_answer_frozen",
    "LHF.C77_stale_violated"
   ],
   "note": "the exact behaviour is proved (every later query repeats the first answer) and refutes the property."
  },
  {
   "property": "C78",
   "status": "partial",
   "theorems": [
    "LHF.C78_find_held",
    "LHF.C78_before_query_violated",
    "LHF.C78_unknown_point",
    "LHF.C78_absent_null_violated",
    "LHF.C78_absent_prefix",
    "LHF.C78_first_not_found_violated",
    "LHF.C78_absent_found_violated"
   ],
   "note": "the exact answer is proved for every held simplex and for every absent one whose first vertex is a point; it refutes the property."
  },
  {
   "property": "C79",
   "status": "partial",
   "theorems": [
    "LHF.C79_faces",
    "LHF.C79_faces_violated",
    "LHF.C79_pivots_violated",
    "LHF.C79_run_violated"
   ],
   "note": "the exact result of getFaces is proved and refutes the property; the run is shown to leave its table whenever there are two edges."
  },
  {
   "property": "C80",
   "status": "partial",
   "theorems": [
    "LHF.C80_counts",
    "LHF.C80_vertexCount_violated"
   ],
   "note": "simplexCount is proved; vertexCount is refuted for every complex with an edge."
  },
  {
   "property": "C81",
   "status": "proved",
   "theorems": [
    "LHF.C81_collapse_no_effect"
   ],
   "note": "Proved in full; the code that reduces a layer is an arbitrary function, because it is never reached."
  },
  {
   "property": "C82",
   "status": "proved",
   "theorems": [
    "LHF.C82_collapse_exact",
    "LHF.C82_no_collapse",
    "LHF.C82_what_stays",
    "LHF.C82_removed_edges_dim2",
    "LHF.C82_edges_left"
   ],
   "note": "Proved in full for Rips complexes; the specification of the result is Spec.collapsed, and C82_edges_left says in every dimension which edges stay: those that are not the longest side of a triangle."
  },
  {
   "property": "C83",
   "status": "proved",
   "theorems": [
    "LHF.C83_components"
   ],
   "note": "Proved in full for Rips complexes."
  },
  {
   "property": "C84",
   "status": "partial",
   "theorems": [
    "LHF.C84_nothing_filled",
    "LHF.C84_no_cavities",
    "LHF.C84_loops_violated"
   ],
   "note": "refuted by a square; proved instead: no loop is ever filled and no cavity remains after a collapse."
  },
  {
   "property": "C85",
   "status": "partial",
   "theorems": [
    "LHF.C85_past_end_violated",
    "LHF.C85_past_end_array_violated",
    "LHF.C85_no_triangle",
    "LHF.C85_no_triangle_array",
    "LHF.C85_standard_program_partial",
    "LHF.C85_standard_program_default",
    "LHF.C85_standard_program_or_undefined",
    "LHF.C85_no_close_pair_violated",
    "LHF.C85_standard_program_array_partial",
    "LHF.C85_array_dimension_zero_violated"
   ],
   "note": "Proved from command line and file text to the files written, for dimensions up to 1 as the code stands (C85_standard_program_default), and for every dimension with the past-the-end read as no pivot (_partial), or else undefined; with no close pair the program reads past the end (violated). With a simplexArrayList and dimension 0 the program is undefined on every input (violated). With three or more rows, all closer than epsilon to each other, and dimensions 2 or more, the program always reads past the end of a list (C85_past_end_violated, C85_past_end_array_violated); with no three rows close to each other it is correct as written for every number of dimensions (C85_no_triangle). C85_no_triangle_array says the same of a simplexArrayList."
  },
  {
   "property": "C86",
   "status": "partial",
   "theorems": [
    "LHF.C86_reduced_barcodes",
    "LHF.C86_file_left_is_centroids",
    "LHF.C86_no_preprocessor_partial",
    "LHF.C86_reduced_ends_iff"
   ],
   "note": "Proved for the array complex with the explicit default pipeline: barcodes, file left at the end, and exactly when the program ends; without a preprocessor the program ends (_partial: past-the-end read as no pivot)."
  },
  {
   "property": "C87",
   "status": "partial",
   "theorems": [
    "LHF.C87_reduced_mode_undefined_violated",
    "LHF.C87_second_run_wrong_violated",
    "LHF.C87_table_of_earlier_runs_violated"
   ],
   "note": "refuted: undefined on every command line of this mode as the standard has it; a wrong second barcode if the write to freed memory is harmless; an out-of-range read of the table of earlier runs with the array complex. What holds is C86."
  },
  {
   "property": "C88",
   "status": "partial",
   "theorems": [
    "LHF.C88_last_row_in_no_partition_violated",
    "LHF.C88_other_rows_kept_partial"
   ],
   "note": "Stated about the barcodes the program writes. Refuted for the last row; proved for all other rows when the maximal radius is positive."
  },
  {
   "property": "C89",
   "status": "partial",
   "theorems": [
    "LHF.C89_no_interval_violated",
    "LHF.C89_short_stream_partial",
    "LHF.C89_ends_iff",
    "LHF.C89_close_points_violated"
   ],
   "note": "refuted: no interval is ever written, and more than 200 rows with a close pair are undefined. The exact condition under which the program ends is proved; short streams end. The statistics part of updateStats and the library of the sub-pipelines are arbitrary."
  },
  {
   "property": "C90",
   "status": "partial",
   "theorems": [
    "LHF.C90_no_interval_violated",
    "LHF.C90_ends_partial"
   ],
   "note": "refuted: only the header is ever written; proved: the program ends for all rows of equal positive length."
  },
  {
   "property": "C91",
   "status": "partial",
   "theorems": [
    "LHF.C91_array_violated",
    "LHF.C91_array_isolated_points_partial",
    "LHF.C91_indexed_violated",
    "LHF.C91_persistence_pipeline_violated",
    "LHF.C91_isolated_points_partial"
   ],
   "note": "refuted for every input with two points closer than epsilon, on simplexTree and simplexArrayList, and on indSimplexTree (two close pairs, or one with twist); C91_isolated_points_partial and C91_array_isolated_points_partial give the intervals otherwise. The header line that the stage writes into its text is not modelled."
  },
  {
   "property": "C92",
   "status": "partial",
   "theorems": [
    "LHF.C92_indexed_program_partial",
    "LHF.C92_indexed_program_or_undefined",
    "LHF.C92_indexed_program_default",
    "LHF.C92_four_points_violated",
    "LHF.C92_no_close_pair_violated",
    "LHF.C92_past_end_violated",
    "LHF.C92_no_triangle"
   ],
   "note": "Proved for dimensions up to 1 as the code stands (_default); for at most triangles, or no four mutually close points, with the past-the-end read as no pivot (_partial) or else undefined. Refuted for four close points and dimensions of at least 3, and without a close pair. With three or more rows, all closer than epsilon to each other, and dimensions 2 or more, the program always leaves defined behaviour (C92_past_end_violated); with no three rows closer than epsilon to each other it is correct as written for every number of dimensions (C92_no_triangle). Collapse off."
  },
  {
   "property": "C93",
   "status": "partial",
   "theorems": [
    "LHF.C93_second_run_violated"
   ],
   "note": "refuted: with an indSimplexTree no run of mode reduced with two clouds has a defined end. What holds is C86 for simplexArrayList."
  },
  {
   "property": "C94",
   "status": "partial",
   "theorems": [
    "LHF.C94_components_array_partial",
    "LHF.C94_betti_curve_array_partial",
    "LHF.C94_row_order_array_violated",
    "LHF.C94_components_partial",
    "LHF.C94_whole_barcode_default",
    "LHF.C94_row_order_program_default",
    "LHF.C94_betti_curve_partial",
    "LHF.C94_closed_betti_curve_partial",
    "LHF.C94_row_order_violated"
   ],
   "note": "proved: dimension-0 lines, and the whole barcode with dimensions at most 1 (also for the whole program). Refuted from dimension 1 on by five plane points; what remains there is the number of bars at every scale (noPivot reading of C29). simplexTree; the dimension-0 lines, the number of bars and the refutation also for simplexArrayList."
  },
  {
   "property": "C95",
   "status": "proved",
   "theorems": [
    "LHF.C95_scale_array",
    "LHF.C95_isometry_tree",
    "LHF.C95_isometry_array",
    "LHF.C95_translation_tree",
    "LHF.C95_scale_tree"
   ],
   "note": "Rows with the same mutual distances (isometries, translations) give the same run for simplexTree and simplexArrayList; scaling points and epsilon by c scales the barcode for both complexes, for a sort that looks only at the order (insertion sort is shown to be one)."
  },
  {
   "property": "C96",
   "status": "partial",
   "theorems": [
    "LHF.C96_twist_pivots_partial",
    "LHF.C96_same_as_plain",
    "LHF.C96_tree_violated",
    "LHF.C96_run_violated"
   ],
   "note": "proved for every filtered complex when the positions of the facets are found; agrees with the plain elimination (C57). Refuted for the indexed tree, whose getFaces returns 0 or 1 in place of positions: at most two pivots per dimension, and the run leaves its table as soon as there is an edge."
  },
  {
   "property": "C97",
   "status": "partial",
   "theorems": [
    "LHF.C97_kmeans_at_rest_array_partial",
    "LHF.C97_kmeans_ends_array_partial",
    "LHF.C97_kmeans_barcode_partial",
    "LHF.C97_kmeans_barcode_array_partial",
    "LHF.C97_kmeans_at_rest_partial",
    "LHF.C97_kmeans_ends_partial",
    "LHF.C97_few_rows_violated",
    "LHF.C97_one_cluster_violated"
   ],
   "note": "proved for simplexTree and simplexArrayList when the program ends; the last row is in no class (C45), the end iterator is not read as libstdc++ does (C29), a run with an empty class (NaN centroid) is not followed. Refuted: fewer different rows than clusters, and one cluster."
  },
  {
   "property": "C98",
   "status": "partial",
   "theorems": [
    "LHF.C98_denstream_barcode_array_partial",
    "LHF.C98_denstream_outcome_array_partial",
    "LHF.C98_denstream_barcode_partial",
    "LHF.C98_denstream_outcome_partial",
    "LHF.C98_small_input_violated"
   ],
   "note": "proved for at least 1000 rows with a dense row among the first 1000 (C65, C66) and a simplexTree or a simplexArrayList; whether the program ends is decided by the distances of the centers. Refuted below 1000 rows."
  },
  {
   "property": "C99",
   "status": "partial",
   "theorems": [
    "LHF.C99_smaller_epsilon_array_runs",
    "LHF.C99_smaller_epsilon_array_partial",
    "LHF.C99_components_array",
    "LHF.C99_program_array_partial",
    "LHF.C99_smaller_epsilon_runs",
    "LHF.C99_smaller_epsilon_partial",
    "LHF.C99_components",
    "LHF.C99_program_partial",
    "LHF.C99_unstable_sort_violated"
   ],
   "note": "The whole barcode is cut exactly, for runs that return, when the sort is stable (entries of equal weight keep their order); std::sort is not required to be stable. The components are cut exactly whatever the sort. As the code pairs a column with its oldest row (C28), the pairs in dimension 1 and above depend on the order of equal weights. The same for a simplexArrayList (edges of length equal to epsilon are kept, so bars ending at the smaller bound are kept), for runs and for the whole program. Refuted for a sort that is stable only on lists of at most 16 entries: twelve plane points, a bar that is written with epsilon 10 and not with epsilon 12 (C99_unstable_sort_violated, both complexes)."
  },
  {
   "property": "C100",
   "status": "partial",
   "theorems": [
    "LHF.C100_dimensions_array_runs",
    "LHF.C100_dimensions_array_partial",
    "LHF.C100_program_array_partial",
    "LHF.C100_dimensions_runs",
    "LHF.C100_dimensions_partial",
    "LHF.C100_program_partial"
   ],
   "note": "For runs that return, whatever the sort; the dereference of the end iterator (C29) is read as \"not a pivot\" or does not happen. For simplexTree and for simplexArrayList (dimensions at least 1, collapse off)."
  },
  {
   "property": "C101",
   "status": "partial",
   "theorems": [
    "LHF.C101_collapse_statistics_partial",
    "LHF.C101_tree_statistics_partial",
    "LHF.C101_array_statistics_partial",
    "LHF.C101_unit",
    "LHF.C101_columns_partial",
    "LHF.C101_preprocessor_row_violated",
    "LHF.C101_indexed_statistics_partial",
    "LHF.C101_indexed_vertices_violated"
   ],
   "note": "For runs that return; simplexTree, indSimplexTree without collapse, and simplexArrayList with dimensions at least 1, without collapse (C101_array_statistics_partial) and with (C101_collapse_statistics_partial). Times, decimal rendering and sizeof are parameters. Refuted for the row of a preprocessor: it has two cells under a header of six; and on indSimplexTree, where the number of vertices is larger than the number of points as soon as two points are close."
  },
  {
   "property": "C102",
   "status": "partial",
   "theorems": [
    "LHF.C102_standard_partial",
    "LHF.C102_standard_file_partial",
    "LHF.C102_debug_collapse_violated",
    "LHF.C102_recording_partial",
    "LHF.C102_debug_option_partial",
    "LHF.C102_barcode_file_partial"
   ],
   "note": "The whole statement without debug, for every command line. With debug: the four default stages without collapse, in every mode; with collapse too in the standard modes with simplexTree and simplexArrayList (C102_standard_partial); with collapse on an indSimplexTree it is refuted (debug switches the collapse off). Missing: debug with the other pipelines, whose stages the program model takes as arbitrary."
  },
  {
   "property": "C103",
   "status": "partial",
   "theorems": [
    "LHF.C103_other_files_partial",
    "LHF.C103_console",
    "LHF.C103_log_grows",
    "LHF.C103_separate_outputs_violated"
   ],
   "note": "For every command line, the unmodelled stages writing into output/ only. Refuted: a run with output name g.csv appends its log to the barcode file of a run with output name g."
  },
  {
   "property": "C104",
   "status": "partial",
   "theorems": [
    "LHF.C104_collapse_files_partial",
    "LHF.C104_indexed_files_partial",
    "LHF.C104_tree_files_partial",
    "LHF.C104_array_files_partial",
    "LHF.C104_graph_file_violated"
   ],
   "note": "Proved for simplexTree, indSimplexTree (no collapse) and simplexArrayList (also with collapse: C104_collapse_files_partial) with distinct output files that can be opened. Refuted: on simplexTree and indSimplexTree the file of the neighbourhood graph lists vertices, triangles and all larger simplices too."
  },
  {
   "property": "C105",
   "status": "partial",
   "theorems": [
    "LHF.C105_indexed_log_partial",
    "LHF.C105_tree_log_partial",
    "LHF.C105_array_log_partial"
   ],
   "note": "For runs that return, with an output name outside of the directory output; simplexTree, indSimplexTree without collapse, and simplexArrayList with dimensions at least 1 and without collapse. Times, messages and decimal rendering are parameters. The texts of the messages are taken to depend on the arguments only, although with debug a few of them name sizes."
  },
  {
   "property": "C106",
   "status": "proved",
   "theorems": [
    "LHF.C106_one_cell_per_simplex",
    "LHF.C106_observables"
   ],
   "note": "The whole statement, for all matrices with non-negative entries and all numbers of points; the field parent holds the first child, as in the code. C106_observables carries the fields of the object over to the model without pointers, so that C17-C20 apply to both."
  },
  {
   "property": "C107",
   "status": "partial",
   "theorems": [
    "LHF.C107_cells_in_use",
    "LHF.C107_clear_undefined",
    "LHF.C107_clear_leaks_violated"
   ],
   "note": "refuted for every tree: clear writes to a freed node; if that is harmless it frees the points only, so that one cell per simplex less one stays allocated. Proved: no cell is freed twice; exact numbers of cells before and after."
  },
  {
   "property": "C108",
   "status": "partial",
   "theorems": [
    "LHF.C108_other_vertex_partial",
    "LHF.C108_first_vertex_violated",
    "LHF.C108_edge_stays_violated"
   ],
   "note": "proved: row of the matrix removed, simplices whose smallest vertex is key cut off, others kept, when key is not the first vertex. Refuted: other simplices with the vertex, the columns, lists and counters stay; for the first vertex head is left pointing to freed memory."
  },
  {
   "property": "C109",
   "status": "partial",
   "theorems": [
    "LHF.C109_components_stable_partial",
    "LHF.C109_components_stable_array_partial",
    "LHF.C109_program_partial",
    "LHF.C109_loops_violated"
   ],
   "note": "proved: the dimension-0 bars, in the sup norm of the sorted ends, for both complexes and for the whole program (simplexTree). Refuted from dimension 1 on already for delta = 0 (C109_loops_violated, from C94)."
  },
  {
   "property": "C110",
   "status": "partial",
   "theorems": [
    "LHF.C110_loops_array_violated",
    "LHF.C110_repeated_row_partial",
    "LHF.C110_repeated_row_array_partial",
    "LHF.C110_loops_violated"
   ],
   "note": "proved: the dimension-0 lines, for both complexes and all places of the copy. Refuted from dimension 1 on for a copy at the front (C110_loops_violated, and C110_loops_array_violated for simplexArrayList; the witness uses a stable sort)."
  },
  {
   "property": "C111",
   "status": "partial",
   "theorems": [
    "LHF.C111_far_clouds_runs",
    "LHF.C111_far_clouds_all_partial",
    "LHF.C111_far_clouds_end_partial",
    "LHF.C111_program_partial",
    "LHF.C111_far_clouds_default",
    "LHF.C111_far_clouds_array_runs",
    "LHF.C111_far_clouds_array_all_partial",
    "LHF.C111_far_clouds_array_end_partial",
    "LHF.C111_program_array_partial",
    "LHF.C111_far_clouds_partial",
    "LHF.C111_far_clouds_array_partial",
    "LHF.C111_unstable_sort_violated"
   ],
   "note": "proved: dimension 0, for both complexes, except that of the two bars up to epsilon only one is written (as in C23); the whole barcode with dimensions at most 1; the whole barcode in all dimensions, for both complexes, with a stable sort and the noPivot reading of C29 (also for the whole program). Refuted for a sort that is stable only on lists of at most 16 entries: two clouds of five and eight points (C111_unstable_sort_violated, both complexes)."
  },
  {
   "property": "C112",
   "status": "partial",
   "theorems": [
    "LHF.C112_collapse_erases_partial",
    "LHF.C112_deleted_once_partial",
    "LHF.C112_dangling_violated"
   ],
   "note": "proved for all complexes with at most triangles (beyond that insertion itself fails, C76): the collapse ends, only erases, keeps points, weights, order and counts, erases at least one triangle, deletes no node twice and none that is still listed. Refuted: the tree keeps pointers to deleted nodes."
  },
  {
   "property": "C113",
   "status": "partial",
   "theorems": [
    "LHF.C113_components_violated",
    "LHF.C113_earlier_query_hides",
    "LHF.C113_not_closed_violated",
    "LHF.C113_disconnected_violated",
    "LHF.C113_program_violated"
   ],
   "note": "refuted: for every three points with d01 < d12 < d02 the components change; four points leave a triangle without a side; five points leave a torn complex; the barcode of the program changes. Proved: a query before the collapse hides it."
  },
  {
   "property": "C114",
   "status": "partial",
   "theorems": [
    "LHF.C114_evaluator_partial",
    "LHF.C114_small_window_violated",
    "LHF.C114_tree_history",
    "LHF.C114_base_history",
    "LHF.C114_unset_evaluator_violated"
   ],
   "note": "proved for windows of at least 20 rows and for a simplexTree with an evaluator, over every history. Refuted: a smaller window is read past its end, a simplexTree without an evaluator calls an unset pointer, the other complex types refuse every row."
  },
  {
   "property": "C115",
   "status": "partial",
   "theorems": [
    "LHF.C115_kmeans_violated",
    "LHF.C115_ball_defined_iff",
    "LHF.C115_ball_violated"
   ],
   "note": "refuted: kMeans reads a variable without a value on every input; ballKmeans is defined only for one row, and then returns nothing."
  },
  {
   "property": "C116",
   "status": "partial",
   "theorems": [
    "LHF.C116_collapse_run",
    "LHF.C116_same_components",
    "LHF.C116_no_edge",
    "LHF.C116_program",
    "LHF.C116_loops_violated"
   ],
   "note": "proved: the run with collapse ends and prints exactly the dimension-0 lines of the run without, also for the whole program; refuted from dimension 1 on: no line of dimension 1 or more is ever printed (C116_loops_violated gives five plane points with two loops)."
  },
  {
   "property": "C117",
   "status": "partial",
   "theorems": [
    "LHF.C117_find_vector_array_partial",
    "LHF.C117_find_set_array_violated",
    "LHF.C117_find_tree_violated",
    "LHF.C117_find_vector_indexed_violated",
    "LHF.C117_search_violated",
    "LHF.C117_d0pairs_violated"
   ],
   "note": "proved: simplexArrayList answers vectors exactly (sets given to indSimplexTree are in C78); refuted: every other combination answers no for every simplex held, after any history of insertions and queries; getd0Pairs is always empty; search never returns for a simplex without point 0."
  },
  {
   "property": "C118",
   "status": "partial",
   "theorems": [
    "LHF.C118_frozen_violated",
    "LHF.C118_wrong_complex_violated",
    "LHF.C118_short_stream",
    "LHF.C118_exactly_full_partial"
   ],
   "note": "refuted: when the program ends after at least 50 rows, its complex and counts are exactly those of the first 50 rows, whatever came after; below 50 rows the complex is empty. It holds for streams of exactly 50 rows."
  },
  {
   "property": "C119",
   "status": "partial",
   "theorems": [
    "LHF.C119_saved_windows_partial",
    "LHF.C119_short_stream_violated",
    "LHF.C119_later_rows_violated"
   ],
   "note": "proved for runs that end: number, names and contents of the files; each shows the window of that moment. Refuted: streams of at most 200 rows leave no file; the rows after the 200th are in no file."
  },
  {
   "property": "C120",
   "status": "partial",
   "theorems": [
    "LHF.C120_boundary_pipeline_violated",
    "LHF.C120_no_interval_violated"
   ],
   "note": "refuted for every input with dimensions at least 1; C120_no_interval_violated covers the reading in which the entry past the end is readable."
  },
  {
   "property": "C121",
   "status": "partial",
   "theorems": [
    "LHF.C121_tree_console_partial",
    "LHF.C121_array_console_partial",
    "LHF.C121_indexed_console_partial",
    "LHF.C121_console_runs_partial",
    "LHF.C121_same_text_violated",
    "LHF.C121_console_violated"
   ],
   "note": "The claim is false (C121_same_text_violated, C121_console_violated): what is printed is determined by the command line and the numbers of points, coordinates and simplices. Proved instead: exactly what is printed, for the three complex types without preprocessor (array and indexed type without collapse, indexed type with debug 0). The messages and the rendering of numbers are parameters; the lines before the input is read are those of C139."
  },
  {
   "property": "C122",
   "status": "partial",
   "theorems": [
    "LHF.C122_reduced_table",
    "LHF.C122_upscale_counts",
    "LHF.C122_indices_violated"
   ],
   "note": "Proved: the table printed in mode reduced (default pipeline given explicitly, simplexArrayList) is the tables of the runs on the partitions and on the centroids, and with upscaling the counts are those of the labels. The part about row numbers is false (C122_indices_violated): the points are named by their places in the partition."
  },
  {
   "property": "C123",
   "status": "partial",
   "theorems": [
    "LHF.C123_stage_messages",
    "LHF.C123_complex_messages_violated",
    "LHF.C123_collapse_log_violated",
    "LHF.C123_empty_collapse_log",
    "LHF.C123_files_and_messages_violated"
   ],
   "note": "Proved for the stages (C123_stage_messages). False for the complexes, which assign the number to a string (C123_complex_messages_violated): with debug off the collapse of a simplexArrayList writes two lines (C123_collapse_log_violated); and a value such as 'true' switches the lines on and the files off (C123_files_and_messages_violated)."
  },
  {
   "property": "C124",
   "status": "partial",
   "theorems": [
    "LHF.C124_empty_answers_partial",
    "LHF.C124_cleared_array",
    "LHF.C124_empty_violated"
   ],
   "note": "Proved for all histories except layer 0 of getDimEdges, clear and the empty vector (C124_empty_answers_partial); these three fail on an empty complex (C124_empty_violated)."
  },
  {
   "property": "C125",
   "status": "partial",
   "theorems": [
    "LHF.C125_points_kept_partial",
    "LHF.C125_no_matrix_violated"
   ],
   "note": "Proved for every non-empty matrix, for insertions that return (C125_points_kept_partial). Without a matrix the two trees silently drop every row and a simplexArrayList reads out of range (C125_no_matrix_violated)."
  },
  {
   "property": "C126",
   "status": "partial",
   "theorems": [
    "LHF.C126_uninitialised_count_partial",
    "LHF.C126_count_violated",
    "LHF.C126_standard_program_partial"
   ],
   "note": "Proved for files, statistics rows' names, barcode, tables, data and failures (C126_uninitialised_count_partial, for whole programs in every mode; C126_standard_program_partial joins it with C85). The sizes that the trees report are wrong by the initial content (C126_count_violated). The pointer head, which the constructors do not set either, is taken to be null."
  },
  {
   "property": "C127",
   "status": "partial",
   "theorems": [
    "LHF.C127_not_negative",
    "LHF.C127_tree_barcode",
    "LHF.C127_tree_size_violated",
    "LHF.C127_tree_explosion_violated",
    "LHF.C127_indexed_barcode_partial",
    "LHF.C127_indexed_violated",
    "LHF.C127_array_violated"
   ],
   "note": "Values that are not negative: C127_not_negative (the program with an int is the program of the other properties). Negative values on simplexTree: the program ends with the barcode of 0 (C127_tree_barcode), but stores every set of close points (C127_tree_size_violated), 2^n - 1 of them when all points are close (C127_tree_explosion_violated). On indSimplexTree the barcode is that of 0 as long as no four points are close (C127_indexed_barcode_partial), otherwise the program writes past the end of a vector (C127_indexed_violated). On simplexArrayList it fails as with 0 (C127_array_violated)."
  },
  {
   "property": "C128",
   "status": "partial",
   "theorems": [
    "LHF.C128_positive",
    "LHF.C128_returns_clusters",
    "LHF.C128_negative_violated",
    "LHF.C128_zero_violated",
    "LHF.C128_no_iterations",
    "LHF.C128_program_violated"
   ],
   "note": "Positive numbers, at most as many as there are distinct rows: C128_returns_clusters (with C128_positive), and without iterations C128_no_iterations. Violated for negative numbers (C128_negative_violated), for 0 (C128_zero_violated) and for more clusters than distinct rows (C63_too_few_rows); for whole programs C128_program_violated. streamingKmeans does not read the option at all (C49)."
  },
  {
   "property": "C129",
   "status": "proved",
   "theorems": [
    "LHF.C129_unread_options",
    "LHF.C129_unread_options_preprocessor",
    "LHF.C129_unknown_names",
    "LHF.C129_order"
   ],
   "note": "C129_unread_options (no preprocessor), C129_unread_options_preprocessor, C129_unknown_names, C129_order. The barcode and statistics files are compared; with debug the log and the debug files differ (C102, C123). Preprocessors are assumed to read only options other than debug."
  },
  {
   "property": "C130",
   "status": "partial",
   "theorems": [
    "LHF.C130_boundary_partial",
    "LHF.C130_violated",
    "LHF.C130_reduced_violated"
   ],
   "note": "C130_boundary_partial says what the numbers are. Violated: C130_violated (a recorded number that is no point) and C130_reduced_violated (mode reduced reads past its labels on four points in a square). C130_boundary_partial assumes that exactly the negative simplices are skipped (SkipsNegatives), which always holds in the intended reading."
  },
  {
   "property": "C131",
   "status": "partial",
   "theorems": [
    "LHF.C131_line_run_partial",
    "LHF.C131_line_program_partial",
    "LHF.C131_line_program_default",
    "LHF.C131_line_program_or_undefined",
    "LHF.C131_line_program_array_partial",
    "LHF.C131_line_program_collapse",
    "LHF.C131_line_program_indexed_partial",
    "LHF.C131_no_short_gap_violated"
   ],
   "note": "The rows are related to an increasing list of numbers by a bijection that preserves distances (Spec.OnLine; onLine_column: a file with one number per row, in any order). Proved for the whole program with a simplexTree: with dimensions at most 1 (the default) as the code stands; for every number of dimensions under the reading that a lookup past the end finds no pivot (_partial), or, as written, with the past-the-end read as the only other outcome (_or_undefined). Also for simplexArrayList, where gaps equal to epsilon are listed too: with the option collapse as the code stands (_collapse), without it under the same reading; and for indSimplexTree with at most 2 dimensions. When no gap is shorter than epsilon the program reads outside of a list (_violated)."
  },
  {
   "property": "C132",
   "status": "partial",
   "theorems": [
    "LHF.C132_complete_run_partial",
    "LHF.C132_complete_program_partial",
    "LHF.C132_complete_program_default",
    "LHF.C132_complete_program_or_undefined",
    "LHF.C132_complete_program_array_partial",
    "LHF.C132_open_loop_violated"
   ],
   "note": "Proved for the whole program with a simplexTree: with dimensions at most 1 (the default) as the code stands; for every number of dimensions under the reading that a lookup past the end finds no pivot (_partial), or, as written, with the past-the-end read as the only other outcome (_or_undefined). For simplexArrayList the radius may be equal to epsilon. The condition cannot be dropped: a loop that is still open at epsilon is not written at all (C132_open_loop_violated, the corners of a square)."
  },
  {
   "property": "C133",
   "status": "partial",
   "theorems": [
    "LHF.C133_few_run_partial",
    "LHF.C133_few_program_partial",
    "LHF.C133_few_program_or_undefined",
    "LHF.C133_few_program_array_partial",
    "LHF.C133_few_program_indexed_partial",
    "LHF.C133_enough_dimensions_partial",
    "LHF.C133_enough_program_partial",
    "LHF.C133_enough_program_array_partial"
   ],
   "note": "Partial for the same reason as C85: with dimensions of at least 2 the code reads past the end of a list of pivots (C85_past_end_violated), and the program theorems take that read to find no pivot, or leave it as the only other outcome (C133_few_program_or_undefined). With that: on a simplexTree, a simplexArrayList and (small cases) an indSimplexTree, no line of dimension k with fewer than 2k+2 rows, and the same file for all dimensions from half the number of rows on. The bound is sharp (the corners of a square). The lemma behind it, ripsBetti_few, holds for every distance."
  },
  {
   "property": "C134",
   "status": "partial",
   "theorems": [
    "LHF.C134_real_run_partial",
    "LHF.C134_real_program_partial",
    "LHF.C134_real_program_or_undefined_partial",
    "LHF.C134_real_program_array_partial",
    "LHF.C134_real_program_indexed_partial",
    "LHF.C134_split_bar_violated"
   ],
   "note": "proved for every cloud and all s \u2264 t that there are at most as many bars across s and t as classes that live from s to t, and that each bar is a class that lives as long (also a field of DescribesRips, so it holds wherever C70, C71, C85, C88, C91, C92 and the preprocessors conclude it); the converse is false: C134_split_bar_violated, five points of the plane whose one loop [\u221a5, 3) is written as [\u221a5, \u221a8) and [\u221a8, 3). Assumes, from dimension 2 on, that reading past the end finds no pivot (or that the run returns). Program theorems for all three complex types."
  },
  {
   "property": "C135",
   "status": "partial",
   "theorems": [
    "LHF.C135_exact_bars",
    "LHF.C135_exact_run_partial",
    "LHF.C135_exact_run_or_undefined",
    "LHF.C135_exact_run_array_partial",
    "LHF.C135_exact_program_partial",
    "LHF.C135_exact_program_indexed_partial",
    "LHF.C135_exact_program_array_partial"
   ],
   "note": "proved as stated for every filtered complex and every run that returns, as the code is written (the only other outcome is the read past the end of C05) and when the read finds no pivot; with libstdc++'s read, under the condition of C28 on skipped rows. The whole-program theorems assume that the read finds no pivot. Program theorems for all three complex types (indSimplexTree: dimensions at most 2 or no four points pairwise close)."
  },
  {
   "property": "C136",
   "status": "partial",
   "theorems": [
    "LHF.C136_true_run_partial",
    "LHF.C136_true_program_partial",
    "LHF.C136_true_program_or_undefined",
    "LHF.C136_true_program_array_partial",
    "LHF.C136_true_program_indexed_partial",
    "LHF.C136_touching_bars_violated"
   ],
   "note": "proved for every such cloud as the code is written (the only other outcome of the program is the read past the end of C05); the theorems without that alternative assume that the read past the end finds no pivot. The condition cannot be weakened to bars that touch: C136_touching_bars_violated. Program theorems for all three complex types (indSimplexTree: dimensions at most 2 or no four points pairwise close)."
  },
  {
   "property": "C137",
   "status": "partial",
   "theorems": [
    "LHF.C137_printed",
    "LHF.C137_quiet",
    "LHF.C137_printed_upscale",
    "LHF.C137_printed_reduced"
   ],
   "note": "All of the statement except that the pipeline given as the single name slidingwindow is excluded (it is run without reading the input), and that the texts of streamingKmeans and of the stages outside the default pipeline (other than persistencePairs without debugging) are parameters of the model. The settings are those of C139. C137_quiet lists the stages that print nothing of their own."
  },
  {
   "property": "C138",
   "status": "partial",
   "theorems": [
    "LHF.C138_queries_partial",
    "LHF.C138_listed_once",
    "LHF.C138_find_violated"
   ],
   "note": "all of the statement for every state and every list of questions, except find(set) of indSimplexTree, whose answer before the first listing is read from memory that has not been written (C138_find_violated); find(vector) is proved unchanged for all types."
  },
  {
   "property": "C139",
   "status": "proved",
   "theorems": [
    "LHF.C139_table_unique",
    "LHF.C139_settings_shown",
    "LHF.C139_rows"
   ],
   "note": "Proved in full for command lines of names and values (a last name without a value is the null conversion of C37). The table is unique (C139_table_unique). The theorem also gives the lines the constructor of the packet prints after the table."
  }
 ]
}