{
 "claims": [
  {
   "property": "C01",
   "status": "proved",
   "theorems": [
    "FP.Props.C01_calc_path_is_minimal"
   ],
   "note": "Needs overflow checks on; C32 transfers to release builds when no overflow occurs."
  },
  {
   "property": "C02",
   "status": "proved",
   "theorems": [
    "FP.Props.C02_none_iff_unreachable"
   ],
   "note": "Theorems with P.checked = true are for builds with overflow checks; C32, C94 and C108 carry them over to builds without."
  },
  {
   "property": "C03",
   "status": "proved",
   "theorems": [
    "FP.Props.C03_nodes_are_a_path"
   ],
   "note": "Theorems with P.checked = true are for builds with overflow checks; C32, C94 and C108 carry them over to builds without."
  },
  {
   "property": "C04",
   "status": "proved",
   "theorems": [
    "FP.Props.C04_path_is_simple"
   ],
   "note": "Theorems with P.checked = true are for builds with overflow checks; C32, C94 and C108 carry them over to builds without."
  },
  {
   "property": "C05",
   "status": "proved",
   "theorems": [
    "FP.Props.C05_self_path",
    "FP.Props.C05_self_path_fresh"
   ],
   "note": ""
  },
  {
   "property": "C06",
   "status": "proved",
   "theorems": [
    "FP.Props.C06_multi_is_minimal"
   ],
   "note": "Theorems with P.checked = true are for builds with overflow checks; C32, C94 and C108 carry them over to builds without."
  },
  {
   "property": "C07",
   "status": "proved",
   "theorems": [
    "FP.Props.C07_multi_decomposes"
   ],
   "note": "Theorems with P.checked = true are for builds with overflow checks; C32, C94 and C108 carry them over to builds without."
  },
  {
   "property": "C08",
   "status": "proved",
   "theorems": [
    "FP.Props.C08_multi_none_iff"
   ],
   "note": "Theorems with P.checked = true are for builds with overflow checks; C32, C94 and C108 carry them over to builds without."
  },
  {
   "property": "C09",
   "status": "proved",
   "theorems": [
    "FP.Props.C09_reused_calculator_like_fresh"
   ],
   "note": ""
  },
  {
   "property": "C10",
   "status": "proved",
   "theorems": [
    "FP.Props.C10_any_permutation_accepted",
    "FP.Props.C10_any_permutation_optimal"
   ],
   "note": "Theorems with P.checked = true are for builds with overflow checks; C32, C94 and C108 carry them over to builds without."
  },
  {
   "property": "C11",
   "status": "proved",
   "theorems": [
    "FP.Props.C11_err_iff_wrong_length",
    "FP.Props.C11_err_iff_wrong_length_default"
   ],
   "note": ""
  },
  {
   "property": "C12",
   "status": "proved",
   "theorems": [
    "FP.Props.C12_answers_do_not_depend_on_preparation"
   ],
   "note": "Theorems with P.checked = true are for builds with overflow checks; C32, C94 and C108 carry them over to builds without."
  },
  {
   "property": "C13",
   "status": "proved",
   "theorems": [
    "FP.Props.C13_ordering_is_permutation",
    "FP.Props.C13_order_is_kept"
   ],
   "note": "Theorems with P.checked = true are for builds with overflow checks; C32, C94 and C108 carry them over to builds without."
  },
  {
   "property": "C14",
   "status": "proved",
   "theorems": [
    "FP.Props.C14_prepare_again_same_graph"
   ],
   "note": ""
  },
  {
   "property": "C15",
   "status": "proved",
   "theorems": [
    "FP.Props.C15_push",
    "FP.Props.C15_prepare_panics",
    "FP.Props.C15_prepare_with_order_panics",
    "FP.Props.C10_any_permutation_accepted"
   ],
   "note": "Theorems with P.checked = true are for builds with overflow checks; C32, C94 and C108 carry them over to builds without."
  },
  {
   "property": "C16",
   "status": "proved",
   "theorems": [
    "FP.Props.C16_valid_arguments",
    "FP.Props.C16_invalid_arguments"
   ],
   "note": "Theorems with P.checked = true are for builds with overflow checks; C32, C94 and C108 carry them over to builds without."
  },
  {
   "property": "C17",
   "status": "proved",
   "theorems": [
    "FP.Props.C17_queries_terminate",
    "FP.Props.C17_linear_rounds",
    "FP.Props.C17_unpacking_depth"
   ],
   "note": "Theorems with P.checked = true are for builds with overflow checks; C32, C94 and C108 carry them over to builds without."
  },
  {
   "property": "C18",
   "status": "proved",
   "theorems": [
    "FP.Props.C18_every_node_contracted_once",
    "FP.Props.C18_preparation_terminates",
    "FP.Props.C15_prepare_panics"
   ],
   "note": "Theorems with P.checked = true are for builds with overflow checks; C32, C94 and C108 carry them over to builds without."
  },
  {
   "property": "C19",
   "status": "proved",
   "theorems": [
    "FP.Props.C19_freeze_canonicalises"
   ],
   "note": ""
  },
  {
   "property": "C20",
   "status": "proved",
   "theorems": [
    "FP.Props.C20_same_minima_same_graph",
    "FP.Props.C20_insertion_order",
    "FP.Props.C20_redundant_edge"
   ],
   "note": ""
  },
  {
   "property": "C21",
   "status": "proved",
   "theorems": [
    "FP.Props.C21_add_edge_panics_iff_frozen",
    "FP.Props.C21_freeze_and_accessors",
    "FP.Props.C21_freeze_thaw_freeze"
   ],
   "note": ""
  },
  {
   "property": "C22",
   "status": "proved",
   "theorems": [
    "FP.Props.C22_add_edge_effect",
    "FP.Props.C22_node_count",
    "FP.Props.C22_wraps_without_checks"
   ],
   "note": "Without overflow checks the node id usize::MAX wraps the node count (C22_wraps_without_checks); the theorems exclude it."
  },
  {
   "property": "C23",
   "status": "proved",
   "theorems": [
    "FP.Props.C23_text_round_trip"
   ],
   "note": ""
  },
  {
   "property": "C24",
   "status": "proved",
   "theorems": [
    "FP.Props.C24_dimacs_round_trip"
   ],
   "note": ""
  },
  {
   "property": "C25",
   "status": "partial",
   "theorems": [
    "FP.Props.C25_false",
    "FP.Props.C25_at_most_declared_partial",
    "FP.Props.C25_exactly_partial"
   ],
   "note": "False as stated (C25_false): nodes without arcs at the end are dropped. The _partial theorems say what holds, including exactly when the declared count is honoured."
  },
  {
   "property": "C26",
   "status": "partial",
   "theorems": [
    "FP.Props.C26_whitespace",
    "FP.Props.C26_from_file_reads_exactly",
    "FP.Props.C26_from_file_ignores_other_lines",
    "FP.Props.C26_from_file_line_order",
    "FP.Props.C26_dimacs_false",
    "FP.Props.C26_dimacs_reads_exactly_partial",
    "FP.Props.C26_dimacs_one_problem_line",
    "FP.Props.C26_lines",
    "FP.Props.C26_line_ends"
   ],
   "note": "False as stated for DIMACS files (C26_dimacs_false: a file without a problem line and without arcs is accepted); the other theorems say exactly what the readers accept."
  },
  {
   "property": "C27",
   "status": "partial",
   "theorems": [
    "FP.Props.C27_false",
    "FP.Props.C27_round_trip_partial",
    "FP.Props.C27_round_trip_exactly_partial"
   ],
   "note": "False as stated for the number u32::MAX itself (C27_false); the _partial theorems cover all other graphs and give the exact condition."
  },
  {
   "property": "C28",
   "status": "proved",
   "theorems": [
    "FP.Props.C28_rejects_exactly"
   ],
   "note": "For platforms whose usize has more than 32 bits; with 32 bits converting does not end (C30_never_terminates_32)."
  },
  {
   "property": "C29",
   "status": "partial",
   "theorems": [
    "FP.Props.C29_false",
    "FP.Props.C29_same_answers_partial",
    "FP.Props.C29_false_release",
    "FP.Props.C29_false_panic",
    "FP.Props.C29_exactly_partial"
   ],
   "note": "False as stated when a weight equals u32::MAX (C29_false, C29_false_release, C29_false_panic); the _partial theorems cover all other graphs and give the exact condition. Theorems with P.checked = true are for builds with overflow checks; C32, C94 and C108 carry them over to builds without."
  },
  {
   "property": "C30",
   "status": "partial",
   "theorems": [
    "FP.Props.C30_terminates_64_partial",
    "FP.Props.C30_never_terminates_32",
    "FP.Props.C30_false"
   ],
   "note": "False on 32-bit platforms (C30_false, and C30_never_terminates_32 for every client); the _partial theorem covers all platforms with more than 32 bits. Theorems with P.checked = true are for builds with overflow checks; C32, C94 and C108 carry them over to builds without."
  },
  {
   "property": "C31",
   "status": "partial",
   "theorems": [
    "FP.Props.C31_repeated_and_missing_partial",
    "FP.Props.C31_not_permutation_wrong_partial",
    "FP.Props.C31_right_iff_permutation_partial",
    "FP.Props.C31_false",
    "FP.Props.C31_false_wrong_source",
    "FP.Props.C31_no_unknown_nodes_partial"
   ],
   "note": "The property is false for the code as it is: C31_false and C31_false_wrong_source are concrete counterexamples. The _partial theorems say what holds: ids out of range are never accepted; an accepted order that repeats d and leaves out m never answers m to d with a path from m; on graphs whose nodes all reach each other the answers are right exactly if the order is a permutation. Theorems with P.checked = true are for builds with overflow checks; C32, C94 and C108 carry them over to builds without."
  },
  {
   "property": "C32",
   "status": "proved",
   "theorems": [
    "FP.Props.C32_build_graph",
    "FP.Props.C32_prepared",
    "FP.Props.C32_client",
    "FP.Props.C32_query",
    "FP.Props.C32_prepare_with_params",
    "FP.Props.C32_prepare_with_order",
    "FP.Props.C32_prepare_any",
    "FP.Props.C32_debug_assertions_hold"
   ],
   "note": ""
  },
  {
   "property": "C33",
   "status": "proved",
   "theorems": [
    "FP.Props.C33_prepare_with_params",
    "FP.Props.C33_prepare",
    "FP.Props.C33_prepare_with_order_with_params",
    "FP.Props.C33_prepare_with_order",
    "FP.Props.C33_query",
    "FP.Props.C33_query_stored",
    "FP.Props.C33_linear_bound_false"
   ],
   "note": ""
  },
  {
   "property": "C34",
   "status": "proved",
   "theorems": [
    "FP.Props.C34_flags_are_a_set",
    "FP.Props.C34_counter_wraps"
   ],
   "note": ""
  },
  {
   "property": "C35",
   "status": "proved",
   "theorems": [
    "FP.Props.C35_edge_ranges"
   ],
   "note": "Theorems with P.checked = true are for builds with overflow checks; C32, C94 and C108 carry them over to builds without."
  },
  {
   "property": "C36",
   "status": "proved",
   "theorems": [
    "FP.Props.C36_edges_are_walks",
    "FP.Props.C36_never_below_distance"
   ],
   "note": "Theorems with P.checked = true are for builds with overflow checks; C32, C94 and C108 carry them over to builds without."
  },
  {
   "property": "C37",
   "status": "proved",
   "theorems": [
    "FP.Props.C37_undirected_symmetric"
   ],
   "note": "Theorems with P.checked = true are for builds with overflow checks; C32, C94 and C108 carry them over to builds without."
  },
  {
   "property": "C38",
   "status": "proved",
   "theorems": [
    "FP.Props.C38_triangle"
   ],
   "note": "Theorems with P.checked = true are for builds with overflow checks; C32, C94 and C108 carry them over to builds without."
  },
  {
   "property": "C39",
   "status": "proved",
   "theorems": [
    "FP.Props.C39_more_edges_never_longer"
   ],
   "note": "Theorems with P.checked = true are for builds with overflow checks; C32, C94 and C108 carry them over to builds without."
  },
  {
   "property": "C40",
   "status": "proved",
   "theorems": [
    "FP.Props.C40_subpaths_are_shortest"
   ],
   "note": "Theorems with P.checked = true are for builds with overflow checks; C32, C94 and C108 carry them over to builds without."
  },
  {
   "property": "C41",
   "status": "partial",
   "theorems": [
    "FP.Props.C41_false",
    "FP.Props.C41_prefix_partial",
    "FP.Props.C41_dimacs_prefix_partial",
    "FP.Props.C41_small_always_ok",
    "FP.Props.C41_dimacs_small_always_ok",
    "FP.Props.C41_complete_partial",
    "FP.Props.C41_dimacs_complete_partial"
   ],
   "note": "False as stated (C41_false): the last buffered bytes are written when the writer is dropped and errors are ignored. The _partial theorems say what holds."
  },
  {
   "property": "C42",
   "status": "proved",
   "theorems": [
    "FP.Props.C42_only_least_entries_count",
    "FP.Props.C42_order_irrelevant",
    "FP.Props.C42_redundant_source_irrelevant",
    "FP.Props.C42_redundant_target_irrelevant"
   ],
   "note": "Theorems with P.checked = true are for builds with overflow checks; C32, C94 and C108 carry them over to builds without."
  },
  {
   "property": "C43",
   "status": "proved",
   "theorems": [
    "FP.Props.C43_single_is_multi",
    "FP.Props.C43_multi_attained",
    "FP.Props.C43_multi_is_least"
   ],
   "note": "Theorems with P.checked = true are for builds with overflow checks; C32, C94 and C108 carry them over to builds without."
  },
  {
   "property": "C44",
   "status": "proved",
   "theorems": [
    "FP.Props.C44_floyd_warshall",
    "FP.Props.C44_floyd_warshall_checks",
    "FP.Props.C44_floyd_warshall_new",
    "FP.Props.C44_dijkstra",
    "FP.Props.C44_agreement"
   ],
   "note": "Theorems with P.checked = true are for builds with overflow checks; C32, C94 and C108 carry them over to builds without."
  },
  {
   "property": "C45",
   "status": "proved",
   "theorems": [
    "FP.Props.C45_witness_contract",
    "FP.Props.C45_witness_contract_changing"
   ],
   "note": "Theorems with P.checked = true are for builds with overflow checks; C32, C94 and C108 carry them over to builds without."
  },
  {
   "property": "C46",
   "status": "proved",
   "theorems": [
    "FP.Props.C46_reversed_graph"
   ],
   "note": "Theorems with P.checked = true are for builds with overflow checks; C32, C94 and C108 carry them over to builds without."
  },
  {
   "property": "C47",
   "status": "proved",
   "theorems": [
    "FP.Props.C47_scaled_graph"
   ],
   "note": "Theorems with P.checked = true are for builds with overflow checks; C32, C94 and C108 carry them over to builds without."
  },
  {
   "property": "C48",
   "status": "proved",
   "theorems": [
    "FP.Props.C48_binary_heap_contract"
   ],
   "note": ""
  },
  {
   "property": "C49",
   "status": "proved",
   "theorems": [
    "FP.Props.C49_read_on_smaller_platform"
   ],
   "note": "Theorems with P.checked = true are for builds with overflow checks; C32, C94 and C108 carry them over to builds without."
  },
  {
   "property": "C50",
   "status": "proved",
   "theorems": [
    "FP.Props.C50_from_input_graph"
   ],
   "note": ""
  },
  {
   "property": "C51",
   "status": "proved",
   "theorems": [
    "FP.Props.C51_contraction_keeps_distances"
   ],
   "note": "Theorems with P.checked = true are for builds with overflow checks; C32, C94 and C108 carry them over to builds without."
  },
  {
   "property": "C52",
   "status": "proved",
   "theorems": [
    "FP.Props.C52_relevance_keeps_graph"
   ],
   "note": ""
  },
  {
   "property": "C53",
   "status": "proved",
   "theorems": [
    "FP.Props.C53_add_or_reduce",
    "FP.Props.C53_disconnect"
   ],
   "note": ""
  },
  {
   "property": "C54",
   "status": "proved",
   "theorems": [
    "FP.Props.C54_prepare_and_query",
    "FP.Props.C54_prepare_with_order_and_query"
   ],
   "note": ""
  },
  {
   "property": "C55",
   "status": "proved",
   "theorems": [
    "FP.Props.C55_create_calculator"
   ],
   "note": ""
  },
  {
   "property": "C56",
   "status": "proved",
   "theorems": [
    "FP.Props.C56_returned_paths_are_found",
    "FP.Props.C56_eq_equivalence",
    "FP.Props.C56_eq_iff",
    "FP.Props.C56_answers_compare_equal"
   ],
   "note": "Theorems with P.checked = true are for builds with overflow checks; C32, C94 and C108 carry them over to builds without."
  },
  {
   "property": "C57",
   "status": "proved",
   "theorems": [
    "FP.Props.C57_settled_budget"
   ],
   "note": "Theorems with P.checked = true are for builds with overflow checks; C32, C94 and C108 carry them over to builds without."
  },
  {
   "property": "C58",
   "status": "proved",
   "theorems": [
    "FP.Props.C58_shortcuts_are_needed"
   ],
   "note": "Theorems with P.checked = true are for builds with overflow checks; C32, C94 and C108 carry them over to builds without."
  },
  {
   "property": "C59",
   "status": "proved",
   "theorems": [
    "FP.Props.C59_load_saved",
    "FP.Props.C59_load_iff_fits",
    "FP.Props.C59_accepted_is_saved",
    "FP.Props.C59_cut_off_rejected",
    "FP.Props.C59_client",
    "FP.Props.C59_length",
    "FP.Props.C59_smaller_platform_rejects",
    "FP.Props.C59_larger_platform_panics"
   ],
   "note": "Theorems with P.checked = true are for builds with overflow checks; C32, C94 and C108 carry them over to builds without."
  },
  {
   "property": "C60",
   "status": "proved",
   "theorems": [
    "FP.Props.C60_saved_32",
    "FP.Props.C60_save_rejects_exactly"
   ],
   "note": "Theorems with P.checked = true are for builds with overflow checks; C32, C94 and C108 carry them over to builds without."
  },
  {
   "property": "C61",
   "status": "proved",
   "theorems": [
    "FP.Props.C61_convert_exact",
    "FP.Props.C61_narrow"
   ],
   "note": "C61_convert_exact is the claim; C61_narrow says what happens with a 16-bit usize."
  },
  {
   "property": "C62",
   "status": "proved",
   "theorems": [
    "FP.Props.C62_hub_panics",
    "FP.Props.C62_star_panics",
    "FP.Props.C62_release_unaffected"
   ],
   "note": "Theorems with P.checked = true are for builds with overflow checks; C32, C94 and C108 carry them over to builds without."
  },
  {
   "property": "C63",
   "status": "proved",
   "theorems": [
    "FP.Props.C63_one_edge_per_pair",
    "FP.Props.C63_number_of_edges",
    "FP.Props.C63_input_edges_stored",
    "FP.Props.C63_at_least_input"
   ],
   "note": "Theorems with P.checked = true are for builds with overflow checks; C32, C94 and C108 carry them over to builds without."
  },
  {
   "property": "C64",
   "status": "proved",
   "theorems": [
    "FP.Props.C64_stored_edges_are_simple_paths",
    "FP.Props.C64_stored_weights",
    "FP.Props.C64_prepare_with_params",
    "FP.Props.C64_prepare",
    "FP.Props.C64_prepare_with_order_with_params",
    "FP.Props.C64_prepare_with_order",
    "FP.Props.C64_query",
    "FP.Props.C64_total_weight_bound_false",
    "FP.Props.C64_release_answer_false"
   ],
   "note": "The claim for budgets above n is proved for checked builds and transferred to unchecked ones; C64_total_weight_bound_false and C64_release_answer_false show that small budgets admit no such bound."
  },
  {
   "property": "C65",
   "status": "proved",
   "theorems": [
    "FP.Props.C65_priority_monotone",
    "FP.Props.C65_params_new_monotone",
    "FP.Props.C65_priority_accurate",
    "FP.Props.C65_default_accurate",
    "FP.Props.C65_isolated_node",
    "FP.Props.C65_nan",
    "FP.Props.C65_infinite_ratio",
    "FP.Props.C65_only_the_relation_matters_false"
   ],
   "note": "f32 is modelled as IEEE 754 binary32 with rounding to nearest even; C65_only_the_relation_matters_false refutes the source comment on edge_quotient_factor. Proved for the formula as written; negative counters (unchecked builds after wrapping, C62) are outside."
  },
  {
   "property": "C66",
   "status": "proved",
   "theorems": [
    "FP.Props.C66_relevance_counts",
    "FP.Props.C66_first_node",
    "FP.Props.C66_counter"
   ],
   "note": "For checked builds. The queue law (pop returns a node of least priority) is a hypothesis, instance: listQueue_ordered."
  },
  {
   "property": "C67",
   "status": "proved",
   "theorems": [
    "FP.Props.C67_same_results",
    "FP.Props.C67_reuse_after_panics",
    "FP.Props.C67_right_after_panics",
    "FP.Props.C67_rejected_query_changes_nothing",
    "FP.Props.C67_failed_call_changes_nothing",
    "FP.Props.C67_graph_of_the_succeeding_calls"
   ],
   "note": "The state after a panic is modelled write by write in Model/Unwind (Vec capacity overflow while pushing edges is outside the model). Theorems with P.checked = true are for builds with overflow checks; C32, C94 and C108 carry them over to builds without."
  },
  {
   "property": "C68",
   "status": "proved",
   "theorems": [
    "FP.Props.C68_one_statement_per_edge",
    "FP.Props.C68_no_edges",
    "FP.Props.C68_output_rebuilds_graph",
    "FP.Props.C68_output_injective"
   ],
   "note": ""
  },
  {
   "property": "C69",
   "status": "proved",
   "theorems": [
    "FP.Props.C69_contraction_order",
    "FP.Props.C69_generous_budgets",
    "FP.Props.C69_neighbors"
   ],
   "note": "For checked builds. The queue laws are a hypothesis (Ordered), instance: listQueue_ordered. Priorities may be computed from an outdated number of shortcuts: a node keeps the number found when its last neighbor was contracted."
  },
  {
   "property": "C70",
   "status": "proved",
   "theorems": [
    "FP.Props.C70_stored_edges",
    "FP.Props.C70_stored_edges_params",
    "FP.Props.C70_levels_increase"
   ],
   "note": "For checked builds. The graphs that are left are defined by repeated contraction; what one contraction does is C51 and C58."
  },
  {
   "property": "C71",
   "status": "proved",
   "theorems": [
    "FP.Props.C71_forward_search",
    "FP.Props.C71_backward_search",
    "FP.Props.C71_only_upwards"
   ],
   "note": "For checked builds. An expanded node may have a weight above that of the answer: the bound shrinks during the search."
  },
  {
   "property": "C72",
   "status": "proved",
   "theorems": [
    "FP.Props.C72_logs_change_nothing",
    "FP.Props.C72_forward_work",
    "FP.Props.C72_backward_work",
    "FP.Props.C72_total",
    "FP.Props.C72_common_node_bounds"
   ],
   "note": "For checked builds, except C72_logs_change_nothing, which holds for all builds. Pops are those of the model of BinaryHeap or of any other heap that satisfies the heap laws."
  },
  {
   "property": "C73",
   "status": "proved",
   "theorems": [
    "FP.Props.C73_from_file",
    "FP.Props.C73_from_dimacs_file",
    "FP.Props.C73_text_file",
    "FP.Props.C73_panics",
    "FP.Props.C73_one_text",
    "FP.Props.C73_round_trip",
    "FP.Props.C73_dimacs_round_trip"
   ],
   "note": "The decoder follows the Unicode table of well-formed byte sequences; the statements use Lean's own UTF-8 encoder."
  },
  {
   "property": "C74",
   "status": "partial",
   "theorems": [
    "FP.Props.C74_false",
    "FP.Props.C74_not_created_partial",
    "FP.Props.C74_not_frozen",
    "FP.Props.C74_frozen",
    "FP.Props.C74_dimacs_frozen",
    "FP.Props.C74_dimacs_any"
   ],
   "note": "False as stated (C74_false): File::create empties the file before the graph is checked and anything is written. C74_not_created_partial covers the case that holds, C74_not_frozen and C74_frozen say what is left in all other cases."
  },
  {
   "property": "C75",
   "status": "proved",
   "theorems": [
    "FP.Props.C75_ok_complete",
    "FP.Props.C75_err",
    "FP.Props.C75_outcomes",
    "FP.Props.C75_load_exactly",
    "FP.Props.C75_client",
    "FP.Props.C75_save_32",
    "FP.Props.C75_client_32"
   ],
   "note": "bincode's serialize_into is modelled as one write_all per number, straight to the file as in the code; its source was not available. Theorems with P.checked = true are for builds with overflow checks; C32, C94 and C108 carry them over to builds without."
  },
  {
   "property": "C76",
   "status": "proved",
   "theorems": [
    "FP.Props.C76_malformed_panics",
    "FP.Props.C76_malformed_panics_default",
    "FP.Props.C76_malformed_panics_order",
    "FP.Props.C76_malformed_panics_release",
    "FP.Props.C76_prepared_is_well_formed",
    "FP.Props.C76_answer_is_minimal",
    "FP.Props.C76_none_iff_unreachable",
    "FP.Props.C76_multi_answer_is_minimal",
    "FP.Props.C76_well_formed_prepares",
    "FP.Props.C76_well_formed_prepares_order",
    "FP.Props.C76_path_is_simple",
    "FP.Props.C76_simple_path_false"
   ],
   "note": "A panic in preparing a malformed value can be any panic, including an overflow that happens earlier (C76_malformed_panics), so for builds without overflow checks the statement assumes the checked build does not overflow. C76_simple_path_false shows that positive weights are needed in C76_path_is_simple."
  },
  {
   "property": "C77",
   "status": "proved",
   "theorems": [
    "FP.Props.C77_only_unpacking_diverges",
    "FP.Props.C77_prepared",
    "FP.Props.C77_acyclic_ends",
    "FP.Props.C77_cyclic_overflows",
    "FP.Props.C77_consistent_sound",
    "FP.Props.C77_weight_inexact"
   ],
   "note": "For builds with overflow checks. A query that never ends is one that gives outOfFuel for every amount of fuel (C77_only_unpacking_diverges); in Rust the stack overflows."
  },
  {
   "property": "C78",
   "status": "proved",
   "theorems": [
    "FP.Props.C78_right_iff_up_down",
    "FP.Props.C78_covering_correct",
    "FP.Props.C78_right_covering",
    "FP.Props.C78_prepared"
   ],
   "note": "For builds with overflow checks."
  },
  {
   "property": "C79",
   "status": "proved",
   "theorems": [
    "FP.Props.C79_node_queue_contract",
    "FP.Props.C79_node_queue_ordered"
   ],
   "note": ""
  },
  {
   "property": "C80",
   "status": "proved",
   "theorems": [
    "FP.Props.C80_single_test",
    "FP.Props.C80_single_test_returns",
    "FP.Props.C80_multi_test",
    "FP.Props.C80_multi_test_returns",
    "FP.Props.C80_maximal_route_fails",
    "FP.Props.C80_random_graph",
    "FP.Props.C80_random_graph_returns",
    "FP.Props.C80_random_graph_one_node",
    "FP.Props.C80_random_graph_no_edges",
    "FP.Props.C80_routing_on_random_graph",
    "FP.Props.C80_routing_with_multiple_sources_and_targets",
    "FP.Props.C80_checksum",
    "FP.Props.C80_performance_test",
    "FP.Props.C80_checksum_returns",
    "FP.Props.C80_counter"
   ],
   "note": "Theorems with P.checked = true are for builds with overflow checks; C32, C94 and C108 carry them over to builds without."
  },
  {
   "property": "C81",
   "status": "proved",
   "theorems": [
    "FP.Props.C81_load_saved",
    "FP.Props.C81_accepted_is_saved",
    "FP.Props.C81_load_iff_fits",
    "FP.Props.C81_cut_off_rejected",
    "FP.Props.C81_client",
    "FP.Props.C81_length"
   ],
   "note": "The format is the documented one of bincode 1.3. Accepted files that no client wrote can hold values the API never builds; C76 covers those."
  },
  {
   "property": "C82",
   "status": "proved",
   "theorems": [
    "FP.Props.C82_contract_node",
    "FP.Props.C82_relevance",
    "FP.Props.C82_prepare_with_order_with_params",
    "FP.Props.C82_prepare_with_params",
    "FP.Props.C82_bounded_with_params",
    "FP.Props.C82_bounded_with_order",
    "FP.Props.C82_default_budgets_agree",
    "FP.Props.C82_small_budget_false"
   ],
   "note": "For builds with overflow checks; two runs that both return a graph return the same graph. C82_small_budget_false shows that the bound on the budgets is needed."
  },
  {
   "property": "C83",
   "status": "proved",
   "theorems": [
    "FP.Props.C83_renamed_multi",
    "FP.Props.C83_renamed_nodes"
   ],
   "note": "For builds with overflow checks. The paths themselves can differ when several have minimal weight, so only weights are compared."
  },
  {
   "property": "C84",
   "status": "proved",
   "theorems": [
    "FP.Props.C84_depth_is_needed",
    "FP.Props.C84_line_is_prepared"
   ],
   "note": "For builds with overflow checks. The model has no stack limit; what Rust does when the stack is exhausted (abort) is outside the model. C17_unpacking_depth is the upper bound."
  },
  {
   "property": "C85",
   "status": "proved",
   "theorems": [
    "FP.Props.C85_text",
    "FP.Props.C85_dimacs",
    "FP.Props.C85_dimacs_saved",
    "FP.Props.C85_text_saved"
   ],
   "note": "Builds on C41/C74 (a save leaves a beginning of the text) and C73 (bytes and characters). Both directions are proved for beginnings of the file; the _saved theorems are about the file after a call that may have failed."
  },
  {
   "property": "C86",
   "status": "proved",
   "theorems": [
    "FP.Props.C86_changes_off_the_path"
   ],
   "note": "For builds with overflow checks."
  },
  {
   "property": "C87",
   "status": "proved",
   "theorems": [
    "FP.Props.C87_one_more_edge"
   ],
   "note": "For builds with overflow checks."
  },
  {
   "property": "C88",
   "status": "proved",
   "theorems": [
    "FP.Props.C88_potentials"
   ],
   "note": "For builds with overflow checks."
  },
  {
   "property": "C89",
   "status": "proved",
   "theorems": [
    "FP.Props.C89_joined"
   ],
   "note": "For builds with overflow checks."
  },
  {
   "property": "C90",
   "status": "proved",
   "theorems": [
    "FP.Props.C90_unavoidable_edges",
    "FP.Props.C90_prepared"
   ],
   "note": "C90_unavoidable_edges is about any fast graph that answers correctly (Consistent and Covering as in C78), C90_prepared about clients in builds with overflow checks."
  },
  {
   "property": "C91",
   "status": "partial",
   "theorems": [
    "FP.Props.C91_false",
    "FP.Props.C91_no_search_most_edges_partial"
   ],
   "note": "False as stated: C91_false has six nodes, an order, and limits 2 and 100 with 8 and 9 stored edges. What holds: the limit 0 gives the most edges of all limits (C91_no_search_most_edges_partial, also edge by edge); with limits above the node count the fewest, for the graphs of C92. Missing: nothing that is true for limits in between is claimed. Theorems with P.checked = true are for builds with overflow checks; C32, C94 and C108 carry them over to builds without."
  },
  {
   "property": "C92",
   "status": "proved",
   "theorems": [
    "FP.Props.C92_exactly_the_unavoidable",
    "FP.Props.C92_exactly_the_unavoidable_params",
    "FP.Props.C92_fewest_edges"
   ],
   "note": "For builds with overflow checks. Equal weights of all edges are a sufficient condition (noDetours_same_weight)."
  },
  {
   "property": "C93",
   "status": "proved",
   "theorems": [
    "FP.Props.C93_from_file",
    "FP.Props.C93_from_dimacs_file",
    "FP.Props.C93_text_error_noticed",
    "FP.Props.C93_load",
    "FP.Props.C93_load_32",
    "FP.Props.C93_no_errors",
    "FP.Props.C93_missing_file",
    "FP.Props.C93_returned",
    "FP.Props.C93_load_error_noticed"
   ],
   "note": "The reads are an arbitrary list of results (Model/DiskReader), with BufReader's buffer of 8192 bytes and read_exact modelled."
  },
  {
   "property": "C94",
   "status": "proved",
   "theorems": [
    "FP.Props.C94_build",
    "FP.Props.C94_client",
    "FP.Props.C94_client_wide",
    "FP.Props.C94_query",
    "FP.Props.C94_bound_needed"
   ],
   "note": "C94_bound_needed is a concrete graph that a release build prepares and a checked build cannot."
  },
  {
   "property": "C95",
   "status": "proved",
   "theorems": [
    "FP.Props.C95_logs_change_nothing",
    "FP.Props.C95_session_work",
    "FP.Props.C95_contraction_sessions",
    "FP.Props.C95_relevance_sessions",
    "FP.Props.C95_order_total",
    "FP.Props.C95_prepare_total"
   ],
   "note": "Theorems with P.checked = true are for builds with overflow checks; C32, C94 and C108 carry them over to builds without."
  },
  {
   "property": "C96",
   "status": "proved",
   "theorems": [
    "FP.Props.C96_agreement",
    "FP.Props.C96_single_test",
    "FP.Props.C96_multi_test",
    "FP.Props.C96_wrong_nodes_pass"
   ],
   "note": "Theorems with P.checked = true are for builds with overflow checks; C32, C94 and C108 carry them over to builds without."
  },
  {
   "property": "C97",
   "status": "proved",
   "theorems": [
    "FP.Props.C97_single",
    "FP.Props.C97_multi",
    "FP.Props.C97_different_answers"
   ],
   "note": "Theorems with P.checked = true are for builds with overflow checks; C32, C94 and C108 carry them over to builds without."
  },
  {
   "property": "C98",
   "status": "proved",
   "theorems": [
    "FP.Props.C98_one_higher_neighbour",
    "FP.Props.C98_matched_ways",
    "FP.Props.C98_forest",
    "FP.Props.C98_forest_search",
    "FP.Props.C98_forest_with_order"
   ],
   "note": "Theorems with P.checked = true are for builds with overflow checks; C32, C94 and C108 carry them over to builds without."
  },
  {
   "property": "C99",
   "status": "proved",
   "theorems": [
    "FP.Props.C99_edges_on_routes",
    "FP.Props.C99_light_edges",
    "FP.Props.C99_parts"
   ],
   "note": "Theorems with P.checked = true are for builds with overflow checks; C32, C94 and C108 carry them over to builds without."
  },
  {
   "property": "C100",
   "status": "partial",
   "theorems": [
    "FP.Props.C100_false",
    "FP.Props.C100_no_search_partial",
    "FP.Props.C100_no_search_params_partial",
    "FP.Props.C100_no_detours_partial",
    "FP.Props.C100_no_detours_params_partial"
   ],
   "note": "False as stated: C100_false is a triangle with a tail, prepared with a given order and a limit above the node count, with 5 out-edges and 6 in-edges. What holds: symmetric with limit 0, and with limits above the node count for graphs without detours. Missing: nothing that is true for other limits and graphs is claimed. Theorems with P.checked = true are for builds with overflow checks; C32, C94 and C108 carry them over to builds without."
  },
  {
   "property": "C101",
   "status": "proved",
   "theorems": [
    "FP.Props.C101_from_file_reads_dimacs",
    "FP.Props.C101_last_node",
    "FP.Props.C101_queries",
    "FP.Props.C101_dimacs_rejects_text"
   ],
   "note": "Theorems with P.checked = true are for builds with overflow checks; C32, C94 and C108 carry them over to builds without."
  },
  {
   "property": "C102",
   "status": "proved",
   "theorems": [
    "FP.Props.C102_one_result",
    "FP.Props.C102_of_int",
    "FP.Props.C102_mul",
    "FP.Props.C102_add",
    "FP.Props.C102_div",
    "FP.Props.C102_tenth",
    "FP.Props.C102_to_usize",
    "FP.Props.C102_greater",
    "FP.Props.C102_special",
    "FP.Props.C102_priority"
   ],
   "note": ""
  },
  {
   "property": "C103",
   "status": "proved",
   "theorems": [
    "FP.Props.C103_same_results",
    "FP.Props.C103_skipped_edges_reported",
    "FP.Props.C103_nothing_lost",
    "FP.Props.C103_duplicates_reported",
    "FP.Props.C103_panics_are_silent",
    "FP.Props.C103_progress",
    "FP.Props.C103_progress_order",
    "FP.Props.C103_interrupted"
   ],
   "note": "Theorems with P.checked = true are for builds with overflow checks; C32, C94 and C108 carry them over to builds without."
  },
  {
   "property": "C104",
   "status": "proved",
   "theorems": [
    "FP.Props.C104_graph",
    "FP.Props.C104_weights_double",
    "FP.Props.C104_overflow",
    "FP.Props.C104_default_budget",
    "FP.Props.C104_no_polynomial_bound"
   ],
   "note": "Theorems with P.checked = true are for builds with overflow checks; C32, C94 and C108 carry them over to builds without."
  },
  {
   "property": "C105",
   "status": "proved",
   "theorems": [
    "FP.Props.C105_stops",
    "FP.Props.C105_target_not_settled"
   ],
   "note": "Theorems with P.checked = true are for builds with overflow checks; C32, C94 and C108 carry them over to builds without."
  },
  {
   "property": "C106",
   "status": "proved",
   "theorems": [
    "FP.Props.C106_across_a_border",
    "FP.Props.C106_two_stages"
   ],
   "note": "Theorems with P.checked = true are for builds with overflow checks; C32, C94 and C108 carry them over to builds without."
  },
  {
   "property": "C107",
   "status": "proved",
   "theorems": [
    "FP.Props.C107_subdivision_multi",
    "FP.Props.C107_subdivision",
    "FP.Props.C107_from_the_new_node"
   ],
   "note": "Theorems with P.checked = true are for builds with overflow checks; C32, C94 and C108 carry them over to builds without."
  },
  {
   "property": "C108",
   "status": "proved",
   "theorems": [
    "FP.Props.C108_references",
    "FP.Props.C108_wrapped",
    "FP.Props.C108_single_test",
    "FP.Props.C108_multi_test",
    "FP.Props.C108_random_graph",
    "FP.Props.C108_routing_on_random_graph",
    "FP.Props.C108_routing_with_multiple_sources_and_targets",
    "FP.Props.C108_performance_test"
   ],
   "note": ""
  },
  {
   "property": "C109",
   "status": "proved",
   "theorems": [
    "FP.Props.C109_from_file_panics",
    "FP.Props.C109_from_file_ok",
    "FP.Props.C109_from_file_overflow",
    "FP.Props.C109_from_file_assertion",
    "FP.Props.C109_from_dimacs_panics"
   ],
   "note": ""
  },
  {
   "property": "C110",
   "status": "proved",
   "theorems": [
    "FP.Props.C110_nearby_sources",
    "FP.Props.C110_nearby_targets",
    "FP.Props.C110_start_weights",
    "FP.Props.C110_dominated_source",
    "FP.Props.C110_union_of_sources",
    "FP.Props.C110_union_of_targets",
    "FP.Props.C110_shifted_sources"
   ],
   "note": "Theorems with P.checked = true are for builds with overflow checks; C32, C94 and C108 carry them over to builds without."
  },
  {
   "property": "C111",
   "status": "proved",
   "theorems": [
    "FP.Props.C111_another_graph",
    "FP.Props.C111_other_weights"
   ],
   "note": "Theorems with P.checked = true are for builds with overflow checks; C32, C94 and C108 carry them over to builds without."
  },
  {
   "property": "C112",
   "status": "proved",
   "theorems": [
    "FP.Props.C112_edges",
    "FP.Props.C112_out_of_range",
    "FP.Props.C112_out_of_range_order",
    "FP.Props.C112_prepared_no_wrap"
   ],
   "note": ""
  },
  {
   "property": "C113",
   "status": "proved",
   "theorems": [
    "FP.Props.C113_factor",
    "FP.Props.C113_sum"
   ],
   "note": "Theorems with P.checked = true are for builds with overflow checks; C32, C94 and C108 carry them over to builds without."
  },
  {
   "property": "C114",
   "status": "proved",
   "theorems": [
    "FP.Props.C114_nearest",
    "FP.Props.C114_all"
   ],
   "note": "Theorems with P.checked = true are for builds with overflow checks; C32, C94 and C108 carry them over to builds without."
  },
  {
   "property": "C115",
   "status": "proved",
   "theorems": [
    "FP.Props.C115_trip",
    "FP.Props.C115_target",
    "FP.Props.C115_ends"
   ],
   "note": "Theorems with P.checked = true are for builds with overflow checks; C32, C94 and C108 carry them over to builds without."
  },
  {
   "property": "C116",
   "status": "proved",
   "theorems": [
    "FP.Props.C116_turns"
   ],
   "note": "Theorems with P.checked = true are for builds with overflow checks; C32, C94 and C108 carry them over to builds without."
  },
  {
   "property": "C117",
   "status": "proved",
   "theorems": [
    "FP.Props.C117_second_best"
   ],
   "note": "Theorems with P.checked = true are for builds with overflow checks; C32, C94 and C108 carry them over to builds without."
  },
  {
   "property": "C118",
   "status": "proved",
   "theorems": [
    "FP.Props.C118_round_trip"
   ],
   "note": "Theorems with P.checked = true are for builds with overflow checks; C32, C94 and C108 carry them over to builds without."
  },
  {
   "property": "C119",
   "status": "proved",
   "theorems": [
    "FP.Props.C119_schedules",
    "FP.Props.C119_alone",
    "FP.Props.C119_answers"
   ],
   "note": "Theorems with P.checked = true are for builds with overflow checks; C32, C94 and C108 carry them over to builds without."
  },
  {
   "property": "C120",
   "status": "partial",
   "theorems": [
    "FP.Props.C120_false",
    "FP.Props.C120_depends_on_order",
    "FP.Props.C120_sufficient_partial",
    "FP.Props.C120_necessary_partial"
   ],
   "note": "False as stated: C120_false (a shortcut reaches 2^32 although all input weights are smaller) and C120_depends_on_order. The partial theorems give a sufficient condition from the input graph and what is necessary. Theorems with P.checked = true are for builds with overflow checks; C32, C94 and C108 carry them over to builds without."
  },
  {
   "property": "C121",
   "status": "proved",
   "theorems": [
    "FP.Props.C121_two_criteria",
    "FP.Props.C121_fewest_edges"
   ],
   "note": "Theorems with P.checked = true are for builds with overflow checks; C32, C94 and C108 carry them over to builds without."
  },
  {
   "property": "C122",
   "status": "proved",
   "theorems": [
    "FP.Props.C122_server_to_device",
    "FP.Props.C122_any_preparation"
   ],
   "note": ""
  },
  {
   "property": "C123",
   "status": "proved",
   "theorems": [
    "FP.Props.C123_rules"
   ],
   "note": "Theorems with P.checked = true are for builds with overflow checks; C32, C94 and C108 carry them over to builds without."
  },
  {
   "property": "C124",
   "status": "proved",
   "theorems": [
    "FP.Props.C124_stations"
   ],
   "note": "Theorems with P.checked = true are for builds with overflow checks; C32, C94 and C108 carry them over to builds without."
  },
  {
   "property": "C125",
   "status": "proved",
   "theorems": [
    "FP.Props.C125_counting_is_harmless",
    "FP.Props.C125_calls",
    "FP.Props.C125_prepared"
   ],
   "note": "Theorems with P.checked = true are for builds with overflow checks; C32, C94 and C108 carry them over to builds without."
  },
  {
   "property": "C126",
   "status": "proved",
   "theorems": [
    "FP.Props.C126_depth",
    "FP.Props.C126_edges",
    "FP.Props.C126_chains"
   ],
   "note": "Theorems with P.checked = true are for builds with overflow checks; C32, C94 and C108 carry them over to builds without."
  },
  {
   "property": "C127",
   "status": "proved",
   "theorems": [
    "FP.Props.C127_heaviest"
   ],
   "note": "Theorems with P.checked = true are for builds with overflow checks; C32, C94 and C108 carry them over to builds without."
  },
  {
   "property": "C128",
   "status": "proved",
   "theorems": [
    "FP.Props.C128_params",
    "FP.Props.C128_order",
    "FP.Props.C128_levels",
    "FP.Props.C128_depth"
   ],
   "note": "Theorems with P.checked = true are for builds with overflow checks; C32, C94 and C108 carry them over to builds without."
  },
  {
   "property": "C129",
   "status": "proved",
   "theorems": [
    "FP.Props.C129_fields",
    "FP.Props.C129_cut_off",
    "FP.Props.C129_queries"
   ],
   "note": "Theorems with P.checked = true are for builds with overflow checks; C32, C94 and C108 carry them over to builds without."
  },
  {
   "property": "C130",
   "status": "proved",
   "theorems": [
    "FP.Props.C130_order",
    "FP.Props.C130_queues",
    "FP.Props.C130_generous_budgets",
    "FP.Props.C130_ties_decided_by_queue"
   ],
   "note": "Theorems with P.checked = true are for builds with overflow checks; C32, C94 and C108 carry them over to builds without."
  },
  {
   "property": "C131",
   "status": "proved",
   "theorems": [
    "FP.Props.C131_priority_queue",
    "FP.Props.C131_formulas",
    "FP.Props.C131_scaled"
   ],
   "note": ""
  },
  {
   "property": "C132",
   "status": "proved",
   "theorems": [
    "FP.Props.C132_same",
    "FP.Props.C132_calls",
    "FP.Props.C132_present",
    "FP.Props.C132_effort"
   ],
   "note": "Theorems with P.checked = true are for builds with overflow checks; C32, C94 and C108 carry them over to builds without."
  },
  {
   "property": "C133",
   "status": "proved",
   "theorems": [
    "FP.Props.C133_binary_heap",
    "FP.Props.C133_frozen",
    "FP.Props.C133_params",
    "FP.Props.C133_order",
    "FP.Props.C133_divisor"
   ],
   "note": "Theorems with P.checked = true are for builds with overflow checks; C32, C94 and C108 carry them over to builds without."
  },
  {
   "property": "C134",
   "status": "proved",
   "theorems": [
    "FP.Props.C134_multi",
    "FP.Props.C134_path",
    "FP.Props.C134_routes",
    "FP.Props.C134_total",
    "FP.Props.C134_divisor"
   ],
   "note": "Theorems with P.checked = true are for builds with overflow checks; C32, C94 and C108 carry them over to builds without."
  },
  {
   "property": "C135",
   "status": "proved",
   "theorems": [
    "FP.Props.C135_same_beginning",
    "FP.Props.C135_ranks",
    "FP.Props.C135_rest_matters"
   ],
   "note": ""
  }
 ]
}