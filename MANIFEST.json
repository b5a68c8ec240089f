{
 "claims": [
  {
   "property": "C01",
   "status": "proved",
   "theorems": [
    "Frozen.Props.c01_fz_hash_map",
    "Frozen.Props.c01_hash_map"
   ],
   "note": ""
  },
  {
   "property": "C02",
   "status": "proved",
   "theorems": [
    "Frozen.Props.c02_fz_ordered_map",
    "Frozen.Props.c02_eytzinger_map"
   ],
   "note": ""
  },
  {
   "property": "C03",
   "status": "proved",
   "theorems": [
    "Frozen.Props.c03_fz_scalar_map",
    "Frozen.Props.c03_sparse_map"
   ],
   "note": ""
  },
  {
   "property": "C04",
   "status": "proved",
   "theorems": [
    "Frozen.Props.c04_fz_string_map"
   ],
   "note": ""
  },
  {
   "property": "C05",
   "status": "proved",
   "theorems": [
    "Frozen.Props.c05_len"
   ],
   "note": ""
  },
  {
   "property": "C06",
   "status": "proved",
   "theorems": [
    "Frozen.Props.c06_iteration"
   ],
   "note": ""
  },
  {
   "property": "C07",
   "status": "proved",
   "theorems": [
    "Frozen.Props.c07_using_eq",
    "Frozen.Props.c07_using_hash",
    "Frozen.Props.c07_using_cmp",
    "Frozen.Props.c07_agree",
    "Frozen.Props.c07_keepLast_meaning"
   ],
   "note": ""
  },
  {
   "property": "C08",
   "status": "proved",
   "theorems": [
    "Frozen.Props.c08_has_duplicates",
    "Frozen.Props.c08_no_duplicates_iff_distinct"
   ],
   "note": ""
  },
  {
   "property": "C09",
   "status": "proved",
   "theorems": [
    "Frozen.Props.c09_no_overflow",
    "Frozen.Props.c09_layout_iff",
    "Frozen.Props.c09_layout",
    "Frozen.Props.c09_position",
    "Frozen.Props.c09_inorder_complete"
   ],
   "note": ""
  },
  {
   "property": "C10",
   "status": "proved",
   "theorems": [
    "Frozen.Props.c10_no_overflow",
    "Frozen.Props.c10_search_exact",
    "Frozen.Props.c10_search_cost",
    "Frozen.Props.c10_search_nat"
   ],
   "note": ""
  },
  {
   "property": "C11",
   "status": "proved",
   "theorems": [
    "Frozen.Props.c11_find_in_bounds",
    "Frozen.Props.c11_find_complete"
   ],
   "note": ""
  },
  {
   "property": "C12",
   "status": "proved",
   "theorems": [
    "Frozen.Props.c12_hash_code_analysis",
    "Frozen.Props.c12_collision_free_when_possible"
   ],
   "note": ""
  },
  {
   "property": "C13",
   "status": "proved",
   "theorems": [
    "Frozen.Props.c13_mask_is_modulo"
   ],
   "note": ""
  },
  {
   "property": "C14",
   "status": "proved",
   "theorems": [
    "Frozen.Props.c14_magnitude",
    "Frozen.Props.c14_map_magnitude"
   ],
   "note": ""
  },
  {
   "property": "C15",
   "status": "proved",
   "theorems": [
    "Frozen.Props.c15_masks",
    "Frozen.Props.c15_index_is_position",
    "Frozen.Props.c15_order_embedding",
    "Frozen.Props.c15_order_embedding_32",
    "Frozen.Props.c15_lawful",
    "Frozen.Props.c15_lawful_32",
    "Frozen.Props.c15_lawful_target"
   ],
   "note": ""
  },
  {
   "property": "C16",
   "status": "proved",
   "theorems": [
    "Frozen.Props.c16_accepts_iff",
    "Frozen.Props.c16_index",
    "Frozen.Props.c16_lawful"
   ],
   "note": ""
  },
  {
   "property": "C17",
   "status": "proved",
   "theorems": [
    "Frozen.Props.c17_scalar_analysis",
    "Frozen.Props.c17_representation"
   ],
   "note": ""
  },
  {
   "property": "C18",
   "status": "partial",
   "theorems": [
    "Frozen.Props.c18_construction_can_fail",
    "Frozen.Props.c18_construction_can_fail_32",
    "Frozen.Props.c18_construction_partial"
   ],
   "note": "The full claim is false of the code: c18_construction_can_fail exhibits keys 0 and u64::MAX for which construction panics in debug and release. c18_construction_partial gives the exact boundary (succeeds iff keys do not contain both extremes)."
  },
  {
   "property": "C19",
   "status": "proved",
   "theorems": [
    "Frozen.Props.c19_dense_new",
    "Frozen.Props.c19_full_span_panics"
   ],
   "note": "As stated in the property, keys spanning the whole 64-bit range are excluded for debug builds; c19_full_span_panics shows what happens there."
  },
  {
   "property": "C20",
   "status": "proved",
   "theorems": [
    "Frozen.Props.c20_subslice_analysis"
   ],
   "note": ""
  },
  {
   "property": "C21",
   "status": "proved",
   "theorems": [
    "Frozen.Props.c21_length_analysis"
   ],
   "note": ""
  },
  {
   "property": "C22",
   "status": "proved",
   "theorems": [
    "Frozen.Props.c22_hashers",
    "Frozen.Props.c22_scalar_hasher"
   ],
   "note": ""
  },
  {
   "property": "C23",
   "status": "partial",
   "theorems": [
    "Frozen.Props.c23_duplicates_panic",
    "Frozen.Props.c23_results_are_get_mut",
    "Frozen.Props.c23_no_aliasing_partial",
    "Frozen.Props.c23_aliasing_iff",
    "Frozen.Props.c23_key_queries_compatible",
    "Frozen.Props.c23_finer_eq_aliases"
   ],
   "note": "Proved for query types whose Eq is consistent with Equivalent; c23_finer_eq_aliases shows that the claim fails (two aliasing mutable references) for a query type whose Eq is finer; c23_aliasing_iff says exactly which references alias, for every query type."
  },
  {
   "property": "C24",
   "status": "proved",
   "theorems": [
    "Frozen.Props.c24_any_history",
    "Frozen.Props.c24_no_undefined_behaviour"
   ],
   "note": "Histories with get_disjoint_mut use query types whose Eq is compatible with Equivalent (see C23)."
  },
  {
   "property": "C25",
   "status": "proved",
   "theorems": [
    "Frozen.Props.c25_map_eq_is_extensional",
    "Frozen.Props.c25_refl",
    "Frozen.Props.c25_symm",
    "Frozen.Props.c25_trans",
    "Frozen.Props.c25_independent_of_order"
   ],
   "note": ""
  },
  {
   "property": "C26",
   "status": "proved",
   "theorems": [
    "Frozen.Props.c26_built",
    "Frozen.Props.c26_union"
   ],
   "note": ""
  },
  {
   "property": "C27",
   "status": "proved",
   "theorems": [
    "Frozen.Props.c27_built",
    "Frozen.Props.c27_intersection",
    "Frozen.Props.c27_difference",
    "Frozen.Props.c27_symmetric_difference"
   ],
   "note": ""
  },
  {
   "property": "C28",
   "status": "partial",
   "theorems": [
    "Frozen.Props.c28_built_partial",
    "Frozen.Props.c28_difference",
    "Frozen.Props.c28_symmetric_difference",
    "Frozen.Props.c28_intersection",
    "Frozen.Props.c28_union_partial",
    "Frozen.Props.c28_union_iff",
    "Frozen.Props.c28_union_lower_bound_wrong",
    "Frozen.Props.c28_union_refuted",
    "Frozen.Props.c28_difference_fits",
    "Frozen.Props.c28_union_fits",
    "Frozen.Props.c28_intersection_fits",
    "Frozen.Props.c28_symmetric_difference_fits",
    "Frozen.Props.c28_built_fits"
   ],
   "note": "False of the code for unions: c28_union_lower_bound_wrong / c28_union_refuted show a lower bound of 2 with nothing left, and c28_union_iff shows that the hints are right throughout exactly if the sets are disjoint. Proved in full for difference, symmetric difference and intersection; for unions the upper bound always and the lower bound at the start."
  },
  {
   "property": "C29",
   "status": "proved",
   "theorems": [
    "Frozen.Props.c29_built",
    "Frozen.Props.c29_is_subset",
    "Frozen.Props.c29_is_superset",
    "Frozen.Props.c29_is_disjoint"
   ],
   "note": ""
  },
  {
   "property": "C30",
   "status": "proved",
   "theorems": [
    "Frozen.Props.c30_set_eq",
    "Frozen.Props.c30_built_set_eq"
   ],
   "note": ""
  },
  {
   "property": "C31",
   "status": "proved",
   "theorems": [
    "Frozen.Props.c31_built",
    "Frozen.Props.c31_bitor",
    "Frozen.Props.c31_bitand",
    "Frozen.Props.c31_sub",
    "Frozen.Props.c31_bitxor",
    "Frozen.Props.c31_laws",
    "Frozen.Props.c31_combined_laws"
   ],
   "note": ""
  },
  {
   "property": "C32",
   "status": "proved",
   "theorems": [
    "Frozen.Props.c32_set_contents",
    "Frozen.Props.c32_len",
    "Frozen.Props.c32_is_set"
   ],
   "note": ""
  },
  {
   "property": "C33",
   "status": "proved",
   "theorems": [
    "Frozen.Props.c33_index"
   ],
   "note": ""
  },
  {
   "property": "C34",
   "status": "partial",
   "theorems": [
    "Frozen.Props.c34_announced_length",
    "Frozen.Props.c34_fz_hash_map",
    "Frozen.Props.c34_fz_ordered_map",
    "Frozen.Props.c34_fz_scalar_map",
    "Frozen.Props.c34_fz_string_map_partial",
    "Frozen.Props.c34_transient_strings_fail",
    "Frozen.Props.c34_fz_string_map_iff",
    "Frozen.Props.c34_error_propagates",
    "Frozen.Props.c34_announced_length_set",
    "Frozen.Props.c34_fz_hash_set",
    "Frozen.Props.c34_fz_ordered_set",
    "Frozen.Props.c34_fz_scalar_set",
    "Frozen.Props.c34_fz_string_set_partial",
    "Frozen.Props.c34_transient_string_set_fails",
    "Frozen.Props.c34_fz_string_set_iff",
    "Frozen.Props.c34_hash_set_equal",
    "Frozen.Props.c34_ordered_set_equal",
    "Frozen.Props.c34_scalar_map_iff",
    "Frozen.Props.c34_scalar_set_iff"
   ],
   "note": "Proved for hash and ordered maps and sets, which are restored equal to the original. c34_scalar_map_iff and c34_scalar_set_iff: what another collection wrote can be read as a scalar collection if and only if the keys do not include both ends of the range of usize (see C18). c34_fz_string_map_iff and c34_fz_string_set_iff: a string collection is restored if and only if every string is lent from the input; c34_transient_strings_fail and c34_transient_string_set_fails show that it fails otherwise."
  },
  {
   "property": "C35",
   "status": "proved",
   "theorems": [
    "Frozen.Props.c35_same_entries_same_map",
    "Frozen.Props.c35_order_irrelevant",
    "Frozen.Props.c35_hash_set",
    "Frozen.Props.c35_ordered_set",
    "Frozen.Props.c35_scalar_set",
    "Frozen.Props.c35_string_set",
    "Frozen.Props.c35_sets_of_maps",
    "Frozen.Props.c35_routes"
   ],
   "note": ""
  },
  {
   "property": "C36",
   "status": "proved",
   "theorems": [
    "Frozen.Props.c36_default_sets",
    "Frozen.Props.c36_default_maps"
   ],
   "note": ""
  },
  {
   "property": "C37",
   "status": "proved",
   "theorems": [
    "Frozen.Props.c37_emit_hash",
    "Frozen.Props.c37_emit_ordered",
    "Frozen.Props.c37_emit_scalar",
    "Frozen.Props.c37_emit_string",
    "Frozen.Props.c37_macro_scalar_exprs",
    "Frozen.Props.c37_macro_scalars",
    "Frozen.Props.c37_macro_strings",
    "Frozen.Props.c37_macro_empty"
   ],
   "note": ""
  },
  {
   "property": "C38",
   "status": "proved",
   "theorems": [
    "Frozen.Props.c38_emit_hash",
    "Frozen.Props.c38_emit_ordered",
    "Frozen.Props.c38_emit_string",
    "Frozen.Props.c38_emit_scalar",
    "Frozen.Props.c38_macro",
    "Frozen.Props.c38_compiles"
   ],
   "note": ""
  },
  {
   "property": "C39",
   "status": "partial",
   "theorems": [
    "Frozen.Props.c39_hash_partial",
    "Frozen.Props.c39_hash_panics",
    "Frozen.Props.c39_ordered_partial",
    "Frozen.Props.c39_ordered_panics",
    "Frozen.Props.c39_scalar_partial",
    "Frozen.Props.c39_scalar_panics",
    "Frozen.Props.c39_string_small_partial",
    "Frozen.Props.c39_string_large",
    "Frozen.Props.c39_string_panics",
    "Frozen.Props.c39_hash_iff",
    "Frozen.Props.c39_ordered_iff",
    "Frozen.Props.c39_scalar_iff",
    "Frozen.Props.c39_string_iff",
    "Frozen.Props.c39_refuted"
   ],
   "note": "False of the code: c39_refuted, c39_hash_panics, c39_scalar_panics, c39_string_panics and c39_ordered_panics show that equal keys make the program panic below four (scalars: eight) entries, and for ordered keys always. The _partial theorems cover distinct keys of any number and, except for ordered keys, duplicate keys above the threshold. c39_hash_iff, c39_ordered_iff, c39_scalar_iff and c39_string_iff state exactly when each kind of macro works."
  },
  {
   "property": "C40",
   "status": "proved",
   "theorems": [
    "Frozen.Props.c40_value",
    "Frozen.Props.c40_number",
    "Frozen.Props.c40_groups"
   ],
   "note": ""
  },
  {
   "property": "C41",
   "status": "proved",
   "theorems": [
    "Frozen.Props.c41_emit_hash",
    "Frozen.Props.c41_emit_ordered",
    "Frozen.Props.c41_emit_string",
    "Frozen.Props.c41_emit_scalar"
   ],
   "note": ""
  },
  {
   "property": "C42",
   "status": "proved",
   "theorems": [
    "Frozen.Props.c42_error_iff",
    "Frozen.Props.c42_classes",
    "Frozen.Props.c42_macro_error_iff"
   ],
   "note": ""
  },
  {
   "property": "C43",
   "status": "proved",
   "theorems": [
    "Frozen.Props.c43_bitmap"
   ],
   "note": ""
  },
  {
   "property": "C44",
   "status": "proved",
   "theorems": [
    "Frozen.Props.c44_map_iterators_exact",
    "Frozen.Props.c44_map_into_iterators_exact",
    "Frozen.Props.c44_map_mut_iterators_exact",
    "Frozen.Props.c44_set_iterators_exact",
    "Frozen.Props.c44_built_map_iteration"
   ],
   "note": ""
  },
  {
   "property": "C45",
   "status": "proved",
   "theorems": [
    "Frozen.Props.c45_scan_map",
    "Frozen.Props.c45_raw_scan_map"
   ],
   "note": ""
  },
  {
   "property": "C46",
   "status": "proved",
   "theorems": [
    "Frozen.Props.c46_construction_total"
   ],
   "note": ""
  },
  {
   "property": "C47",
   "status": "partial",
   "theorems": [
    "Frozen.Props.c47_hostile_hint_panics",
    "Frozen.Props.c47_hint_irrelevant_partial",
    "Frozen.Props.c47_hint_iff"
   ],
   "note": "False of the code: c47_hostile_hint_panics shows that a huge announced length panics in Vec::with_capacity for every type. c47_hint_irrelevant_partial covers hints that can be allocated. c47_hint_iff: a claim is harmless exactly if a vector of that many elements can be allocated."
  },
  {
   "property": "C48",
   "status": "partial",
   "theorems": [
    "Frozen.Props.c48_string_compiles_partial",
    "Frozen.Props.c48_string_type_error",
    "Frozen.Props.c48_string_iff"
   ],
   "note": "False of the code: c48_string_type_error shows that with four keys or more and a key type other than Box<str> the emitted constructor does not exist. c48_string_compiles_partial covers Box<str>, inferred key types and fewer than four keys. c48_string_iff states exactly which calls compile."
  },
  {
   "property": "C49",
   "status": "partial",
   "theorems": [
    "Frozen.Props.c49_literal_types_partial",
    "Frozen.Props.c49_literal_types_refuted",
    "Frozen.Props.c49_literal_types_iff"
   ],
   "note": "False of the code: c49_literal_types_refuted shows that unsuffixed literals are emitted with suffix i32 whatever key type is declared. c49_literal_types_partial covers lists with at least one suffix, and declared type i32. c49_literal_types_iff: literals keep fitting the declared type if and only if one has a suffix or the type is i32."
  },
  {
   "property": "C50",
   "status": "proved",
   "theorems": [
    "Frozen.Props.c50_memory_safe",
    "Frozen.Props.c50_operators",
    "Frozen.Props.c50_dense_new",
    "Frozen.Props.c50_sparse_new",
    "Frozen.Props.c50_fz_scalar_new",
    "Frozen.Props.c50_fz_hash_new",
    "Frozen.Props.c50_fz_string_new"
   ],
   "note": ""
  },
  {
   "property": "C51",
   "status": "partial",
   "theorems": [
    "Frozen.Props.c51_dense_iff",
    "Frozen.Props.c51_fz_scalar_iff",
    "Frozen.Props.c51_dense_varying_ub",
    "Frozen.Props.c51_fz_scalar_varying_ub",
    "Frozen.Props.c51_sparse_partial",
    "Frozen.Props.c51_hash_partial"
   ],
   "note": "False of the code: c51_dense_varying_ub and c51_fz_scalar_varying_ub show an out-of-bounds read when Scalar::index changes its answer between two calls of the constructor. Proved for the sparse map and the hash tables (_partial). c51_dense_iff and c51_fz_scalar_iff state exactly which answers are harmless."
  },
  {
   "property": "C52",
   "status": "partial",
   "theorems": [
    "Frozen.Props.c52_dense_iff",
    "Frozen.Props.c52_sparse_iff",
    "Frozen.Props.c52_hash_iff",
    "Frozen.Props.c52_hash_nc_iff",
    "Frozen.Props.c52_dense_raw_ub",
    "Frozen.Props.c52_sparse_raw_ub",
    "Frozen.Props.c52_hash_raw_ub",
    "Frozen.Props.c52_hash_nc_raw_ub",
    "Frozen.Props.c52_scan_eytzinger_partial",
    "Frozen.Props.c52_dense_sparse_condition_partial"
   ],
   "note": "False of the code for the dense, sparse and both hash types (c52_*_raw_ub): the raw constructors are safe functions and check nothing. Proved for the scan and Eytzinger types; c52_dense_sparse_condition_partial states what the caller has to guarantee. c52_dense_iff, c52_sparse_iff, c52_hash_iff and c52_hash_nc_iff state exactly which arguments of the raw constructors are safe."
  },
  {
   "property": "C53",
   "status": "proved",
   "theorems": [
    "Frozen.Props.c53_shortest_subslice"
   ],
   "note": ""
  },
  {
   "property": "C54",
   "status": "proved",
   "theorems": [
    "Frozen.Props.c54_maps",
    "Frozen.Props.c54_string_map",
    "Frozen.Props.c54_emitted",
    "Frozen.Props.c54_emitted_string",
    "Frozen.Props.c54_permutation",
    "Frozen.Props.c54_hash_order_depends"
   ],
   "note": ""
  },
  {
   "property": "C55",
   "status": "partial",
   "theorems": [
    "Frozen.Props.c55_accepted_partial",
    "Frozen.Props.c55_last_value",
    "Frozen.Props.c55_accepted_iff",
    "Frozen.Props.c55_refuted"
   ],
   "note": "The full claim is false of the code: c55_last_value shows that a static map with literal keys whose last value is not constant is never accepted, c55_refuted gives a call and the same call with a computed key. c55_accepted_partial proves the claim in all other cases. c55_accepted_iff: a static map with literal keys is accepted exactly if every value not replaced by a later entry is constant."
  },
  {
   "property": "C56",
   "status": "proved",
   "theorems": [
    "Frozen.Props.c56_complete",
    "Frozen.Props.c56_sound",
    "Frozen.Props.c56_unique",
    "Frozen.Props.c56_options",
    "Frozen.Props.c56_expansion",
    "Frozen.Props.c56_static_declares",
    "Frozen.Props.c56_let_declares",
    "Frozen.Props.c56_short_expands"
   ],
   "note": ""
  },
  {
   "property": "C57",
   "status": "partial",
   "theorems": [
    "Frozen.Props.c57_emit_hash",
    "Frozen.Props.c57_emit_string",
    "Frozen.Props.c57_strings_refuted",
    "Frozen.Props.c57_compiles_iff",
    "Frozen.Props.c57_index_agrees",
    "Frozen.Props.c57_scalars_partial",
    "Frozen.Props.c57_isize_refuted",
    "Frozen.Props.c57_isize_partial",
    "Frozen.Props.c57_hosts"
   ],
   "note": "The full claim is false of the code: c57_strings_refuted gives a map that finds none of its keys on a target with other hash values, c57_isize_refuted shows that lookup tables of isize literals generated on a 64-bit host do not compile for a 32-bit target (c57_isize_partial: exactly those). c57_emit_hash and c57_emit_string characterise exactly which keys are found; c57_scalars_partial proves the claim for the other integer types; c57_compiles_iff says when code generated on one target compiles for another."
  },
  {
   "property": "C58",
   "status": "proved",
   "theorems": [
    "Frozen.Props.c58_scan",
    "Frozen.Props.c58_ordered",
    "Frozen.Props.c58_fz_hash_map",
    "Frozen.Props.c58_fz_hash_map_perfect",
    "Frozen.Props.c58_fz_scalar_map",
    "Frozen.Props.c58_fz_string_map",
    "Frozen.Props.c58_inline"
   ],
   "note": ""
  },
  {
   "property": "C59",
   "status": "partial",
   "theorems": [
    "Frozen.Props.c59_stacked_borrows_iff",
    "Frozen.Props.c59_same_entries",
    "Frozen.Props.c59_stacked_borrows_violated",
    "Frozen.Props.c59_stacked_borrows_partial",
    "Frozen.Props.c59_tree_borrows",
    "Frozen.Props.c59_tree_borrows_built"
   ],
   "note": "Holds under Tree Borrows (c59_tree_borrows, c59_tree_borrows_built). False under Stacked Borrows: c59_stacked_borrows_violated for every map type as soon as two keys are present; c59_stacked_borrows_iff says exactly when it is allowed, for each map type; c59_stacked_borrows_partial is the positive part."
  },
  {
   "property": "C60",
   "status": "partial",
   "theorems": [
    "Frozen.Props.c60_same_programs_partial",
    "Frozen.Props.c60_btree",
    "Frozen.Props.c60_disjoint_iff",
    "Frozen.Props.c60_absent_duplicates_violated",
    "Frozen.Props.c60_collected_hash",
    "Frozen.Props.c60_collected_keys_violated",
    "Frozen.Props.c60_collected_btree",
    "Frozen.Props.c60_sets",
    "Frozen.Props.c60_same_sets",
    "Frozen.Props.c60_collected_hash_set",
    "Frozen.Props.c60_collected_btree_set",
    "Frozen.Props.c60_collected_elements_violated"
   ],
   "note": "False of the code in three points, each refuted with a witness: c60_absent_duplicates_violated, c60_collected_keys_violated and c60_collected_elements_violated (which of several equal keys or elements is kept). c60_same_programs_partial proves equality for all programs without that one use of get_disjoint_mut; c60_btree has no exception for BTreeMap; c60_disjoint_iff says exactly when get_disjoint_mut differs; c60_same_sets, c60_collected_hash_set and c60_collected_btree_set are the claims for sets."
  },
  {
   "property": "C61",
   "status": "partial",
   "theorems": [
    "Frozen.Props.c61_methods",
    "Frozen.Props.c61_get_mut_iff",
    "Frozen.Props.c61_query_ints",
    "Frozen.Props.c61_query_strs",
    "Frozen.Props.c61_query_exprs",
    "Frozen.Props.c61_query_common_partial",
    "Frozen.Props.c61_get_mut_violated",
    "Frozen.Props.c61_query_violated"
   ],
   "note": "False of the code: c61_get_mut_violated and c61_query_violated. Proved instead: all other functions resolve (c61_methods), the exact condition for get_mut (c61_get_mut_iff), the exact query types per class of keys (c61_query_ints, c61_query_strs, c61_query_exprs), and that query types as capable as the key type always compile (c61_query_common_partial)."
  },
  {
   "property": "C62",
   "status": "partial",
   "theorems": [
    "Frozen.Props.c62_map",
    "Frozen.Props.c62_set",
    "Frozen.Props.c62_borrowing",
    "Frozen.Props.c62_operations",
    "Frozen.Props.c62_symmetric_difference_partial",
    "Frozen.Props.c62_owning",
    "Frozen.Props.c62_only_items",
    "Frozen.Props.c62_into_keys_iff",
    "Frozen.Props.c62_violated"
   ],
   "note": "False of the code for into_keys, into_values, values_mut and symmetric_difference: c62_violated, with the exact text in c62_into_keys_iff and c62_symmetric_difference_partial. Proved in full for all maps, sets, the other iterators and the other set operations."
  },
  {
   "property": "C63",
   "status": "partial",
   "theorems": [
    "Frozen.Props.c63_names_partial",
    "Frozen.Props.c63_self_contained_iff",
    "Frozen.Props.c63_macro_iff",
    "Frozen.Props.c63_refuted"
   ],
   "note": "False of the code for computed keys, whose expansion uses the unqualified names vec and std (c63_refuted). c63_names_partial proves the claim with these two excepted; c63_self_contained_iff and c63_macro_iff say exactly when it holds."
  },
  {
   "property": "C64",
   "status": "proved",
   "theorems": [
    "Frozen.Props.c64_constructor",
    "Frozen.Props.c64_declares",
    "Frozen.Props.c64_macro",
    "Frozen.Props.c64_unambiguous",
    "Frozen.Props.c64_meaning"
   ],
   "note": ""
  },
  {
   "property": "C65",
   "status": "partial",
   "theorems": [
    "Frozen.Props.c65_self_equal_iff",
    "Frozen.Props.c65_eq_is_equivalence_partial",
    "Frozen.Props.c65_sets",
    "Frozen.Props.c65_emitted_iff",
    "Frozen.Props.c65_violated"
   ],
   "note": "False of the code for InlineEytzingerSearchMap, whose impl Eq asks for V: PartialEq only (c65_violated). Proved for all other map types and all sets; c65_emitted_iff says exactly for which macro calls the type is Eq without reflexive equality."
  },
  {
   "property": "C66",
   "status": "partial",
   "theorems": [
    "Frozen.Props.c66_map_traits_partial",
    "Frozen.Props.c66_map_eq_iff",
    "Frozen.Props.c66_building_iff",
    "Frozen.Props.c66_set_traits_partial",
    "Frozen.Props.c66_set_methods",
    "Frozen.Props.c66_violated"
   ],
   "note": "False of the code for Default, FromIterator, Deserialize, Eq and get of sets (c66_violated). Proved for the other traits, operators and functions; c66_building_iff, c66_map_eq_iff and c66_set_methods say exactly when the others are available."
  },
  {
   "property": "C67",
   "status": "partial",
   "theorems": [
    "Frozen.Props.c67_lookups_partial",
    "Frozen.Props.c67_dense_wrong",
    "Frozen.Props.c67_sparse_panics",
    "Frozen.Props.c67_lookups_iff",
    "Frozen.Props.c67_contains_iff",
    "Frozen.Props.c67_reversed",
    "Frozen.Props.c67_derived",
    "Frozen.Props.c67_all_variants",
    "Frozen.Props.c67_violated"
   ],
   "note": "False of the code (c67_violated, c67_reversed, c67_sparse_panics). Proved whenever the order fits the indices of the keys at hand, and c67_lookups_iff and c67_contains_iff say exactly when lookups and membership are right."
  },
  {
   "property": "C68",
   "status": "proved",
   "theorems": [
    "Frozen.Props.c68_size_iff",
    "Frozen.Props.c68_table",
    "Frozen.Props.c68_small",
    "Frozen.Props.c68_equal_codes",
    "Frozen.Props.c68_not_fewest"
   ],
   "note": ""
  },
  {
   "property": "C69",
   "status": "proved",
   "theorems": [
    "Frozen.Props.c69_slice_analysis",
    "Frozen.Props.c69_string_map",
    "Frozen.Props.c69_hash_codes"
   ],
   "note": ""
  },
  {
   "property": "C70",
   "status": "partial",
   "theorems": [
    "Frozen.Props.c70_count",
    "Frozen.Props.c70_few_partial",
    "Frozen.Props.c70_quadratic",
    "Frozen.Props.c70_violated",
    "Frozen.Props.c70_pairwise"
   ],
   "note": "False of the code (c70_violated, c70_quadratic). c70_count gives the exact number of comparisons for every input; c70_few_partial bounds it when few entries are duplicates."
  },
  {
   "property": "C71",
   "status": "proved",
   "theorems": [
    "Frozen.Props.c71_scalars",
    "Frozen.Props.c71_strings",
    "Frozen.Props.c71_empty",
    "Frozen.Props.c71_computed",
    "Frozen.Props.c71_hashed",
    "Frozen.Props.c71_ordered",
    "Frozen.Props.c71_scalar_exprs",
    "Frozen.Props.c71_string_exprs_small",
    "Frozen.Props.c71_string_exprs_large",
    "Frozen.Props.c71_malformed",
    "Frozen.Props.c71_rejected",
    "Frozen.Props.c71_error"
   ],
   "note": ""
  },
  {
   "property": "C72",
   "status": "partial",
   "theorems": [
    "Frozen.Props.c72_emit_scalar",
    "Frozen.Props.c72_emit_string",
    "Frozen.Props.c72_emit_hash",
    "Frozen.Props.c72_emit_ordered",
    "Frozen.Props.c72_macro_ints",
    "Frozen.Props.c72_macro_strs",
    "Frozen.Props.c72_macro_exprs",
    "Frozen.Props.c72_macro_empty",
    "Frozen.Props.c72_fz_scalar_map",
    "Frozen.Props.c72_fz_string_map_partial",
    "Frozen.Props.c72_length_as_hash_refuted",
    "Frozen.Props.c72_ordered_scan_refuted",
    "Frozen.Props.c72_small_scan_refuted"
   ],
   "note": "Proved in full for everything the macros and the emitter choose for integers, strings, other keys and computed keys, and for run-time scalar maps. False of the code for the documented Ordered Scan and Binary Search (never used: c72_ordered_scan_refuted), for Length as Hash in run-time string maps (c72_length_as_hash_refuted) and for Linear Scan in run-time maps (c72_small_scan_refuted); c72_fz_string_map_partial says what run-time string maps do instead. Strings are assumed not to have colliding hash codes of corresponding parts, without which the analyser may reject a part."
  },
  {
   "property": "C73",
   "status": "proved",
   "theorems": [
    "Frozen.Props.c73_parse",
    "Frozen.Props.c73_item_unique",
    "Frozen.Props.c73_enum",
    "Frozen.Props.c73_unambiguous",
    "Frozen.Props.c73_refused",
    "Frozen.Props.c73_complete",
    "Frozen.Props.c73_malformed",
    "Frozen.Props.c73_only_enums",
    "Frozen.Props.c73_in_use"
   ],
   "note": ""
  },
  {
   "property": "C74",
   "status": "partial",
   "theorems": [
    "Frozen.Props.c74_last_call_wins",
    "Frozen.Props.c74_order",
    "Frozen.Props.c74_overridden",
    "Frozen.Props.c74_code",
    "Frozen.Props.c74_misconfigured",
    "Frozen.Props.c74_bad_name_panics",
    "Frozen.Props.c74_outcome_partial",
    "Frozen.Props.c74_keyword_accepted",
    "Frozen.Props.c74_keys_must_agree",
    "Frozen.Props.c74_set_entries"
   ],
   "note": "Settings, errors and the meaning of the code are proved in full (c74_last_call_wins, c74_order, c74_overridden, c74_code, c74_misconfigured). That unusable names are reported as an error is false of the code: c74_bad_name_panics, c74_keyword_accepted; c74_outcome_partial says exactly which outcome there is. The keys of the entries are assumed to agree with the code given for them, without which the emitted map may not work (c74_keys_must_agree)."
  },
  {
   "property": "C75",
   "status": "partial",
   "theorems": [
    "Frozen.Props.c75_histories",
    "Frozen.Props.c75_sets",
    "Frozen.Props.c75_fz_hash_map",
    "Frozen.Props.c75_fz_string_map",
    "Frozen.Props.c75_order_depends",
    "Frozen.Props.c75_macro_same_partial",
    "Frozen.Props.c75_emit_string_iff",
    "Frozen.Props.c75_emit_hash_iff",
    "Frozen.Props.c75_macro_strings_iff",
    "Frozen.Props.c75_violated"
   ],
   "note": "Proved in full for running programs: c75_histories, c75_sets, c75_fz_hash_map, c75_fz_string_map (and c75_order_depends: the exception is needed). That generated code is the same in each build is false of the code (c75_violated). c75_macro_strings_iff, c75_emit_string_iff and c75_emit_hash_iff say exactly when two seeds give the same code; c75_macro_same_partial that they do for all calls whose keys are not string literals."
  },
  {
   "property": "C76",
   "status": "proved",
   "theorems": [
    "Frozen.Props.c76_hash_map",
    "Frozen.Props.c76_fz_hash_map",
    "Frozen.Props.c76_fz_string_map",
    "Frozen.Props.c76_fz_ordered_map",
    "Frozen.Props.c76_fz_scalar_map",
    "Frozen.Props.c76_emit_hash",
    "Frozen.Props.c76_emit_ordered",
    "Frozen.Props.c76_emit_string",
    "Frozen.Props.c76_emit_scalar",
    "Frozen.Props.c76_tokens",
    "Frozen.Props.c76_macro"
   ],
   "note": ""
  },
  {
   "property": "C77",
   "status": "proved",
   "theorems": [
    "Frozen.Props.c77_unambiguous",
    "Frozen.Props.c77_emitted",
    "Frozen.Props.c77_error",
    "Frozen.Props.c77_macro",
    "Frozen.Props.c77_derive",
    "Frozen.Props.c77_unit_hasher",
    "Frozen.Props.c77_passed_on",
    "Frozen.Props.c77_internal",
    "Frozen.Props.c77_macros",
    "Frozen.Props.c77_emitter"
   ],
   "note": ""
  },
  {
   "property": "C78",
   "status": "proved",
   "theorems": [
    "Frozen.Props.c78_collections",
    "Frozen.Props.c78_iterators",
    "Frozen.Props.c78_set_iterator",
    "Frozen.Props.c78_mutable_iterators",
    "Frozen.Props.c78_set_operations",
    "Frozen.Props.c78_static",
    "Frozen.Props.c78_named"
   ],
   "note": ""
  },
  {
   "property": "C79",
   "status": "partial",
   "theorems": [
    "Frozen.Props.c79_set_operations",
    "Frozen.Props.c79_violated",
    "Frozen.Props.c79_collections_partial",
    "Frozen.Props.c79_iterators_partial",
    "Frozen.Props.c79_mutable_keys_violated"
   ],
   "note": "Holds for all collections, consuming iterators and shared iterators. Violated by the iterators of the set operations, which hold associated iterator types and are therefore invariant in the borrow, the sets and the elements, and by the mutable iterators, which are invariant in the key type although they only read keys."
  },
  {
   "property": "C80",
   "status": "partial",
   "theorems": [
    "Frozen.Props.c80_union",
    "Frozen.Props.c80_intersection",
    "Frozen.Props.c80_difference",
    "Frozen.Props.c80_symmetric_difference",
    "Frozen.Props.c80_intersection_once",
    "Frozen.Props.c80_difference_once",
    "Frozen.Props.c80_symmetric_difference_once",
    "Frozen.Props.c80_union_once_partial",
    "Frozen.Props.c80_checks",
    "Frozen.Props.c80_union_violated",
    "Frozen.Props.c80_fused_violated"
   ],
   "note": "Proved for all set types whose iterators stay at their end; the checks for all set types. Violated for set types whose iterators go on after None, which the traits allow: a union gives elements twice, and all four operations go on after None although they are FusedIterator. Up to the first None the other three operations are right for all set types."
  },
  {
   "property": "C81",
   "status": "proved",
   "theorems": [
    "Frozen.Props.c81_scan",
    "Frozen.Props.c81_ordered",
    "Frozen.Props.c81_lookup",
    "Frozen.Props.c81_hash",
    "Frozen.Props.c81_fz_hash_map",
    "Frozen.Props.c81_fz_scalar_map",
    "Frozen.Props.c81_fz_string_map",
    "Frozen.Props.c81_inline_map",
    "Frozen.Props.c81_sets",
    "Frozen.Props.c81_panics",
    "Frozen.Props.c81_equal"
   ],
   "note": ""
  },
  {
   "property": "C82",
   "status": "partial",
   "theorems": [
    "Frozen.Props.c82_histories",
    "Frozen.Props.c82_sets",
    "Frozen.Props.c82_fz_hash_map",
    "Frozen.Props.c82_fz_ordered_map",
    "Frozen.Props.c82_fz_string_map",
    "Frozen.Props.c82_fz_scalar_map_partial",
    "Frozen.Props.c82_violated",
    "Frozen.Props.c82_fz_hash_map_data",
    "Frozen.Props.c82_fz_ordered_map_data",
    "Frozen.Props.c82_fz_scalar_map_data_partial",
    "Frozen.Props.c82_emit_hash",
    "Frozen.Props.c82_emit_ordered",
    "Frozen.Props.c82_emit_scalar_partial",
    "Frozen.Props.c82_emit_string",
    "Frozen.Props.c82_macro_strings"
   ],
   "note": "The full claim is false of the code: c82_violated gives a scalar map (u32 keys 0 and u32::MAX) that is built on 64-bit targets and panics on 32-bit targets. c82_fz_scalar_map_partial, c82_fz_scalar_map_data_partial give the exact condition; the other kinds of collections are proved without exception. Macros run on a 64-bit host in the model (c82_macro_strings; for integers see C57)."
  },
  {
   "property": "C83",
   "status": "proved",
   "theorems": [
    "Frozen.Props.c83_len",
    "Frozen.Props.c83_lookup",
    "Frozen.Props.c83_ranges",
    "Frozen.Props.c83_lookup_ranges"
   ],
   "note": ""
  },
  {
   "property": "C84",
   "status": "partial",
   "theorems": [
    "Frozen.Props.c84_query_partial",
    "Frozen.Props.c84_violated",
    "Frozen.Props.c84_compatible_iff",
    "Frozen.Props.c84_calls"
   ],
   "note": "The full claim is false of the code for MapIteration and SetIteration (c84_violated); c84_compatible_iff says exactly which traits of the crate are dyn compatible. Proved for MapQuery and SetQuery (c84_query_partial) and for all programs on objects of dyn MapQuery (c84_calls)."
  },
  {
   "property": "C85",
   "status": "partial",
   "theorems": [
    "Frozen.Props.c85_queries_partial",
    "Frozen.Props.c85_missing_iff",
    "Frozen.Props.c85_violated",
    "Frozen.Props.c85_supertraits"
   ],
   "note": "The full claim is false of the code (c85_violated): unsized query types are missing from Set for HashSet, Map for BTreeMap and all traits of BTreeSet. c85_queries_partial proves it for sized query types that are Eq; c85_missing_iff says exactly what is missing."
  },
  {
   "property": "C86",
   "status": "proved",
   "theorems": [
    "Frozen.Props.c86_map_iterators",
    "Frozen.Props.c86_set_iterator",
    "Frozen.Props.c86_set_operations"
   ],
   "note": ""
  },
  {
   "property": "C87",
   "status": "partial",
   "theorems": [
    "Frozen.Props.c87_lawful_partial",
    "Frozen.Props.c87_ordered_safe",
    "Frozen.Props.c87_safe_iff",
    "Frozen.Props.c87_violated"
   ],
   "note": "The code violates the claim for magnitudes whose conversions fail within MAX_CAPACITY (c87_violated); c87_lawful_partial proves it for lawful magnitudes, c87_safe_iff gives the exact condition for memory safety and c87_ordered_safe a sufficient one."
  },
  {
   "property": "C88",
   "status": "partial",
   "theorems": [
    "Frozen.Props.c88_static_partial",
    "Frozen.Props.c88_layout",
    "Frozen.Props.c88_violated"
   ],
   "note": "The code violates the claim for keys that are constant but not literals (c88_violated); c88_static_partial and c88_layout give the exact condition."
  },
  {
   "property": "C89",
   "status": "partial",
   "theorems": [
    "Frozen.Props.c89_string",
    "Frozen.Props.c89_emit_hash_table",
    "Frozen.Props.c89_emit_scalar_otherwise",
    "Frozen.Props.c89_emit_string_table",
    "Frozen.Props.c89_ordered_tree",
    "Frozen.Props.c89_ordered_iff",
    "Frozen.Props.c89_ordered_set_iff",
    "Frozen.Props.c89_violated",
    "Frozen.Props.c89_scalar_partial",
    "Frozen.Props.c89_scalar_otherwise",
    "Frozen.Props.c89_hash",
    "Frozen.Props.c89_scan",
    "Frozen.Props.c89_emit_ordered_iff",
    "Frozen.Props.c89_emit_scalar_partial",
    "Frozen.Props.c89_emit_string_partial",
    "Frozen.Props.c89_emit_hash",
    "Frozen.Props.c89_inline_scan",
    "Frozen.Props.c89_inline_ordered_iff",
    "Frozen.Props.c89_macro_ordered"
   ],
   "note": "ascending iteration is false in general (c89_violated); the exact order is proved for every collection: ordered (c89_ordered_iff, c89_ordered_tree), scalar (c89_scalar_partial, c89_scalar_otherwise), hash, scan, emitted and macro collections"
  },
  {
   "property": "C90",
   "status": "proved",
   "theorems": [
    "Frozen.Props.c90_recorded",
    "Frozen.Props.c90_union",
    "Frozen.Props.c90_intersection",
    "Frozen.Props.c90_difference",
    "Frozen.Props.c90_symmetric_difference",
    "Frozen.Props.c90_operators",
    "Frozen.Props.c90_is_subset",
    "Frozen.Props.c90_is_superset",
    "Frozen.Props.c90_is_disjoint"
   ],
   "note": ""
  },
  {
   "property": "C91",
   "status": "proved",
   "theorems": [
    "Frozen.Props.c91_lookup_or_panic",
    "Frozen.Props.c91_lookup",
    "Frozen.Props.c91_history",
    "Frozen.Props.c91_quiet_history",
    "Frozen.Props.c91_blame",
    "Frozen.Props.c91_memory_safe"
   ],
   "note": ""
  },
  {
   "property": "C92",
   "status": "proved",
   "theorems": [
    "Frozen.Props.c92_serialize_map_ok_iff",
    "Frozen.Props.c92_serialize_map_error_iff",
    "Frozen.Props.c92_serialize_set_ok_iff",
    "Frozen.Props.c92_serialize_set_error_iff",
    "Frozen.Props.c92_nested_round_trip",
    "Frozen.Props.c92_any_document",
    "Frozen.Props.c92_map_document",
    "Frozen.Props.c92_set_document",
    "Frozen.Props.c92_wrong_kind",
    "Frozen.Props.c92_first_error",
    "Frozen.Props.c92_map_accepts_iff",
    "Frozen.Props.c92_set_accepts_iff"
   ],
   "note": ""
  },
  {
   "property": "C93",
   "status": "proved",
   "theorems": [
    "Frozen.Props.c93_map_or_panic",
    "Frozen.Props.c93_same_map",
    "Frozen.Props.c93_blame",
    "Frozen.Props.c93_constructors_safe",
    "Frozen.Props.c93_results_safe",
    "Frozen.Props.c93_life_safe"
   ],
   "note": ""
  },
  {
   "property": "C94",
   "status": "proved",
   "theorems": [
    "Frozen.Props.c94_operators",
    "Frozen.Props.c94_operators_hostile",
    "Frozen.Props.c94_operators_memory_safe",
    "Frozen.Props.c94_items_or_panics",
    "Frozen.Props.c94_items",
    "Frozen.Props.c94_blame",
    "Frozen.Props.c94_compare",
    "Frozen.Props.c94_hostile",
    "Frozen.Props.c94_crate_sets",
    "Frozen.Props.c94_memory_safe"
   ],
   "note": ""
  },
  {
   "property": "C95",
   "status": "proved",
   "theorems": [
    "Frozen.Props.c95_map_eq",
    "Frozen.Props.c95_values_compared",
    "Frozen.Props.c95_eq_memory_safe",
    "Frozen.Props.c95_clone",
    "Frozen.Props.c95_clone_string",
    "Frozen.Props.c95_clone_hostile_ordered",
    "Frozen.Props.c95_clone_hostile_hash",
    "Frozen.Props.c95_clone_hostile_scalar",
    "Frozen.Props.c95_clone_hostile_string",
    "Frozen.Props.c95_clone_hostile_inline"
   ],
   "note": ""
  },
  {
   "property": "C96",
   "status": "proved",
   "theorems": [
    "Frozen.Props.c96_steps",
    "Frozen.Props.c96_iterators",
    "Frozen.Props.c96_text_map",
    "Frozen.Props.c96_text_operations",
    "Frozen.Props.c96_plain",
    "Frozen.Props.c96_memory_safe"
   ],
   "note": ""
  },
  {
   "property": "C97",
   "status": "proved",
   "theorems": [
    "Frozen.Props.c97_serialize_map",
    "Frozen.Props.c97_serialize_set",
    "Frozen.Props.c97_deserialize",
    "Frozen.Props.c97_one_outcome",
    "Frozen.Props.c97_result",
    "Frozen.Props.c97_round_trip",
    "Frozen.Props.c97_blame",
    "Frozen.Props.c97_memory_safe"
   ],
   "note": ""
  },
  {
   "property": "C98",
   "status": "proved",
   "theorems": [
    "Frozen.Props.c98_collect",
    "Frozen.Props.c98_one_outcome",
    "Frozen.Props.c98_result",
    "Frozen.Props.c98_string_keys",
    "Frozen.Props.c98_blame",
    "Frozen.Props.c98_memory_safe"
   ],
   "note": ""
  },
  {
   "property": "C99",
   "status": "proved",
   "theorems": [
    "Frozen.Props.c99_found",
    "Frozen.Props.c99_conversion_panics",
    "Frozen.Props.c99_lookup",
    "Frozen.Props.c99_blame",
    "Frozen.Props.c99_disjoint",
    "Frozen.Props.c99_disjoint_refuses",
    "Frozen.Props.c99_disjoint_accepts",
    "Frozen.Props.c99_disjoint_complete",
    "Frozen.Props.c99_memory_safe"
   ],
   "note": ""
  }
 ]
}