'LvArray.Props.C01_bijection' depends on axioms: [propext, Classical.choice, Quot.sound]
'LvArray.Props.C02_memory_order' depends on axioms: [propext, Classical.choice, Quot.sound]
'LvArray.Props.C03_chained_subscript' depends on axioms: [propext, Classical.choice, Quot.sound]
'LvArray.Props.C04_checked_access' depends on axioms: [propext, Classical.choice, Quot.sound]
'LvArray.Props.C05_contiguous_exact_partial' depends on axioms: [propext, Classical.choice, Quot.sound]
'LvArray.Props.C05_contiguous_sound' depends on axioms: [propext, Classical.choice, Quot.sound]
'LvArray.Props.C05_not_exact_empty' depends on axioms: [propext, Classical.choice, Quot.sound]
'LvArray.Props.C05_not_exact_unit' depends on axioms: [propext, Classical.choice, Quot.sound]
'LvArray.Props.C06_iteration' depends on axioms: [propext, Classical.choice, Quot.sound]
'LvArray.Props.C06_sumOverFirstDimension' depends on axioms: [propext, Classical.choice, Quot.sound]
'LvArray.Props.C07_array_is_vector' depends on axioms: [propext, Classical.choice, Quot.sound]
'LvArray.Props.C07_debug_empty_insert_aborts' depends on axioms: [propext, Classical.choice, Quot.sound]
'LvArray.Props.C07_invalid_call_aborts' depends on axioms: [propext, Classical.choice, Quot.sound]
'LvArray.Props.C08_array_of_arrays_free' depends on axioms: [propext, Classical.choice, Quot.sound]
'LvArray.Props.C08_checked_histories_are_safe' depends on axioms: [propext, Classical.choice, Quot.sound]
'LvArray.Props.C08_lifetimes_exact' depends on axioms: [propext, Classical.choice, Quot.sound]
'LvArray.Props.C08_lifetimes_partial' depends on axioms: [propext, Classical.choice, Quot.sound]
'LvArray.Props.C08_shiftUp_drops_objects' depends on axioms: [propext]
'LvArray.Props.C09_amortised' depends on axioms: [propext, Classical.choice, Quot.sound]
'LvArray.Props.C09_amortised_from' depends on axioms: [propext, Classical.choice, Quot.sound]
'LvArray.Props.C09_reserve' depends on axioms: [propext, Classical.choice, Quot.sound]
'LvArray.Props.C10_resize_preserves' depends on axioms: [propext, Classical.choice, Quot.sound]
'LvArray.Props.C11_clear' depends on axioms: [propext, Classical.choice, Quot.sound]
'LvArray.Props.C11_histories' depends on axioms: [propext, Classical.choice, Quot.sound]
'LvArray.Props.C11_reserve' depends on axioms: [propext, Classical.choice, Quot.sound]
'LvArray.Props.C11_resize' depends on axioms: [propext, Classical.choice, Quot.sound]
'LvArray.Props.C11_resizeDimension' depends on axioms: [propext, Classical.choice, Quot.sound]
'LvArray.Props.C12_C13_array_values' depends on axioms: [propext, Classical.choice, Quot.sound]
'LvArray.Props.C12_C13_arrays_are_values' depends on axioms: [propext, Classical.choice, Quot.sound]
'LvArray.Props.C12_C13_matrix_values' depends on axioms: [propext, Classical.choice, Quot.sound]
'LvArray.Props.C12_C13_pattern_values' depends on axioms: [propext, Classical.choice, Quot.sound]
'LvArray.Props.C12_C13_rows_values' depends on axioms: [propext, Classical.choice, Quot.sound]
'LvArray.Props.C12_C13_sets_values' depends on axioms: [propext, Classical.choice, Quot.sound]
'LvArray.Props.C12_C13_sorted_values' depends on axioms: [propext, Classical.choice, Quot.sound]
'LvArray.Props.C12_copy_nd' depends on axioms: [propext, Classical.choice, Quot.sound]
'LvArray.Props.C13_array_move_assignment_leaks' depends on axioms: [propext]
'LvArray.Props.C13_array_releases_partial' depends on axioms: [propext, Classical.choice, Quot.sound]
'LvArray.Props.C13_move_array_of_arrays' depends on axioms: [propext, Classical.choice, Quot.sound]
'LvArray.Props.C13_move_assignment_leaks' depends on axioms: [propext, Quot.sound]
'LvArray.Props.C13_move_assignment_leaks_witness' depends on axioms: [propext]
'LvArray.Props.C13_moved_from_array_of_arrays' depends on axioms: [propext, Quot.sound]
'LvArray.Props.C13_moved_from_arrays' depends on axioms: [propext]
'LvArray.Props.C13_moved_from_matrix' depends on axioms: [propext]
'LvArray.Props.C13_moved_from_pattern' depends on axioms: [propext]
'LvArray.Props.C13_moved_from_resize' depends on axioms: [propext, Classical.choice, Quot.sound]
'LvArray.Props.C13_moved_from_sets' depends on axioms: [propext]
'LvArray.Props.C13_moved_from_sorted' depends on axioms: [propext]
'LvArray.Props.C13_moved_from_strides' depends on axioms: [propext, Classical.choice, Quot.sound]
'LvArray.Props.C13_no_leak_partial' depends on axioms: [propext, Classical.choice, Quot.sound]
'LvArray.Props.C13_self_move_loses_contents' depends on axioms: [propext, Quot.sound]
'LvArray.Props.C13_sorted_move_assignment_leaks' depends on axioms: [propext]
'LvArray.Props.C13_sorted_releases_partial' depends on axioms: [propext, Classical.choice, Quot.sound]
'LvArray.Props.C14_emplace_alias_exact' depends on axioms: [propext, Classical.choice, Quot.sound]
'LvArray.Props.C14_emplace_alias_wrong_value' depends on axioms: [propext]
'LvArray.Props.C14_emplace_back_alias_partial' depends on axioms: [propext, Classical.choice, Quot.sound]
'LvArray.Props.C14_emplace_back_dangles' depends on axioms: [propext, Classical.choice, Quot.sound]
'LvArray.Props.C14_emplace_back_witness' depends on axioms: [propext]
'LvArray.Props.C14_resizeDefault_alias_exact' depends on axioms: [propext, Classical.choice, Quot.sound]
'LvArray.Props.C14_resizeDefault_dangles' depends on axioms: [propext]
'LvArray.Props.C15_contains' depends on axioms: [propext, Classical.choice, Quot.sound]
'LvArray.Props.C15_find' depends on axioms: [propext, Classical.choice, Quot.sound]
'LvArray.Props.C16_full_buffer_aborts' depends on axioms: [propext, Classical.choice, Quot.sound]
'LvArray.Props.C16_lifetimes' depends on axioms: [propext, Classical.choice, Quot.sound]
'LvArray.Props.C16_sortedArray_is_set' depends on axioms: [propext, Classical.choice, Quot.sound]
'LvArray.Props.C17_bulk' depends on axioms: [propext, Classical.choice, Quot.sound]
'LvArray.Props.C17_unsorted_range_aborts' depends on axioms: [propext, Classical.choice, Quot.sound]
'LvArray.Props.C18_dualSort_partial' depends on axioms: [propext, Classical.choice, Quot.sound]
'LvArray.Props.C18_makeSorted_device_partial' depends on axioms: [propext, Classical.choice, Quot.sound]
'LvArray.Props.C18_overflow_every_length' depends on axioms: [propext, Classical.choice, Quot.sound]
'LvArray.Props.C18_range_table_overflows' depends on axioms: [propext]
'LvArray.Props.C19_makeSortedUnique' depends on axioms: [propext, Classical.choice, Quot.sound]
'LvArray.Props.C19_removeDuplicates' depends on axioms: [propext, Classical.choice, Quot.sound]
'LvArray.Props.C20_isSorted' depends on axioms: [propext, Classical.choice, Quot.sound]
'LvArray.Props.C20_isSortedUnique' depends on axioms: [propext, Classical.choice, Quot.sound]
'LvArray.Props.C21_any_type_partial' depends on axioms: [propext, Classical.choice, Quot.sound]
'LvArray.Props.C21_debug_empty_insert_aborts' depends on axioms: [propext]
'LvArray.Props.C21_illegal_reported' depends on axioms: [propext, Classical.choice, Quot.sound]
'LvArray.Props.C21_reserved' depends on axioms: [propext, Classical.choice, Quot.sound]
'LvArray.Props.C21_vector_of_vectors' depends on axioms: [propext, Classical.choice, Quot.sound]
'LvArray.Props.C22_disjoint' depends on axioms: [propext, Classical.choice, Quot.sound]
'LvArray.Props.C22_layout' depends on axioms: [propext, Classical.choice, Quot.sound]
'LvArray.Props.C22_others_unchanged' depends on axioms: [propext, Classical.choice, Quot.sound]
'LvArray.Props.C23_compress' depends on axioms: [propext, Classical.choice, Quot.sound]
'LvArray.Props.C23_setCapacityOfArray_partial' depends on axioms: [propext, Classical.choice, Quot.sound]
'LvArray.Props.C24_exactly_when' depends on axioms: [propext, Classical.choice, Quot.sound]
'LvArray.Props.C24_growth_moves_gaps' depends on axioms: [propext]
'LvArray.Props.C24_no_uninitialised_partial' depends on axioms: [propext, Classical.choice, Quot.sound]
'LvArray.Props.C24_nothing_lost' depends on axioms: [propext, Classical.choice, Quot.sound]
'LvArray.Props.C25_copy_assignment_partial' depends on axioms: [propext, Classical.choice, Quot.sound]
'LvArray.Props.C25_copy_constructor' depends on axioms: [propext, Classical.choice, Quot.sound]
'LvArray.Props.C25_fails_otherwise' depends on axioms: [propext, Classical.choice, Quot.sound]
'LvArray.Props.C25_matrix_copy_assignment_partial' depends on axioms: [propext, Classical.choice, Quot.sound]
'LvArray.Props.C25_matrix_copy_constructor' depends on axioms: [propext, Classical.choice, Quot.sound]
'LvArray.Props.C25_self_assignment' depends on axioms: [propext]
'LvArray.Props.C25_small_destination' depends on axioms: [propext]
'LvArray.Props.C26_emplaceBackAtomic' depends on axioms: [propext, Classical.choice, Quot.sound]
'LvArray.Props.C26_overflow_reported' depends on axioms: [propext, Classical.choice, Quot.sound]
'LvArray.Props.C26_overflow_unchecked' depends on axioms: [propext]
'LvArray.Props.C26_usable_afterwards' depends on axioms: [propext, Classical.choice, Quot.sound]
'LvArray.Props.C26_wait_free' depends on axioms: [propext, Classical.choice, Quot.sound]
'LvArray.Props.C27_any_type_partial' depends on axioms: [propext, Classical.choice, Quot.sound]
'LvArray.Props.C27_illegal_reported' depends on axioms: [propext, Classical.choice, Quot.sound]
'LvArray.Props.C27_vector_of_sets' depends on axioms: [propext, Classical.choice, Quot.sound]
'LvArray.Props.C27_view_insert' depends on axioms: [propext, Classical.choice, Quot.sound]
'LvArray.Props.C28_assimilate' depends on axioms: [propext, Classical.choice, Quot.sound]
'LvArray.Props.C28_wrong_description_accepted' depends on axioms: [propext]
'LvArray.Props.C29_any_type_partial' depends on axioms: [propext, Classical.choice, Quot.sound]
'LvArray.Props.C29_bad_row_reported' depends on axioms: [propext, Classical.choice, Quot.sound]
'LvArray.Props.C29_column_out_of_range' depends on axioms: [propext]
'LvArray.Props.C29_growth_moves_gaps' depends on axioms: [propext]
'LvArray.Props.C29_matrix' depends on axioms: [propext, Classical.choice, Quot.sound]
'LvArray.Props.C29_sparsity_pattern' depends on axioms: [propext, Classical.choice, Quot.sound]
'LvArray.Props.C29_view_column_reported' depends on axioms: [propext, Quot.sound]
'LvArray.Props.C29_view_insert' depends on axioms: [propext, Classical.choice, Quot.sound]
'LvArray.Props.C30_addToRow' depends on axioms: [propext, Classical.choice, Quot.sound]
'LvArray.Props.C30_missing_column_misplaced' depends on axioms: [propext]
'LvArray.Props.C30_missing_column_other_row' depends on axioms: [propext]
'LvArray.Props.C30_missing_column_reported' depends on axioms: [propext, Classical.choice, Quot.sound]
'LvArray.Props.C31_atomic_addToRow' depends on axioms: [propext, Classical.choice, Quot.sound]
'LvArray.Props.C31_atomic_addToRow_any' depends on axioms: [propext, Classical.choice, Quot.sound]
'LvArray.Props.C31_wait_free' depends on axioms: [propext, Classical.choice, Quot.sound]
'LvArray.Props.C32_matrix_from_capacities' depends on axioms: [propext, Classical.choice, Quot.sound]
'LvArray.Props.C32_pattern_from_capacities' depends on axioms: [propext, Classical.choice, Quot.sound]
'LvArray.Props.C32_resizeFromCapacities' depends on axioms: [propext, Classical.choice, Quot.sound]
'LvArray.Props.C33_assimilate' depends on axioms: [propext, Classical.choice, Quot.sound]
'LvArray.Props.C34_integerConversion_partial' depends on axioms: [propext, Classical.choice, Quot.sound]
'LvArray.Props.C34_negative_to_wider_unsigned' depends on axioms: [propext, Quot.sound]
'LvArray.Props.C35_stack_array_never_overflows' depends on axioms: [propext, Classical.choice, Quot.sound]
'LvArray.Props.C36_empty' depends on axioms: [propext, Classical.choice, Quot.sound]
'LvArray.Props.C36_input' depends on axioms: [propext, Classical.choice, Quot.sound]
'LvArray.Props.C36_integers' depends on axioms: [propext, Classical.choice, Quot.sound]
'LvArray.Props.C36_output' depends on axioms: [propext, Classical.choice, Quot.sound]
'LvArray.Props.C36_round_trip' depends on axioms: [propext, Classical.choice, Quot.sound]
'LvArray.Props.C36_strings' depends on axioms: [propext, Quot.sound]
'LvArray.Props.C37_deep_nesting' depends on axioms: [propext, Classical.choice, Quot.sound]
'LvArray.Props.C37_malformed_accepted' depends on axioms: [propext, Classical.choice, Quot.sound]
'LvArray.Props.C37_outcome' depends on axioms: [propext, Classical.choice, Quot.sound]
'LvArray.Props.C37_safe_partial' depends on axioms: [propext, Classical.choice, Quot.sound]
'LvArray.Props.C38_coherent' depends on axioms: [propext, Quot.sound]
'LvArray.Props.C38_grow_elsewhere_lost' depends on axioms: [propext]
'LvArray.Props.C38_registerTouch_elsewhere_lost' depends on axioms: [propext]
'LvArray.Props.C38_registered_write_kept' depends on axioms: [propext]
'LvArray.Props.C38_untouched_write_lost' depends on axioms: [propext]
'LvArray.Props.C39_memcpy_partial' depends on axioms: [propext, Classical.choice, Quot.sound]
'LvArray.Props.C39_shape_mismatch_accepted' depends on axioms: [propext]
'LvArray.Props.C40_cross' depends on axioms: [propext, Classical.choice, Quot.sound]
'LvArray.Props.C40_diagonal' depends on axioms: [propext, Classical.choice, Quot.sound]
'LvArray.Props.C40_fill_copy' depends on axioms: [propext, Classical.choice, Quot.sound]
'LvArray.Props.C40_inner' depends on axioms: [propext, Classical.choice, Quot.sound]
'LvArray.Props.C40_matrix' depends on axioms: [propext, Classical.choice, Quot.sound]
'LvArray.Props.C40_matrix_matrix' depends on axioms: [propext, Classical.choice, Quot.sound]
'LvArray.Props.C40_matrix_vector' depends on axioms: [propext, Classical.choice, Quot.sound]
'LvArray.Props.C40_maxAbsoluteEntry' depends on axioms: [propext, Quot.sound]
'LvArray.Props.C40_normalize' depends on axioms: [propext, Classical.choice, Quot.sound]
'LvArray.Props.C40_outer' depends on axioms: [propext, Classical.choice, Quot.sound]
'LvArray.Props.C40_product' depends on axioms: [propext, Classical.choice, Quot.sound]
'LvArray.Props.C40_transpose' depends on axioms: [propext, Classical.choice, Quot.sound]
'LvArray.Props.C40_vector' depends on axioms: [propext, Classical.choice, Quot.sound]
'LvArray.Props.C41_determinant' depends on axioms: [propext, Classical.choice, Quot.sound]
'LvArray.Props.C41_invert2' depends on axioms: [propext, Classical.choice, Quot.sound]
'LvArray.Props.C41_invert3' depends on axioms: [propext, Classical.choice, Quot.sound]
'LvArray.Props.C42_addIdentity' depends on axioms: [propext, Classical.choice, Quot.sound]
'LvArray.Props.C42_conversions' depends on axioms: [propext, Classical.choice, Quot.sound]
'LvArray.Props.C42_determinant' depends on axioms: [propext, Classical.choice, Quot.sound]
'LvArray.Props.C42_invert2' depends on axioms: [propext, Classical.choice, Quot.sound]
'LvArray.Props.C42_invert3' depends on axioms: [propext, Classical.choice, Quot.sound]
'LvArray.Props.C42_matrix_matrix' depends on axioms: [propext, Classical.choice, Quot.sound]
'LvArray.Props.C42_matrix_vector' depends on axioms: [propext, Classical.choice, Quot.sound]
'LvArray.Props.C42_outer' depends on axioms: [propext, Classical.choice, Quot.sound]
'LvArray.Props.C43_three' depends on axioms: [propext, Classical.choice, Quot.sound]
'LvArray.Props.C43_two' depends on axioms: [propext, Classical.choice, Quot.sound]
'LvArray.Props.C44_error_if_le' depends on axioms: [propext]
'LvArray.Props.C44_macros_partial' depends on axioms: [propext]
'LvArray.Props.C45_merge' depends on axioms: [propext, Classical.choice, Quot.sound]
'LvArray.Props.C45_split' depends on axioms: [propext, Classical.choice, Quot.sound]
'LvArray.Props.C46_paired_partial' depends on axioms: [propext, Quot.sound]
'LvArray.Props.C46_reset_restores_partial' depends on axioms: [propext, Quot.sound]
'LvArray.Props.C46_reset_restores_the_most_recent_partial' depends on axioms: [propext, Quot.sound]
'LvArray.Props.C46_second_call_loses_handlers' depends on axioms: [propext, Quot.sound]
'LvArray.Props.C46_sigabrt_listed_twice' does not depend on any axioms
'LvArray.Props.C47_agrees' depends on axioms: [propext, Quot.sound]
'LvArray.Props.C47_append_writes_first' depends on axioms: [propext]
'LvArray.Props.C47_checked_before_writing_partial' depends on axioms: [propext, Classical.choice, Quot.sound]
'LvArray.Props.C48_enable_inside_leaks' depends on axioms: [propext, Classical.choice, Quot.sound]
'LvArray.Props.C48_fpe_guard_restores' depends on axioms: [propext, Quot.sound]
'LvArray.Props.C49_capacity_exact_partial' depends on axioms: [propext, Classical.choice, Quot.sound]
'LvArray.Props.C49_capacity_partial' depends on axioms: [propext, Classical.choice, Quot.sound]
'LvArray.Props.C49_capacity_wrong' depends on axioms: [propext]
'LvArray.Props.C49_reserved_arrays' depends on axioms: [propext, Classical.choice, Quot.sound]
'LvArray.Props.C50_three' depends on axioms: [propext, Classical.choice, Quot.sound]
'LvArray.Props.C50_three_separated' depends on axioms: [propext, Classical.choice, Quot.sound]
'LvArray.Props.C50_two' depends on axioms: [propext, Classical.choice, Quot.sound]
'LvArray.Props.C51_nested_partial' depends on axioms: [propext, Quot.sound]
'LvArray.Props.C51_other_view' depends on axioms: [propext]
'LvArray.Props.C51_touch_lost' depends on axioms: [propext]
'LvArray.Props.C52_array' depends on axioms: [propext, Quot.sound]
'LvArray.Props.C52_arrayOfArrays' depends on axioms: [propext, Quot.sound]
'LvArray.Props.C52_arrayOfSets' depends on axioms: [propext, Quot.sound]
'LvArray.Props.C52_crsMatrix_partial' depends on axioms: [propext, Quot.sound]
'LvArray.Props.C52_lowering_does_not_revoke' depends on axioms: [propext]
'LvArray.Props.C52_negative_level_writes' depends on axioms: [propext]
'LvArray.Props.C52_sortedArray' depends on axioms: [propext, Quot.sound]
'LvArray.Props.C53_array' depends on axioms: [propext, Classical.choice, Quot.sound]
'LvArray.Props.C53_arrayOfArrays' depends on axioms: [propext, Classical.choice, Quot.sound]
'LvArray.Props.C53_arrayOfSets' depends on axioms: [propext, Classical.choice, Quot.sound]
'LvArray.Props.C53_crsMatrix' depends on axioms: [propext, Classical.choice, Quot.sound]
'LvArray.Props.C53_erase_from_conversion' depends on axioms: [propext]
'LvArray.Props.C53_sortedArray' depends on axioms: [propext, Classical.choice, Quot.sound]
'LvArray.Props.C54_after_compress' depends on axioms: [propext, Classical.choice, Quot.sound]
'LvArray.Props.C54_to_scipy' depends on axioms: [propext, Classical.choice, Quot.sound]
'LvArray.Props.C55_add_to_row_lengths' depends on axioms: [propext]
'LvArray.Props.C55_arrayOfArrays_partial' depends on axioms: [propext, Classical.choice, Quot.sound]
'LvArray.Props.C55_arrayOfSets_partial' depends on axioms: [propext, Classical.choice, Quot.sound]
'LvArray.Props.C55_array_partial' depends on axioms: [propext, Classical.choice, Quot.sound]
'LvArray.Props.C55_column_out_of_range' depends on axioms: [propext]
'LvArray.Props.C55_crsMatrix_partial' depends on axioms: [propext, Classical.choice, Quot.sound]
'LvArray.Props.C55_resize_all_negative' depends on axioms: [propext]
'LvArray.Props.C55_sortedArray_partial' depends on axioms: [propext, Classical.choice, Quot.sound]
'LvArray.Props.C55_stale_array' depends on axioms: [propext]
'LvArray.Props.C55_uninitialised' depends on axioms: [propext]
'LvArray.Props.C55_uninitialised_raises' depends on axioms: [propext]
'LvArray.Props.C55_uninitialised_sets' depends on axioms: [propext]
'LvArray.Props.C55_unsorted_insert' depends on axioms: [propext]
'LvArray.Props.C56_bounds_check' depends on axioms: [propext, Classical.choice, Quot.sound]
'LvArray.Props.C56_bracket_narrows' depends on axioms: [propext]
'LvArray.Props.C56_bracket_witness' depends on axioms: [propext]
'LvArray.Props.C56_histories_partial' depends on axioms: [propext, Classical.choice, Quot.sound]
'LvArray.Props.C56_int_overflow' depends on axioms: [propext]
'LvArray.Props.C56_length_rejected_partial' depends on axioms: [propext, Classical.choice, Quot.sound]
'LvArray.Props.C56_positions' depends on axioms: [propext, Classical.choice, Quot.sound]
'LvArray.Props.C56_reads' depends on axioms: [propext, Classical.choice, Quot.sound]
'LvArray.Props.C56_resize_narrows' depends on axioms: [propext]
'LvArray.Props.C56_signed_overflow' depends on axioms: [propext, Quot.sound]
'LvArray.Props.C56_unsigned_access' depends on axioms: [propext]
'LvArray.Props.C56_unsigned_wraps' depends on axioms: [propext, Quot.sound]
'LvArray.Props.C57_capacity_witness' depends on axioms: [propext]
'LvArray.Props.C57_growth_witness' depends on axioms: [propext]
'LvArray.Props.C57_signed_capacity_partial' depends on axioms: [propext, Classical.choice, Quot.sound]
'LvArray.Props.C57_unsigned_capacity' depends on axioms: [propext, Classical.choice, Quot.sound]
'LvArray.Props.C57_unsigned_growth_never_returns' depends on axioms: [propext, Classical.choice, Quot.sound]
'LvArray.Props.C58_arrays_in_parallel' depends on axioms: [propext, Classical.choice, Quot.sound]
'LvArray.Props.C58_arrays_usable_afterwards' depends on axioms: [propext, Classical.choice, Quot.sound]
'LvArray.Props.C58_matrix_in_parallel' depends on axioms: [propext, Classical.choice, Quot.sound]
'LvArray.Props.C58_matrix_usable_afterwards' depends on axioms: [propext, Classical.choice, Quot.sound]
'LvArray.Props.C58_patterns_in_parallel' depends on axioms: [propext, Classical.choice, Quot.sound]
'LvArray.Props.C58_same_array_loses_update' depends on axioms: [propext]
'LvArray.Props.C58_same_row_loses_sum' depends on axioms: [propext, Quot.sound]
'LvArray.Props.C58_setValues_any_policy' depends on axioms: [propext, Classical.choice, Quot.sound]
'LvArray.Props.C58_sets_in_parallel' depends on axioms: [propext, Classical.choice, Quot.sound]
'LvArray.Props.C59_arrays' depends on axioms: [propext, Classical.choice, Quot.sound]
'LvArray.Props.C59_matrix' depends on axioms: [propext, Classical.choice, Quot.sound]
'LvArray.Props.C59_sets' depends on axioms: [propext, Classical.choice, Quot.sound]
'LvArray.Props.C59_untouched_change_is_lost' depends on axioms: [propext]
'LvArray.Props.C59_view_dangles_after_growth' depends on axioms: [propext]
'LvArray.Props.C60_addModule_dangling' depends on axioms: [propext]
'LvArray.Props.C60_addType' depends on axioms: [propext, Classical.choice, Quot.sound]
'LvArray.Props.C60_assign_leak' depends on axioms: [propext]
'LvArray.Props.C60_cast_crash' depends on axioms: [propext, Classical.choice, Quot.sound]
'LvArray.Props.C60_create_leak' depends on axioms: [propext]
'LvArray.Props.C60_create_partial' depends on axioms: [propext, Quot.sound]
'LvArray.Props.C60_dtype' depends on axioms: [propext, Quot.sound]
'LvArray.Props.C60_erase_from_error' depends on axioms: [propext]
'LvArray.Props.C60_function' depends on axioms: [propext, Classical.choice, Quot.sound]
'LvArray.Props.C60_methods_exact' depends on axioms: [propext, Classical.choice, Quot.sound]
'LvArray.Props.C60_methods_partial' depends on axioms: [propext, Classical.choice, Quot.sound]
'LvArray.Props.C60_module' depends on axioms: [propext, Classical.choice, Quot.sound]
'LvArray.Props.C60_numpy' depends on axioms: [propext, Classical.choice, Quot.sound]
'LvArray.Props.C60_parse_partial' depends on axioms: [propext, Classical.choice, Quot.sound]
'LvArray.Props.C60_program' depends on axioms: [propext, Classical.choice, Quot.sound]
'LvArray.Props.C60_refs_partial' depends on axioms: [propext, Classical.choice, Quot.sound]
'LvArray.Props.C60_strings_error' depends on axioms: [propext]
'LvArray.Props.C60_strings_partial' depends on axioms: [propext, Quot.sound]
'LvArray.Props.C60_to_scipy_crash' depends on axioms: [propext]
'LvArray.Props.C60_to_scipy_leak' depends on axioms: [propext, Classical.choice, Quot.sound]
'LvArray.Props.C60_uninitialized_crash' depends on axioms: [propext]
'LvArray.Props.C61_boxes' depends on axioms: [propext, Classical.choice, Quot.sound]
'LvArray.Props.C61_checked_histories_are_safe' depends on axioms: [propext, Classical.choice, Quot.sound]
'LvArray.Props.C61_invalid_call_aborts' depends on axioms: [propext, Classical.choice, Quot.sound]
'LvArray.Props.C61_uninit_shape' depends on axioms: [propext, Classical.choice, Quot.sound]
'LvArray.Props.C61_vector' depends on axioms: [propext, Classical.choice, Quot.sound]
'LvArray.Props.C62_view_stays_behind' depends on axioms: [propext]
'LvArray.Props.C62_whole_assignment' depends on axioms: [propext, Classical.choice, Quot.sound]
'LvArray.Props.C63_called_twice' depends on axioms: [propext, Quot.sound]
'LvArray.Props.C63_error_handling_ends_partial' depends on axioms: [propext, Classical.choice, Quot.sound]
'LvArray.Props.C63_error_is_survived' does not depend on any axioms
'LvArray.Props.C63_failing_error_handler_never_ends' depends on axioms: [propext]
'LvArray.Props.C64_reserved_room' depends on axioms: [propext, Classical.choice, Quot.sound]
'LvArray.Props.C64_views_last_until_reallocation' depends on axioms: [propext, Classical.choice, Quot.sound]
'LvArray.Props.C65_arrays' depends on axioms: [propext, Classical.choice, Quot.sound]
'LvArray.Props.C65_arrays_of_arrays' depends on axioms: [propext, Classical.choice, Quot.sound]
'LvArray.Props.C65_c_arrays' depends on axioms: [propext, Classical.choice, Quot.sound]
'LvArray.Props.C65_console' depends on axioms: [propext, Classical.choice, Quot.sound]
'LvArray.Props.C65_matrices' depends on axioms: [propext, Classical.choice, Quot.sound]
'LvArray.Props.C65_sets' depends on axioms: [propext, Classical.choice, Quot.sound]
'LvArray.Props.C66_counts_in_range' depends on axioms: [propext, Quot.sound]
'LvArray.Props.C66_erase_witness' depends on axioms: [propext]
'LvArray.Props.C66_growth_overflow' depends on axioms: [propext, Classical.choice, Quot.sound]
'LvArray.Props.C66_histories_partial' depends on axioms: [propext, Classical.choice, Quot.sound]
'LvArray.Props.C66_overlap_witness' depends on axioms: [propext]
'LvArray.Props.C66_signed_overflow' depends on axioms: [propext, Classical.choice, Quot.sound]
'LvArray.Props.C66_unsigned_wraps' depends on axioms: [propext, Classical.choice, Quot.sound]
'LvArray.Props.C66_vector_of_vectors_partial' depends on axioms: [propext, Classical.choice, Quot.sound]
'LvArray.Props.C67_array_stays_broken' depends on axioms: [propext, Classical.choice, Quot.sound]
'LvArray.Props.C67_copy_assignment_that_returns' depends on axioms: [propext, Classical.choice, Quot.sound]
'LvArray.Props.C67_failed_calls_have_no_effect_partial' depends on axioms: [propext, Classical.choice, Quot.sound]
'LvArray.Props.C67_full_statement_fails' depends on axioms: [propext]
'LvArray.Props.C67_no_spurious_throw' depends on axioms: [propext]
'LvArray.Props.C67_refused_negative_resize_changes_size' depends on axioms: [propext, Classical.choice, Quot.sound]
'LvArray.Props.C67_refused_resize_breaks_stack_array' depends on axioms: [propext, Classical.choice, Quot.sound]
'LvArray.Props.C67_stack_array_stays_broken' depends on axioms: [propext, Classical.choice, Quot.sound]
'LvArray.Props.C67_throw_in_copy_breaks_array' depends on axioms: [propext, Classical.choice, Quot.sound]
'LvArray.Props.C67_throw_in_emplace_breaks_array' depends on axioms: [propext, Classical.choice, Quot.sound]
'LvArray.Props.C67_throw_in_insert_leaks' depends on axioms: [propext, Classical.choice, Quot.sound]
'LvArray.Props.C67_throw_in_resize_breaks_array' depends on axioms: [propext, Classical.choice, Quot.sound]
'LvArray.Props.C68_add_matrix_products' depends on axioms: [propext, Classical.choice, Quot.sound]
'LvArray.Props.C68_add_matrix_vector' depends on axioms: [propext, Classical.choice, Quot.sound]
'LvArray.Props.C68_binary_formats' depends on axioms: [propext, Classical.choice, Quot.sound]
'LvArray.Props.C68_cross_product' depends on axioms: [propext, Classical.choice, Quot.sound]
'LvArray.Props.C68_determinant2' depends on axioms: [propext, Classical.choice, Quot.sound]
'LvArray.Props.C68_determinant3' depends on axioms: [propext, Classical.choice, Quot.sound]
'LvArray.Props.C68_double' depends on axioms: [propext, Classical.choice, Quot.sound]
'LvArray.Props.C68_inner_product' depends on axioms: [propext, Classical.choice, Quot.sound]
'LvArray.Props.C68_matrices' depends on axioms: [propext, Classical.choice, Quot.sound]
'LvArray.Props.C68_matrix_products' depends on axioms: [propext, Classical.choice, Quot.sound]
'LvArray.Props.C68_matrix_vector' depends on axioms: [propext, Classical.choice, Quot.sound]
'LvArray.Props.C68_non_finite_arguments' depends on axioms: [propext, Classical.choice, Quot.sound]
'LvArray.Props.C68_norm_squared' depends on axioms: [propext, Classical.choice, Quot.sound]
'LvArray.Props.C68_symmetric_matrix_matrix' depends on axioms: [propext, Classical.choice, Quot.sound]
'LvArray.Props.C68_symmetric_matrix_vector' depends on axioms: [propext, Classical.choice, Quot.sound]
'LvArray.Props.C68_trace' depends on axioms: [propext, Classical.choice, Quot.sound]
'LvArray.Props.C68_vectors' depends on axioms: [propext, Classical.choice, Quot.sound]
'LvArray.Props.C69_addToRow' depends on axioms: [propext, Classical.choice, Quot.sound]
'LvArray.Props.C69_appendArray' depends on axioms: [propext, Classical.choice, Quot.sound]
'LvArray.Props.C69_appendArray_amortised' depends on axioms: [propext, Classical.choice, Quot.sound]
'LvArray.Props.C69_appendArray_not_linear' depends on axioms: [propext, Classical.choice, Quot.sound]
'LvArray.Props.C69_batch_insert_not_linear' depends on axioms: [propext, Classical.choice, Quot.sound]
'LvArray.Props.C69_emplaceBack_not_linear_in_capacities' depends on axioms: [propext, Classical.choice, Quot.sound]
'LvArray.Props.C69_insert_erase_array' depends on axioms: [propext, Classical.choice, Quot.sound]
'LvArray.Props.C69_rows_with_room' depends on axioms: [propext, Classical.choice, Quot.sound]
'LvArray.Props.C69_rows_without_room' depends on axioms: [propext, Classical.choice, Quot.sound]
'LvArray.Props.C69_set_batches' depends on axioms: [propext, Classical.choice, Quot.sound]
'LvArray.Props.C69_set_operations' depends on axioms: [propext, Quot.sound]
'LvArray.Props.C70_naive' depends on axioms: [propext, Classical.choice, Quot.sound]
'LvArray.Props.C70_overAllocation' depends on axioms: [propext, Classical.choice, Quot.sound]
'LvArray.Props.C70_overAllocation_reported' depends on axioms: [propext, Classical.choice, Quot.sound]
'LvArray.Props.C70_resizeFromCapacities' depends on axioms: [propext, Classical.choice, Quot.sound]
'LvArray.Props.C71_assembly' depends on axioms: [propext, Classical.choice, Quot.sound]
'LvArray.Props.C71_assembly_any_order' depends on axioms: [propext, Classical.choice, Quot.sound]
'LvArray.Props.C71_pattern' depends on axioms: [propext, Classical.choice, Quot.sound]
'LvArray.Props.C71_pattern_by_elements' depends on axioms: [propext, Classical.choice, Quot.sound]
'LvArray.Props.C71_pattern_by_nodes' depends on axioms: [propext, Classical.choice, Quot.sound]
'LvArray.Props.C72_copies' depends on axioms: [propext, Classical.choice, Quot.sound]
'LvArray.Props.C72_destination_moved' depends on axioms: [propext, Quot.sound]
'LvArray.Props.C72_no_wait' depends on axioms: [propext, Quot.sound]
'LvArray.Props.C72_not_registered' depends on axioms: [propext, Quot.sound]
'LvArray.Props.C72_schedule' depends on axioms: [propext, Classical.choice, Quot.sound]
'LvArray.Props.C72_source_modified' depends on axioms: [propext, Quot.sound]
'LvArray.Props.C73_as_vectors_partial' depends on axioms: [propext, Classical.choice, Quot.sound]
'LvArray.Props.C73_disturbed_destroyed' depends on axioms: [propext]
'LvArray.Props.C73_disturbed_wrong' depends on axioms: [propext]
'LvArray.Props.C73_empty' depends on axioms: [propext, Classical.choice, Quot.sound]
'LvArray.Props.C73_exact' depends on axioms: [propext, Classical.choice, Quot.sound]
'LvArray.Props.C73_needs_room' depends on axioms: [propext, Classical.choice, Quot.sound]
'LvArray.Props.C73_own_row_dangles' depends on axioms: [propext]
'LvArray.Props.C73_split_exact' depends on axioms: [propext, Classical.choice, Quot.sound]
'LvArray.Props.C73_split_repeats' depends on axioms: [propext]
'LvArray.Props.C74_moved_arguments' depends on axioms: [propext, Classical.choice, Quot.sound]
'LvArray.Props.C74_ranges' depends on axioms: [propext, Classical.choice, Quot.sound]
'LvArray.Props.C74_resize_exact' depends on axioms: [propext, Classical.choice, Quot.sound]
'LvArray.Props.C74_resize_partial' depends on axioms: [propext, Classical.choice, Quot.sound]
'LvArray.Props.C74_single_pass_undefined' depends on axioms: [propext, Classical.choice, Quot.sound]
'LvArray.Props.C75_map_with_bound' depends on axioms: [propext, Classical.choice, Quot.sound]
'LvArray.Props.C75_map_with_counts' depends on axioms: [propext, Classical.choice, Quot.sound]
'LvArray.Props.C75_map_without_capacities' depends on axioms: [propext, Classical.choice, Quot.sound]
'LvArray.Props.C75_resize' depends on axioms: [propext, Classical.choice, Quot.sound]
'LvArray.Props.C75_resizeFromCapacities' depends on axioms: [propext, Classical.choice, Quot.sound]
'LvArray.Props.C75_without_capacities_not_linear' depends on axioms: [propext, Classical.choice, Quot.sound]
'LvArray.Props.C75_without_capacities_quadratic' depends on axioms: [propext, Classical.choice, Quot.sound]
'LvArray.Props.C76_insert_partial' depends on axioms: [propext, Classical.choice, Quot.sound]
'LvArray.Props.C76_needs_room' depends on axioms: [propext, Classical.choice, Quot.sound]
'LvArray.Props.C76_remove' depends on axioms: [propext, Classical.choice, Quot.sound]
'LvArray.Props.C76_shifted_breaks_set' depends on axioms: [propext]
'LvArray.Props.C76_shifted_union_wrong' depends on axioms: [propext]
'LvArray.Props.C76_sortedArray' depends on axioms: [propext, Classical.choice, Quot.sound]
'LvArray.Props.C76_view_insert' depends on axioms: [propext, Classical.choice, Quot.sound]
'LvArray.Props.C77_acos' depends on axioms: [propext, Classical.choice, Quot.sound]
'LvArray.Props.C77_asin' depends on axioms: [propext, Classical.choice, Quot.sound]
'LvArray.Props.C77_atan2' depends on axioms: [propext, Classical.choice, Quot.sound]
'LvArray.Props.C77_atan2_hides_nan' depends on axioms: [propext, Classical.choice, Quot.sound]
'LvArray.Props.C77_atan2_origin' depends on axioms: [propext, Classical.choice, Quot.sound]
'LvArray.Props.C77_half2' depends on axioms: [propext, Classical.choice, Quot.sound]
'LvArray.Props.C77_half_acos' depends on axioms: [propext, Classical.choice, Quot.sound]
'LvArray.Props.C77_half_asin' depends on axioms: [propext, Classical.choice, Quot.sound]
'LvArray.Props.C77_half_atan2' depends on axioms: [propext, Classical.choice, Quot.sound]
'LvArray.Props.C77_half_odd' depends on axioms: [propext, Classical.choice, Quot.sound]
'LvArray.Props.C77_half_outside' depends on axioms: [propext, Classical.choice, Quot.sound]
'LvArray.Props.C77_max_min_abs' depends on axioms: [propext, Classical.choice, Quot.sound]
'LvArray.Props.C77_outside' depends on axioms: [propext, Classical.choice, Quot.sound]
'LvArray.Props.C77_symmetric' depends on axioms: [propext, Classical.choice, Quot.sound]
'LvArray.Props.C78_cross' depends on axioms: [propext, Classical.choice, Quot.sound]
'LvArray.Props.C78_diagonal' depends on axioms: [propext, Classical.choice, Quot.sound]
'LvArray.Props.C78_inner' depends on axioms: [propext, Classical.choice, Quot.sound]
'LvArray.Props.C78_matrices_of_arrays' depends on axioms: [propext, Classical.choice, Quot.sound]
'LvArray.Props.C78_matrix' depends on axioms: [propext, Classical.choice, Quot.sound]
'LvArray.Props.C78_matrix_matrix' depends on axioms: [propext, Classical.choice, Quot.sound]
'LvArray.Props.C78_matrix_transposed' depends on axioms: [propext, Classical.choice, Quot.sound]
'LvArray.Props.C78_matrix_vector' depends on axioms: [propext, Classical.choice, Quot.sound]
'LvArray.Props.C78_outer' depends on axioms: [propext, Classical.choice, Quot.sound]
'LvArray.Props.C78_overlap_witness' depends on axioms: [propext, Classical.choice, Quot.sound]
'LvArray.Props.C78_read_first' depends on axioms: [propext, Quot.sound]
'LvArray.Props.C78_sizes_matrices' depends on axioms: [propext, Classical.choice, Quot.sound]
'LvArray.Props.C78_sizes_products' depends on axioms: [propext, Classical.choice, Quot.sound]
'LvArray.Props.C78_sizes_unchecked_witness' depends on axioms: [propext, Classical.choice, Quot.sound]
'LvArray.Props.C78_sizes_vectors' depends on axioms: [propext, Classical.choice, Quot.sound]
'LvArray.Props.C78_slices_apart' depends on axioms: [propext, Classical.choice, Quot.sound]
'LvArray.Props.C78_transpose' depends on axioms: [propext, Classical.choice, Quot.sound]
'LvArray.Props.C78_vector' depends on axioms: [propext, Classical.choice, Quot.sound]
'LvArray.Props.C78_vectors_of_arrays' depends on axioms: [propext, Classical.choice, Quot.sound]
'LvArray.Props.C79_matrices' depends on axioms: [propext, Classical.choice, Quot.sound]
'LvArray.Props.C79_patterns' depends on axioms: [propext, Classical.choice, Quot.sound]
'LvArray.Props.C79_sets_with_room' depends on axioms: [propext, Classical.choice, Quot.sound]
'LvArray.Props.C79_sets_without_room' depends on axioms: [propext, Classical.choice, Quot.sound]
'LvArray.Props.C79_views_of_sets' depends on axioms: [propext, Classical.choice, Quot.sound]
'LvArray.Props.C80_conversions' depends on axioms: [propext, Classical.choice, Quot.sound]
'LvArray.Props.C80_determinant' depends on axioms: [propext, Classical.choice, Quot.sound]
'LvArray.Props.C80_invert2' depends on axioms: [propext, Classical.choice, Quot.sound]
'LvArray.Props.C80_invert3' depends on axioms: [propext, Classical.choice, Quot.sound]
'LvArray.Props.C80_invert3_small' depends on axioms: [propext, Classical.choice, Quot.sound]
'LvArray.Props.C80_invert3_unchecked_witness' depends on axioms: [propext, Classical.choice, Quot.sound]
'LvArray.Props.C80_outer' depends on axioms: [propext, Classical.choice, Quot.sound]
'LvArray.Props.C80_overlap_witness' depends on axioms: [propext, Classical.choice, Quot.sound]
'LvArray.Props.C80_products2' depends on axioms: [propext, Classical.choice, Quot.sound]
'LvArray.Props.C80_products3' depends on axioms: [propext, Classical.choice, Quot.sound]
'LvArray.Props.C80_sizes_partial' depends on axioms: [propext, Classical.choice, Quot.sound]
'LvArray.Props.C80_symInvert2' depends on axioms: [propext, Classical.choice, Quot.sound]
'LvArray.Props.C80_symInvert3' depends on axioms: [propext, Classical.choice, Quot.sound]
'LvArray.Props.C81_add' depends on axioms: [propext, Classical.choice, Quot.sound]
'LvArray.Props.C81_insert_full' depends on axioms: [propext, Classical.choice, Quot.sound]
'LvArray.Props.C81_insert_full_same_row' depends on axioms: [propext, Classical.choice, Quot.sound]
'LvArray.Props.C81_insert_moves' depends on axioms: [propext]
'LvArray.Props.C81_insert_partial' depends on axioms: [propext, Classical.choice, Quot.sound]
'LvArray.Props.C81_insert_range_full' depends on axioms: [propext, Classical.choice, Quot.sound]
'LvArray.Props.C81_insert_range_partial' depends on axioms: [propext, Classical.choice, Quot.sound]
'LvArray.Props.C81_insert_same_row' depends on axioms: [propext, Classical.choice, Quot.sound]
'LvArray.Props.C81_remove' depends on axioms: [propext, Classical.choice, Quot.sound]
'LvArray.Props.C82_gone' depends on axioms: [propext, Classical.choice, Quot.sound]
'LvArray.Props.C82_gone_edit' depends on axioms: [propext, Classical.choice, Quot.sound]
'LvArray.Props.C82_room' depends on axioms: [propext, Classical.choice, Quot.sound]
'LvArray.Props.C82_views' depends on axioms: [propext, Classical.choice, Quot.sound]
'LvArray.Props.C83_eigen_sizes' depends on axioms: [propext, Classical.choice, Quot.sound]
'LvArray.Props.C83_eigenvalues2' depends on axioms: [propext, Classical.choice, Quot.sound]
'LvArray.Props.C83_eigenvalues3' depends on axioms: [propext, Classical.choice, Quot.sound]
'LvArray.Props.C83_eigenvectors2' depends on axioms: [propext, Classical.choice, Quot.sound]
'LvArray.Props.C83_eigenvectors3' depends on axioms: [propext, Classical.choice, Quot.sound]
'LvArray.Props.C83_eigenvectors_shared' depends on axioms: [propext, Classical.choice, Quot.sound]
'LvArray.Props.C83_normalize' depends on axioms: [propext, Classical.choice, Quot.sound]
'LvArray.Props.C84_fresh' depends on axioms: [propext, Classical.choice, Quot.sound]
'LvArray.Props.C84_gone' depends on axioms: [propext, Classical.choice, Quot.sound]
'LvArray.Props.C84_outside' depends on axioms: [propext, Classical.choice, Quot.sound]
'LvArray.Props.C84_pushed_out_witness' depends on axioms: [propext, Classical.choice, Quot.sound]
'LvArray.Props.C84_room' depends on axioms: [propext, Classical.choice, Quot.sound]
'LvArray.Props.C84_views' depends on axioms: [propext, Classical.choice, Quot.sound]
'LvArray.Props.C85_enough' depends on axioms: [propext, Classical.choice, Quot.sound]
'LvArray.Props.C85_refused' depends on axioms: [propext, Classical.choice, Quot.sound]
'LvArray.Props.C85_wraps' depends on axioms: [propext, Classical.choice, Quot.sound]
'LvArray.Props.C86_gone' depends on axioms: [propext, Classical.choice, Quot.sound]
'LvArray.Props.C86_room' depends on axioms: [propext, Classical.choice, Quot.sound]
'LvArray.Props.C86_views' depends on axioms: [propext, Classical.choice, Quot.sound]
'LvArray.Props.C87_nothing' depends on axioms: [propext, Classical.choice, Quot.sound]
'LvArray.Props.C87_overrun' depends on axioms: [propext, Classical.choice, Quot.sound]
'LvArray.Props.C87_zero_partial' depends on axioms: [propext, Classical.choice, Quot.sound]
'LvArray.Props.C88_assimilated_partial' depends on axioms: [propext, Classical.choice, Quot.sound]
'LvArray.Props.C88_consistent' depends on axioms: [propext, Classical.choice, Quot.sound]
'LvArray.Props.C88_records_kept' depends on axioms: [propext, Classical.choice, Quot.sound]
'LvArray.Props.C88_unsorted_asserted' depends on axioms: [propext, Classical.choice, Quot.sound]
'LvArray.Props.C89_gone' depends on axioms: [propext, Classical.choice, Quot.sound]
'LvArray.Props.C89_room' depends on axioms: [propext, Classical.choice, Quot.sound]
'LvArray.Props.C89_views' depends on axioms: [propext, Classical.choice, Quot.sound]
'LvArray.Props.C90_amount_partial' depends on axioms: [propext, Classical.choice, Quot.sound]
'LvArray.Props.C90_cut_off' depends on axioms: [propext, Classical.choice, Quot.sound]
'LvArray.Props.C90_message' depends on axioms: [propext, Classical.choice, Quot.sound]
'LvArray.Props.C90_order' depends on axioms: [propext, Classical.choice, Quot.sound]
'LvArray.Props.C90_witness' depends on axioms: [propext, Classical.choice, Quot.sound]
'LvArray.Props.C91_assign' depends on axioms: [propext, Classical.choice, Quot.sound]
'LvArray.Props.C91_empty' depends on axioms: [propext, Quot.sound]
'LvArray.Props.C91_ends' depends on axioms: [propext, Classical.choice, Quot.sound]
'LvArray.Props.C91_histories' depends on axioms: [propext, Classical.choice, Quot.sound]
'LvArray.Props.C91_order' depends on axioms: [propext, Classical.choice, Quot.sound]
'LvArray.Props.C92_debug_partial' depends on axioms: [propext, Classical.choice, Quot.sound]
'LvArray.Props.C92_enough' depends on axioms: [propext, Classical.choice, Quot.sound]
'LvArray.Props.C92_exact_partial' depends on axioms: [propext, Classical.choice, Quot.sound]
'LvArray.Props.C92_reserved' depends on axioms: [propext, Classical.choice, Quot.sound]
'LvArray.Props.C92_unreported' depends on axioms: [propext]
'LvArray.Props.C93_is_set_partial' depends on axioms: [propext, Classical.choice, Quot.sound]
'LvArray.Props.C93_narrow_wraps' depends on axioms: [propext, Classical.choice, Quot.sound]
'LvArray.Props.C93_range_lost' depends on axioms: [propext, Classical.choice, Quot.sound]
'LvArray.Props.C93_reached' depends on axioms: [propext, Classical.choice, Quot.sound]
'LvArray.Props.C93_signed_overflow' depends on axioms: [propext, Classical.choice, Quot.sound]
'LvArray.Props.C93_unsigned_full' depends on axioms: [propext, Classical.choice, Quot.sound]
'LvArray.Props.C93_unsigned_wraps' depends on axioms: [propext, Classical.choice, Quot.sound]
'LvArray.Props.C94_copy_that_returns' depends on axioms: [propext, Classical.choice, Quot.sound]
'LvArray.Props.C94_failed_calls_have_no_effect_partial' depends on axioms: [propext, Classical.choice, Quot.sound]
'LvArray.Props.C94_full_statement_fails' depends on axioms: [propext, Classical.choice, Quot.sound]
'LvArray.Props.C94_no_spurious_throw' depends on axioms: [propext]
'LvArray.Props.C94_set_stays_broken' depends on axioms: [propext, Classical.choice, Quot.sound]
'LvArray.Props.C94_throw_in_copy' depends on axioms: [propext, Classical.choice, Quot.sound]
'LvArray.Props.C94_throw_in_first_copy' depends on axioms: [propext, Classical.choice, Quot.sound]
'LvArray.Props.C94_throw_in_growing_copy' depends on axioms: [propext, Classical.choice, Quot.sound]
'LvArray.Props.C94_throw_in_insert_breaks_set' depends on axioms: [propext, Classical.choice, Quot.sound]
'LvArray.Props.C94_throw_in_range_insert_above' depends on axioms: [propext, Classical.choice, Quot.sound]
'LvArray.Props.C94_throw_in_range_insert_breaks_set' depends on axioms: [propext, Classical.choice, Quot.sound]
'LvArray.Props.C94_throw_in_range_insert_leaks' depends on axioms: [propext, Classical.choice, Quot.sound]
'LvArray.Props.C95_array_from_buffer' depends on axioms: [propext, Classical.choice, Quot.sound]
'LvArray.Props.C95_objects_in_buffer_leak' depends on axioms: [propext, Classical.choice, Quot.sound]
'LvArray.Props.C95_stays_in_the_buffer' depends on axioms: [propext, Classical.choice, Quot.sound]
'LvArray.Props.C96_constructors_clean_partial' depends on axioms: [propext, Classical.choice, Quot.sound]
'LvArray.Props.C96_copied_array' depends on axioms: [propext, Classical.choice, Quot.sound]
'LvArray.Props.C96_copied_rows' depends on axioms: [propext, Classical.choice, Quot.sound]
'LvArray.Props.C96_copied_set' depends on axioms: [propext, Classical.choice, Quot.sound]
'LvArray.Props.C96_sized_array' depends on axioms: [propext, Classical.choice, Quot.sound]
'LvArray.Props.C96_throw_in_copied_array' depends on axioms: [propext, Classical.choice, Quot.sound]
'LvArray.Props.C96_throw_in_copied_rows' depends on axioms: [propext, Classical.choice, Quot.sound]
'LvArray.Props.C96_throw_in_copied_set' depends on axioms: [propext, Classical.choice, Quot.sound]
'LvArray.Props.C96_throw_in_sized_array' depends on axioms: [propext, Classical.choice, Quot.sound]
'LvArray.Props.C97_copy_no_throw' depends on axioms: [propext, Quot.sound]
'LvArray.Props.C97_harmless_throws_partial' depends on axioms: [propext, Classical.choice, Quot.sound]
'LvArray.Props.C97_no_throw' depends on axioms: [propext, Quot.sound]
'LvArray.Props.C97_throw_in_append' depends on axioms: [propext, Classical.choice, Quot.sound]
'LvArray.Props.C97_throw_in_appendArray_adds_row' depends on axioms: [propext, Classical.choice, Quot.sound]
'LvArray.Props.C97_throw_in_copy_breaks_object' depends on axioms: [propext, Classical.choice, Quot.sound]
'LvArray.Props.C97_throw_in_emplace_at_end' depends on axioms: [propext, Classical.choice, Quot.sound]
'LvArray.Props.C97_throw_in_emplace_breaks_row' depends on axioms: [propext, Classical.choice, Quot.sound]
'LvArray.Props.C97_throw_in_insertArray_adds_row' depends on axioms: [propext, Classical.choice, Quot.sound]
'LvArray.Props.C97_throw_in_insertIntoArray_breaks_row' depends on axioms: [propext, Classical.choice, Quot.sound]
'LvArray.Props.C97_throw_in_resizeArray' depends on axioms: [propext, Classical.choice, Quot.sound]
'LvArray.Props.C97_throw_in_sized_appendArray_adds_row' depends on axioms: [propext, Classical.choice, Quot.sound]
'LvArray.Props.addTurn_one_thread' depends on axioms: [propext, Quot.sound]
