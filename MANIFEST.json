{"claims": [
 {"property": "C01", "status": "proved", "theorems": ["LvArray.Props.C01_bijection"], "note": ""},
 {"property": "C02", "status": "proved", "theorems": ["LvArray.Props.C02_memory_order"], "note": ""},
 {"property": "C03", "status": "proved", "theorems": ["LvArray.Props.C03_chained_subscript"], "note": ""},
 {"property": "C04", "status": "proved", "theorems": ["LvArray.Props.C04_checked_access"], "note": ""},
 {"property": "C05", "status": "partial", "theorems": ["LvArray.Props.C05_contiguous_sound", "LvArray.Props.C05_contiguous_exact_partial", "LvArray.Props.C05_not_exact_empty", "LvArray.Props.C05_not_exact_unit"], "note": "True always implies contiguous; the converse holds when no dimension is 0 or 1 and is refuted otherwise."},
 {"property": "C06", "status": "proved", "theorems": ["LvArray.Props.C06_iteration", "LvArray.Props.C06_sumOverFirstDimension"], "note": ""},
 {"property": "C07", "status": "partial", "theorems": ["LvArray.Props.C07_array_is_vector", "LvArray.Props.C07_invalid_call_aborts", "LvArray.Props.C07_debug_empty_insert_aborts"], "note": "Full equivalence in release builds and, in debug builds, for histories without an insertion of an empty range; the debug deviation is proved."},
 {"property": "C08", "status": "partial", "theorems": ["LvArray.Props.C08_checked_histories_are_safe", "LvArray.Props.C08_lifetimes_partial", "LvArray.Props.C08_lifetimes_exact", "LvArray.Props.C08_shiftUp_drops_objects", "LvArray.Props.C08_array_of_arrays_free"], "note": "Safety for all histories; exact lifetimes except that insertion in the middle overwrites moved-from objects without destroying them (proved). ArrayOfArrays: free destroys every element."},
 {"property": "C09", "status": "proved", "theorems": ["LvArray.Props.C09_reserve", "LvArray.Props.C09_amortised_from", "LvArray.Props.C09_amortised"], "note": ""},
 {"property": "C10", "status": "proved", "theorems": ["LvArray.Props.C10_resize_preserves"], "note": "All permutations, shapes, selected dimensions; both memory-shifting branches."},
 {"property": "C11", "status": "proved", "theorems": ["LvArray.Props.C11_resize", "LvArray.Props.C11_resizeDimension", "LvArray.Props.C11_clear", "LvArray.Props.C11_reserve", "LvArray.Props.C11_histories"], "note": "resizeWithoutInitializationOrDestruction is not modelled."},
 {"property": "C12", "status": "proved", "theorems": ["LvArray.Props.C12_C13_array_values", "LvArray.Props.C12_C13_sorted_values", "LvArray.Props.C12_C13_rows_values", "LvArray.Props.C12_C13_sets_values", "LvArray.Props.C12_C13_pattern_values", "LvArray.Props.C12_C13_matrix_values", "LvArray.Props.C12_C13_arrays_are_values", "LvArray.Props.C12_copy_nd"], "note": "Programs over any number of variables of each of the six classes in one heap. ArrayOfArrays and its relatives: trivially copyable values, copy assignment over an object with at least one array only when it has more arrays than the source (otherwise C25)."},
 {"property": "C13", "status": "partial", "theorems": ["LvArray.Props.C12_C13_array_values", "LvArray.Props.C12_C13_sorted_values", "LvArray.Props.C12_C13_rows_values", "LvArray.Props.C12_C13_sets_values", "LvArray.Props.C12_C13_pattern_values", "LvArray.Props.C12_C13_matrix_values", "LvArray.Props.C13_array_releases_partial", "LvArray.Props.C13_sorted_releases_partial", "LvArray.Props.C13_array_move_assignment_leaks", "LvArray.Props.C13_sorted_move_assignment_leaks", "LvArray.Props.C12_C13_arrays_are_values", "LvArray.Props.C13_no_leak_partial", "LvArray.Props.C13_move_assignment_leaks", "LvArray.Props.C13_move_assignment_leaks_witness", "LvArray.Props.C13_self_move_loses_contents", "LvArray.Props.C13_moved_from_strides", "LvArray.Props.C13_moved_from_resize", "LvArray.Props.C13_move_array_of_arrays", "LvArray.Props.C13_moved_from_array_of_arrays", "LvArray.Props.C13_moved_from_sorted", "LvArray.Props.C13_moved_from_arrays", "LvArray.Props.C13_moved_from_sets", "LvArray.Props.C13_moved_from_pattern", "LvArray.Props.C13_moved_from_matrix"], "note": "Values are transferred and storage is released for all six classes, except that move assignment of Array and SortedArray leaks the destination's storage (proved); a moved-from Array has zero strides and a moved-from ArrayOfArrays cannot be appended to (proved)."},
 {"property": "C14", "status": "partial", "theorems": ["LvArray.Props.C14_emplace_back_alias_partial", "LvArray.Props.C14_emplace_back_dangles", "LvArray.Props.C14_emplace_alias_exact", "LvArray.Props.C14_resizeDefault_alias_exact", "LvArray.Props.C14_emplace_back_witness", "LvArray.Props.C14_emplace_alias_wrong_value", "LvArray.Props.C14_resizeDefault_dangles"], "note": "The code violates the property; exactly when, and with which result, is proved for emplace_back, emplace and resizeDefault."},
 {"property": "C15", "status": "proved", "theorems": ["LvArray.Props.C15_find", "LvArray.Props.C15_contains"], "note": "find for any strict weak order, contains for a linear order with duplicates allowed; reads outside the range may fail arbitrarily."},
 {"property": "C16", "status": "proved", "theorems": ["LvArray.Props.C16_sortedArray_is_set", "LvArray.Props.C16_full_buffer_aborts", "LvArray.Props.C16_lifetimes"], "note": "History refinement against Finset with all returned values, heap and stack buffers, all build configurations."},
 {"property": "C17", "status": "proved", "theorems": ["LvArray.Props.C16_sortedArray_is_set", "LvArray.Props.C17_bulk", "LvArray.Props.C17_unsorted_range_aborts"], "note": "Bulk operations inside any history; unsorted ranges abort in debug builds."},
 {"property": "C18", "status": "partial", "theorems": ["LvArray.Props.C18_makeSorted_device_partial", "LvArray.Props.C18_dualSort_partial", "LvArray.Props.C18_range_table_overflows", "LvArray.Props.C18_overflow_every_length"], "note": "Sorted permutation, pairs survive, no access outside the range, for every input below 125 elements and for every longer input on which the fixed table of 31 pending ranges does not overflow; for every length from 125 on an input that overflows it is given, so the bound is exact and the claim as stated is false of the code. Host makeSorted is std::sort and is not modelled."},
 {"property": "C19", "status": "proved", "theorems": ["LvArray.Props.C19_removeDuplicates", "LvArray.Props.C19_makeSortedUnique"], "note": "All ranges and strict weak orders; makeSortedUnique for any sorting routine that returns a sorted permutation."},
 {"property": "C20", "status": "proved", "theorems": ["LvArray.Props.C20_isSorted", "LvArray.Props.C20_isSortedUnique"], "note": "For every strict weak order."},
 {"property": "C21", "status": "partial", "theorems": ["LvArray.Props.C21_vector_of_vectors", "LvArray.Props.C21_illegal_reported", "LvArray.Props.C21_reserved", "LvArray.Props.C21_any_type_partial", "LvArray.Props.C21_debug_empty_insert_aborts"], "note": "Full for trivially copyable T, over every legal history. For other T the history either matches or moves slots without objects (defect, see C24); with values reserved up front it matches. Debug builds abort on inserting an empty range into an object without values."},
 {"property": "C22", "status": "proved", "theorems": ["LvArray.Props.C22_layout", "LvArray.Props.C22_disjoint", "LvArray.Props.C22_others_unchanged"], "note": "Every reachable object, every element type."},
 {"property": "C23", "status": "partial", "theorems": ["LvArray.Props.C23_compress", "LvArray.Props.C23_setCapacityOfArray_partial", "LvArray.Props.C21_vector_of_vectors"], "note": "compress: every element type. setCapacityOfArray that grows is proved for trivially copyable T; for other T it fails exactly as C24_exactly_when says."},
 {"property": "C24", "status": "partial", "theorems": ["LvArray.Props.C24_exactly_when", "LvArray.Props.C24_no_uninitialised_partial", "LvArray.Props.C24_growth_moves_gaps", "LvArray.Props.C24_nothing_lost"], "note": "The code violates the property whenever the allocation grows while some array has spare capacity; this is characterised exactly."},
 {"property": "C25", "status": "partial", "theorems": ["LvArray.Props.C25_copy_assignment_partial", "LvArray.Props.C25_copy_constructor", "LvArray.Props.C25_fails_otherwise", "LvArray.Props.C25_small_destination", "LvArray.Props.C25_self_assignment", "LvArray.Props.C25_matrix_copy_constructor", "LvArray.Props.C25_matrix_copy_assignment_partial"], "note": "The code reads the old number of arrays in the new offsets, so copy assignment fails for a too small destination; characterised. Independence of the copy holds by construction in this model (values)."},
 {"property": "C26", "status": "proved", "theorems": ["LvArray.Props.C26_emplaceBackAtomic", "LvArray.Props.C26_wait_free", "LvArray.Props.C26_overflow_reported", "LvArray.Props.C26_usable_afterwards", "LvArray.Props.C26_overflow_unchecked"], "note": "Every schedule of any number of threads, every element type; one turn per access to shared memory, sequential consistency. C26_overflow_unchecked: without bounds checks the capacity is not checked (documented precondition)."},
 {"property": "C27", "status": "partial", "theorems": ["LvArray.Props.C27_vector_of_sets", "LvArray.Props.C27_any_type_partial", "LvArray.Props.C27_illegal_reported", "LvArray.Props.C27_view_insert"], "note": "Proved in full for trivially copyable element types; for others the only other outcome is the relocation of uninitialised slots (C24), so the claim as stated is false of the code for them."},
 {"property": "C28", "status": "proved", "theorems": ["LvArray.Props.C28_assimilate", "LvArray.Props.C28_wrong_description_accepted"], "note": "All four descriptions, every element type; std::sort is a parameter with its documented guarantee. A false description is accepted silently (shown by a witness)."},
 {"property": "C29", "status": "partial", "theorems": ["LvArray.Props.C29_sparsity_pattern", "LvArray.Props.C29_matrix", "LvArray.Props.C29_any_type_partial", "LvArray.Props.C29_growth_moves_gaps", "LvArray.Props.C29_column_out_of_range", "LvArray.Props.C29_bad_row_reported", "LvArray.Props.C29_view_insert", "LvArray.Props.C29_view_column_reported"], "note": "Proved in full for SparsityPattern and for CRSMatrix with trivially copyable entries; for other entry types the only other outcome is the relocation of uninitialised slots (witness C29_growth_moves_gaps), so the claim is false of the code for them. Out-of-range columns are outside the claim and shown to corrupt the next row."},
 {"property": "C30", "status": "proved", "theorems": ["LvArray.Props.C30_addToRow", "LvArray.Props.C30_missing_column_reported", "LvArray.Props.C30_missing_column_misplaced", "LvArray.Props.C30_missing_column_other_row"], "note": "All four variants, every entry type and build configuration; sequential policy (atomic policies are C31). Missing columns are outside the claim: reported by the binary searches with assertions, silently misplaced by the linear search (witnesses)."},
 {"property": "C31", "status": "proved", "theorems": ["LvArray.Props.C31_atomic_addToRow", "LvArray.Props.C31_atomic_addToRow_any", "LvArray.Props.C31_wait_free", "LvArray.Props.addTurn_one_thread"], "note": "Every schedule; for types whose additions commute the result is exact, for any type every contribution is added exactly once in some order (floating point rounding depends on the order)."},
 {"property": "C32", "status": "proved", "theorems": ["LvArray.Props.C32_resizeFromCapacities", "LvArray.Props.C32_matrix_from_capacities", "LvArray.Props.C32_pattern_from_capacities"], "note": "ArrayOfArrays, SparsityPattern and CRSMatrix, from every reachable state."},
 {"property": "C33", "status": "proved", "theorems": ["LvArray.Props.C33_assimilate"], "note": "Every pattern and matrix, every entry type; the matrix afterwards behaves as in C29."},
 {"property": "C34", "status": "partial", "theorems": ["LvArray.Props.C34_integerConversion_partial", "LvArray.Props.C34_negative_to_wider_unsigned"], "note": "All integer types of any width and all values except negative values to a strictly wider unsigned type, for which the claim is proved false."},
 {"property": "C35", "status": "proved", "theorems": ["LvArray.Props.C35_stack_array_never_overflows", "LvArray.Props.C08_checked_histories_are_safe", "LvArray.Props.C07_invalid_call_aborts"], "note": ""},
 {"property": "C36", "status": "proved", "theorems": ["LvArray.Props.C36_output", "LvArray.Props.C36_input", "LvArray.Props.C36_round_trip", "LvArray.Props.C36_empty", "LvArray.Props.C36_integers", "LvArray.Props.C36_strings"], "note": "operator<< prints the nested list for every rank, shape and permutation; stringToArray reads every spacing of it into any array of the rank; integers and strings shown to satisfy the value law, other value types are a hypothesis (ReadsBack). C++ stream insertion and extraction of one value are modelled, not taken from LvArray."},
 {"property": "C37", "status": "partial", "theorems": ["LvArray.Props.C37_outcome", "LvArray.Props.C37_safe_partial", "LvArray.Props.C37_deep_nesting", "LvArray.Props.C37_malformed_accepted"], "note": "Safe and fully determined by the text whenever the nesting never exceeds the rank; for every rank there is a text with deeper nesting that makes stringToArray use an entry past its work arrays (C37_deep_nesting), so the full statement is false of the code. Malformed text can be accepted (C37_malformed_accepted)."},
 {"property": "C38", "status": "proved", "theorems": ["LvArray.Props.C38_coherent", "LvArray.Props.C38_untouched_write_lost", "LvArray.Props.C38_grow_elsewhere_lost", "LvArray.Props.C38_registered_write_kept", "LvArray.Props.C38_registerTouch_elsewhere_lost"], "note": "For every history of moves, kernel captures, read-only conversions, registered touches, reads, writes and reallocations that keeps the documented rules of use, the ChaiBuffer model never errs and every read returns the last value written, as in a memory with one copy. The other theorems show that the rules are needed: a write in a space moved to without touch is lost unless the touch is registered, growing while the data is elsewhere loses it, and so does registering a touch elsewhere while a modification is pending. CHAI's ArrayManager itself is modelled from its documented contract; memory spaces are host and one device."},
 {"property": "C39", "status": "partial", "theorems": ["LvArray.Props.C39_memcpy_partial", "LvArray.Props.C39_shape_mismatch_accepted"], "note": "Correct for equal shapes; slices of different shapes with equal size and strides are accepted (proved)."},
 {"property": "C40", "status": "proved", "theorems": ["LvArray.Props.C40_fill_copy", "LvArray.Props.C40_vector", "LvArray.Props.C40_matrix", "LvArray.Props.C40_inner", "LvArray.Props.C40_cross", "LvArray.Props.C40_outer", "LvArray.Props.C40_matrix_vector", "LvArray.Props.C40_matrix_matrix", "LvArray.Props.C40_product", "LvArray.Props.C40_diagonal", "LvArray.Props.C40_transpose", "LvArray.Props.C40_maxAbsoluteEntry", "LvArray.Props.C40_normalize"], "note": "Every routine of genericTensorOps.hpp, for all sizes, over any commutative ring (norms over the reals), with the entries outside the sizes unchanged. Exact arithmetic, arguments that do not overlap."},
 {"property": "C41", "status": "proved", "theorems": ["LvArray.Props.C41_determinant", "LvArray.Props.C41_invert2", "LvArray.Props.C41_invert3"], "note": "Against Mathlib's determinant and matrix product, over any commutative ring (determinant) and any field (inverse). Exact arithmetic."},
 {"property": "C42", "status": "proved", "theorems": ["LvArray.Props.C42_conversions", "LvArray.Props.C42_determinant", "LvArray.Props.C42_addIdentity", "LvArray.Props.C42_invert2", "LvArray.Props.C42_invert3", "LvArray.Props.C42_matrix_vector", "LvArray.Props.C42_matrix_matrix", "LvArray.Props.C42_outer"], "note": "Every operation on packed symmetric matrices against the dense operation in Mathlib's matrices."},
 {"property": "C43", "status": "proved", "theorems": ["LvArray.Props.C43_two", "LvArray.Props.C43_three"], "note": "In exact real arithmetic: the characteristic polynomial is the product of the linear factors of the results, which are ascending. The constant squareRootThree is taken to be the square root of three."},
 {"property": "C44", "status": "partial", "theorems": ["LvArray.Props.C44_macros_partial", "LvArray.Props.C44_error_if_le"], "note": "Every comparison macro except LVARRAY_ERROR_IF_LE / LVARRAY_THROW_IF_LE, which are proved to test the opposite strict relation."},
 {"property": "C45", "status": "proved", "theorems": ["LvArray.Props.C45_split", "LvArray.Props.C45_merge"], "note": ""},
 {"property": "C46", "status": "partial", "theorems": ["LvArray.Props.C46_reset_restores_partial", "LvArray.Props.C46_reset_restores_the_most_recent_partial", "LvArray.Props.C46_paired_partial", "LvArray.Props.C46_second_call_loses_handlers", "LvArray.Props.C46_sigabrt_listed_twice"], "note": "For every history: a reset restores what was installed before the most recent setSignalHandling, so paired calls restore everything; a second set call before the reset is proved to lose the original handlers."},
 {"property": "C47", "status": "partial", "theorems": ["LvArray.Props.C47_checked_before_writing_partial", "LvArray.Props.C47_agrees", "LvArray.Props.C47_append_writes_first"], "note": "appendToArray writes before it checks."},
 {"property": "C48", "status": "proved", "theorems": ["LvArray.Props.C48_fpe_guard_restores", "LvArray.Props.C48_enable_inside_leaks"], "note": "Any nesting of guards; code in the scope that itself enables exceptions is outside the property and shown to leak."},
 {"property": "C49", "status": "partial", "theorems": ["LvArray.Props.C49_capacity_exact_partial", "LvArray.Props.C49_reserved_arrays", "LvArray.Props.C49_capacity_partial", "LvArray.Props.C49_capacity_wrong"], "note": "The two internal allocations grow independently, so the assertion fails after three appendArray. Proved exactly: how many arrays fit in every reachable state, and that capacity() says so if and only if the offsets have more room than the sizes."},
 {"property": "C50", "status": "proved", "theorems": ["LvArray.Props.C50_two", "LvArray.Props.C50_three", "LvArray.Props.C50_three_separated"], "note": "In exact real arithmetic, for every tolerance below one. Orthonormality holds for every matrix; for size three the eigenvector equation holds up to 2 epsilon times the spread of the eigenvalues, and exactly unless two eigenvalues differ by a positive amount within that tolerance."},
 {"property": "C51", "status": "partial", "theorems": ["LvArray.Props.C51_nested_partial", "LvArray.Props.C51_touch_lost", "LvArray.Props.C51_other_view"], "note": "Proved for every history in which a space becomes writable only by the move that brings the data there and data on the host is moved to the device through a view that is on the host. Without these two extra rules the property is false of the code: C51_touch_lost (writes of a second kernel on the device are lost) and C51_other_view (the host follows a device pointer). Inner arrays have no inner allocations of their own."},
 {"property": "C52", "status": "partial", "theorems": ["LvArray.Props.C52_array", "LvArray.Props.C52_sortedArray", "LvArray.Props.C52_arrayOfArrays", "LvArray.Props.C52_arrayOfSets", "LvArray.Props.C52_crsMatrix_partial", "LvArray.Props.C52_negative_level_writes", "LvArray.Props.C52_lowering_does_not_revoke"], "note": "Proved for every program for all five classes. Missing: CRSMatrix at negative levels, where the code hands out writable entries (C52_negative_level_writes). Lowering the level does not revoke arrays obtained before (C52_lowering_does_not_revoke)."},
 {"property": "C53", "status": "proved", "theorems": ["LvArray.Props.C53_array", "LvArray.Props.C53_sortedArray", "LvArray.Props.C53_arrayOfArrays", "LvArray.Props.C53_arrayOfSets", "LvArray.Props.C53_crsMatrix", "LvArray.Props.C53_erase_from_conversion"], "note": "simulation between the wrapper model and Spec/Python.lean for every program within the contract; the values after resize_all are left unspecified; erase_from raises SystemError where the conversion error is expected"},
 {"property": "C54", "status": "proved", "theorems": ["LvArray.Props.C54_to_scipy", "LvArray.Props.C54_after_compress"], "note": "the arrays by their values; the SciPy constructor is not modelled"},
 {"property": "C55", "status": "partial", "theorems": ["LvArray.Props.C55_array_partial", "LvArray.Props.C55_sortedArray_partial", "LvArray.Props.C55_arrayOfArrays_partial", "LvArray.Props.C55_arrayOfSets_partial", "LvArray.Props.C55_crsMatrix_partial", "LvArray.Props.C55_unsorted_insert", "LvArray.Props.C55_column_out_of_range", "LvArray.Props.C55_add_to_row_lengths", "LvArray.Props.C55_stale_array", "LvArray.Props.C55_resize_all_negative", "LvArray.Props.C55_uninitialised", "LvArray.Props.C55_uninitialised_sets", "LvArray.Props.C55_uninitialised_raises"], "note": "False in general (witnesses). Proved: a program can only crash by using an array obtained before a resizing call that did not raise, or by one of the listed bad calls (unsorted values, columns out of range or absent, a negative length for resize_all, cutting off entries); every other program, whatever its arguments, runs to its end."},
 {"property": "C56", "status": "partial", "theorems": ["LvArray.Props.C56_positions", "LvArray.Props.C56_bounds_check", "LvArray.Props.C56_histories_partial", "LvArray.Props.C56_reads", "LvArray.Props.C56_length_rejected_partial", "LvArray.Props.C56_signed_overflow", "LvArray.Props.C56_unsigned_wraps", "LvArray.Props.C56_unsigned_access", "LvArray.Props.C56_int_overflow", "LvArray.Props.C56_bracket_narrows", "LvArray.Props.C56_resize_narrows", "LvArray.Props.C56_bracket_witness"], "note": "Exact for every integer type, shape that fits and history. The code does not reject shapes whose number of elements does not fit and operator[] narrows before checking: proved."},
 {"property": "C57", "status": "partial", "theorems": ["LvArray.Props.C57_signed_capacity_partial", "LvArray.Props.C57_unsigned_growth_never_returns", "LvArray.Props.C57_growth_witness", "LvArray.Props.C57_unsigned_capacity", "LvArray.Props.C57_capacity_witness"], "note": "Signed types behave as claimed (with C56); for every unsigned type growth of an inner dimension never returns and lowering a capacity leaves more values than capacity: proved."},
 {"property": "C58", "status": "proved", "theorems": ["LvArray.Props.C58_arrays_in_parallel", "LvArray.Props.C58_arrays_usable_afterwards", "LvArray.Props.C58_sets_in_parallel", "LvArray.Props.C58_patterns_in_parallel", "LvArray.Props.C58_matrix_in_parallel", "LvArray.Props.C58_matrix_usable_afterwards", "LvArray.Props.C58_setValues_any_policy", "LvArray.Props.C58_same_array_loses_update", "LvArray.Props.C58_same_row_loses_sum"], "note": "Every schedule of single accesses, every number of threads; ArrayOfArraysView, ArrayOfSetsView, SparsityPatternView and CRSMatrixView. The last two theorems show that the hypothesis (nothing used by two threads) is needed."},
 {"property": "C59", "status": "proved", "theorems": ["LvArray.Props.C59_arrays", "LvArray.Props.C59_sets", "LvArray.Props.C59_matrix", "LvArray.Props.C59_untouched_change_is_lost", "LvArray.Props.C59_view_dangles_after_growth"], "note": "Any history of moves, captures, const conversions and kernels agrees with one container without memory spaces. Copies are synchronous and elements byte-copyable. Host member functions of the container are part of the histories for ArrayOfArrays only; sets and matrices are moved and used through views. The witnesses show that the hypotheses (touch what you change, drop views before growing) are needed."},
 {"property": "C60", "status": "partial", "theorems": ["LvArray.Props.C60_module", "LvArray.Props.C60_addType", "LvArray.Props.C60_numpy", "LvArray.Props.C60_dtype", "LvArray.Props.C60_function", "LvArray.Props.C60_program", "LvArray.Props.C60_parse_partial", "LvArray.Props.C60_methods_partial", "LvArray.Props.C60_methods_exact", "LvArray.Props.C60_create_partial", "LvArray.Props.C60_strings_partial", "LvArray.Props.C60_refs_partial", "LvArray.Props.C60_to_scipy_leak", "LvArray.Props.C60_to_scipy_crash", "LvArray.Props.C60_addModule_dangling", "LvArray.Props.C60_create_leak", "LvArray.Props.C60_cast_crash", "LvArray.Props.C60_uninitialized_crash", "LvArray.Props.C60_erase_from_error", "LvArray.Props.C60_strings_error", "LvArray.Props.C60_assign_leak"], "note": "Full for module initialisation, NumPy export, dtype, PythonFunction and histories of functions that obey the rules. Partial because the code breaks the rules elsewhere: to_scipy leaks three arrays per call and crashes without SciPy, addPyLvArrayModule over-releases, create leaks on failure, PyObjectRef assignment leaks, a failing PyArray_Cast or PyList_New is dereferenced, uninitialised ArrayOfArrays/ArrayOfSets crash, erase_from returns a value with an exception set (each proved by a witness)."},
 {"property": "C61", "status": "proved", "theorems": ["LvArray.Props.C61_vector", "LvArray.Props.C61_invalid_call_aborts", "LvArray.Props.C61_checked_histories_are_safe", "LvArray.Props.C61_uninit_shape", "LvArray.Props.C61_boxes"], "note": "One dimension: histories of all modifiers for heap and stack arrays, including that invalid calls abort and that no checked history reaches undefined behaviour. Any number of dimensions: the shape and data of the call itself for every buffer, and histories of shape changes, assignments and reads for heap arrays; resizeWithoutInitializationOrDestruction keeps values only in one dimension, as documented. As in C07, inserting an empty range in a debug build is excluded."},
 {"property": "C62", "status": "proved", "theorems": ["LvArray.Props.C62_whole_assignment", "LvArray.Props.C62_view_stays_behind"], "note": "Elements are byte-copyable, copies between spaces synchronous, memory sequentially consistent; arrays are not resized in these histories (C38, C59 cover reallocation). The witness shows that, against the note on setValues, the view itself is not moved, only the array."},
 {"property": "C63", "status": "partial", "theorems": ["LvArray.Props.C63_error_handling_ends_partial", "LvArray.Props.C63_called_twice", "LvArray.Props.C63_error_is_survived", "LvArray.Props.C63_failing_error_handler_never_ends"], "note": "All but two clauses hold for every history and error handler; an error handler that returns lets the program go on, and one that fails a check itself never ends (both proved)."},
 {"property": "C64", "status": "proved", "theorems": ["LvArray.Props.C64_views_last_until_reallocation", "LvArray.Props.C64_reserved_room"], "note": "Refinement of handles into a heap to numbered storages; one-dimensional arrays over MallocBuffer; in debug builds inserting an empty range into an array without storage aborts and is excluded. Writes through a view past the array's current end are left open."},
 {"property": "C65", "status": "proved", "theorems": ["LvArray.Props.C65_sets", "LvArray.Props.C65_arrays_of_arrays", "LvArray.Props.C65_matrices", "LvArray.Props.C65_arrays", "LvArray.Props.C65_c_arrays", "LvArray.Props.C65_console"], "note": "Texts of values are a parameter: different values have different texts that are words (Legible); shown for integers. Witnesses why both conditions are needed: C65_ambiguous_strings, C65_empty_shapes."},
 {"property": "C66", "status": "partial", "theorems": ["LvArray.Props.C66_vector_of_vectors_partial", "LvArray.Props.C66_histories_partial", "LvArray.Props.C66_unsigned_wraps", "LvArray.Props.C66_signed_overflow", "LvArray.Props.C66_growth_overflow", "LvArray.Props.C66_overlap_witness", "LvArray.Props.C66_erase_witness", "LvArray.Props.C66_counts_in_range"], "note": "Every history that fits the index type behaves like the vector of vectors, for every index type; with an unsigned type operations that lower a capacity are excluded. The rest of the statement is false of the code: a total capacity beyond the type is not rejected (it wraps, so that arrays share storage, or overflows), doubling can overflow although the contents fit, and eraseArray with unsigned indices corrupts the following arrays; each is proved, in general or by a witness."},
 {"property": "C67", "status": "partial", "theorems": ["LvArray.Props.C67_failed_calls_have_no_effect_partial", "LvArray.Props.C67_no_spurious_throw", "LvArray.Props.C67_copy_assignment_that_returns", "LvArray.Props.C67_throw_in_emplace_breaks_array", "LvArray.Props.C67_throw_in_resize_breaks_array", "LvArray.Props.C67_refused_resize_breaks_stack_array", "LvArray.Props.C67_refused_negative_resize_changes_size", "LvArray.Props.C67_throw_in_insert_leaks", "LvArray.Props.C67_throw_in_copy_breaks_array", "LvArray.Props.C67_array_stays_broken", "LvArray.Props.C67_stack_array_stays_broken", "LvArray.Props.C67_full_statement_fails"], "note": "Proved for every history in which each failing call is refused before a change or constructs one element at the end. For the other failures the property is false of the code; general theorems show what each leaves behind."},
 {"property": "C68", "status": "proved", "theorems": ["LvArray.Props.C68_inner_product", "LvArray.Props.C68_norm_squared", "LvArray.Props.C68_matrix_vector", "LvArray.Props.C68_add_matrix_vector", "LvArray.Props.C68_matrix_products", "LvArray.Props.C68_add_matrix_products", "LvArray.Props.C68_trace", "LvArray.Props.C68_vectors", "LvArray.Props.C68_matrices", "LvArray.Props.C68_cross_product", "LvArray.Props.C68_determinant2", "LvArray.Props.C68_determinant3", "LvArray.Props.C68_symmetric_matrix_vector", "LvArray.Props.C68_symmetric_matrix_matrix", "LvArray.Props.C68_non_finite_arguments", "LvArray.Props.C68_binary_formats", "LvArray.Props.C68_double"], "note": "Proved for every size and every arithmetic that meets the laws of rounding; the binary formats of IEEE 754 with any rounding mode meet them."},
 {"property": "C69", "status": "partial", "theorems": ["LvArray.Props.C69_set_operations", "LvArray.Props.C69_set_batches", "LvArray.Props.C69_batch_insert_not_linear", "LvArray.Props.C69_rows_with_room", "LvArray.Props.C69_rows_without_room", "LvArray.Props.C69_insert_erase_array", "LvArray.Props.C69_appendArray", "LvArray.Props.C69_appendArray_amortised", "LvArray.Props.C69_emplaceBack_not_linear_in_capacities", "LvArray.Props.C69_appendArray_not_linear", "LvArray.Props.C69_addToRow"], "note": "The logarithmic, linear and amortised bounds hold with explicit constants for every reachable state. Not met: the documented O( n + m ) of inserting a range into a set (proved: m log n + n), O( M ) of emplaceBack to a full array (proved: M plus the number of arrays), O( n ) of a single appendArray( n ) (proved: amortised, and without reallocation). Insertions into rows of ArrayOfSets and CRSMatrix are counted in C79."},
 {"property": "C70", "status": "proved", "theorems": ["LvArray.Props.C70_naive", "LvArray.Props.C70_overAllocation", "LvArray.Props.C70_overAllocation_reported", "LvArray.Props.C70_resizeFromCapacities"], "note": "All meshes, numbers of nodes and schedules of the kernels; the counting kernel of the third program has to have finished before the arrays are resized, as RAJA::forall guarantees. One thread per element, sequentially consistent atomics. The maps hold indices, so the element type is trivially copyable."},
 {"property": "C71", "status": "proved", "theorems": ["LvArray.Props.C71_pattern", "LvArray.Props.C71_pattern_by_elements", "LvArray.Props.C71_pattern_by_nodes", "LvArray.Props.C71_assembly_any_order", "LvArray.Props.C71_assembly"], "note": "The program that owns its pattern and generates it element by element. std::sort is represented by a sorted permutation. One thread per element; each value is added by one atomic turn. The parallel generation by nodes reads the mesh and the node-to-element map before the loop (nothing changes them during it)."},
 {"property": "C72", "status": "proved", "theorems": ["LvArray.Props.C72_copies", "LvArray.Props.C72_schedule", "LvArray.Props.C72_no_wait", "LvArray.Props.C72_source_modified", "LvArray.Props.C72_destination_moved", "LvArray.Props.C72_not_registered"], "note": "Umpire's ResourceManager::copy and CAMP events are third party: assumed to copy each element once, at any time between the call and the end of wait, or completely before the call returns without a device resource. Multidimensional slices are those of C39; here a slice is a contiguous range. Rules are the weakest we found by range for copies, by array for other operations."},
 {"property": "C73", "status": "partial", "theorems": ["LvArray.Props.C73_exact", "LvArray.Props.C73_split_exact", "LvArray.Props.C73_empty", "LvArray.Props.C73_as_vectors_partial", "LvArray.Props.C73_needs_room", "LvArray.Props.C73_disturbed_wrong", "LvArray.Props.C73_disturbed_destroyed", "LvArray.Props.C73_own_row_dangles", "LvArray.Props.C73_split_repeats"], "note": "C73_as_vectors_partial: same effect as with copies when the allocation has room and the argument is not moved while room is made. The outcome of every other call is given exactly by C73_exact, C73_split_exact (insertion strictly inside the argument: the part in front of the position is repeated) and C73_empty. Partial because the property is false of the code where it moves the argument: C73_needs_room, C73_disturbed_wrong, C73_disturbed_destroyed, C73_own_row_dangles, C73_split_repeats."},
 {"property": "C74", "status": "partial", "theorems": ["LvArray.Props.C74_ranges", "LvArray.Props.C74_single_pass_undefined", "LvArray.Props.C74_resize_exact", "LvArray.Props.C74_resize_partial", "LvArray.Props.C74_moved_arguments"], "note": "resizeArray is exact for every constructor; it agrees with vector::resize for arguments that are left as they were and for at most one new element, and the second new element is built from what is left of the arguments otherwise. Ranges with iterators that may be used again behave as lists of values; single pass ranges are undefined behaviour in all functions that count first, whenever the same call with a list succeeds."},
 {"property": "C75", "status": "proved", "theorems": ["LvArray.Props.C75_resize", "LvArray.Props.C75_resizeFromCapacities", "LvArray.Props.C75_map_with_bound", "LvArray.Props.C75_map_with_counts", "LvArray.Props.C75_map_without_capacities", "LvArray.Props.C75_without_capacities_quadratic", "LvArray.Props.C75_without_capacities_not_linear"], "note": "The complexities docs/sphinx/ArrayOfArrays.rst states for the three constructions, as bounds on the number of accesses to elements, sizes, offsets and counters. The upper bounds hold for every schedule, finished or not, and from every reachable map. The lower bound is for trivially copyable values, the case in which the program is defined."},
 {"property": "C76", "status": "partial", "theorems": ["LvArray.Props.C76_sortedArray", "LvArray.Props.C76_remove", "LvArray.Props.C76_insert_partial", "LvArray.Props.C76_view_insert", "LvArray.Props.C76_needs_room", "LvArray.Props.C76_shifted_breaks_set", "LvArray.Props.C76_shifted_union_wrong"], "note": "SortedArray, removeFromSet and views: proved in full. insertIntoSet with elements of another set of the same ArrayOfSets: proved if the elements stay where they are; the code violates the claim otherwise (C76_needs_room: undefined behaviour for every such call; C76_shifted_*: wrong values, order broken)."},
 {"property": "C77", "status": "partial", "theorems": ["LvArray.Props.C77_acos", "LvArray.Props.C77_asin", "LvArray.Props.C77_outside", "LvArray.Props.C77_symmetric", "LvArray.Props.C77_atan2", "LvArray.Props.C77_atan2_origin", "LvArray.Props.C77_atan2_hides_nan", "LvArray.Props.C77_max_min_abs", "LvArray.Props.C77_half2", "LvArray.Props.C77_half_acos", "LvArray.Props.C77_half_asin", "LvArray.Props.C77_half_odd", "LvArray.Props.C77_half_outside", "LvArray.Props.C77_half_atan2"], "note": "Proved in exact arithmetic (errors of the approximations) and in the arithmetic of half precision, every constant and result rounded (errors below 0.0055, 0.0045 and 0.0085). The code violates the claim for NaN arguments of atan2 and at the origin (C77_atan2_hides_nan, C77_atan2_origin). Fused multiplications, infinities and signed zeros are not modelled."},
 {"property": "C78", "status": "proved", "theorems": ["LvArray.Props.C78_read_first", "LvArray.Props.C78_vector", "LvArray.Props.C78_matrix", "LvArray.Props.C78_inner", "LvArray.Props.C78_cross", "LvArray.Props.C78_outer", "LvArray.Props.C78_matrix_vector", "LvArray.Props.C78_matrix_matrix", "LvArray.Props.C78_matrix_transposed", "LvArray.Props.C78_diagonal", "LvArray.Props.C78_transpose", "LvArray.Props.C78_sizes_vectors", "LvArray.Props.C78_sizes_matrices", "LvArray.Props.C78_sizes_products", "LvArray.Props.C78_vectors_of_arrays", "LvArray.Props.C78_matrices_of_arrays", "LvArray.Props.C78_slices_apart", "LvArray.Props.C78_overlap_witness", "LvArray.Props.C78_sizes_unchecked_witness"], "note": "Functions on vectors and matrices of any size; those of fixed size (determinants, inverses, symmetric products) are in C80."},
 {"property": "C79", "status": "proved", "theorems": ["LvArray.Props.C79_sets_with_room", "LvArray.Props.C79_sets_without_room", "LvArray.Props.C79_views_of_sets", "LvArray.Props.C79_patterns", "LvArray.Props.C79_matrices"], "note": "Explicit bounds for every reachable state; builds without assertions, because an assertion checks the whole row."},
 {"property": "C80", "status": "partial", "theorems": ["LvArray.Props.C80_determinant", "LvArray.Props.C80_invert2", "LvArray.Props.C80_invert3", "LvArray.Props.C80_symInvert2", "LvArray.Props.C80_symInvert3", "LvArray.Props.C80_products2", "LvArray.Props.C80_products3", "LvArray.Props.C80_outer", "LvArray.Props.C80_conversions", "LvArray.Props.C80_sizes_partial", "LvArray.Props.C80_invert3_small", "LvArray.Props.C80_invert3_unchecked_witness", "LvArray.Props.C80_overlap_witness"], "note": "Everything but the sizes of invert< 3 >( matrix ), which the code does not compare (witness). Eigenvalues and eigenvectors on slices: C83."},
 {"property": "C81", "status": "partial", "theorems": ["LvArray.Props.C81_insert_range_partial", "LvArray.Props.C81_insert_partial", "LvArray.Props.C81_insert_same_row", "LvArray.Props.C81_insert_range_full", "LvArray.Props.C81_insert_full_same_row", "LvArray.Props.C81_insert_full", "LvArray.Props.C81_remove", "LvArray.Props.C81_add", "LvArray.Props.C81_insert_moves"], "note": "Removing and adding: proved for all rows. Inserting: proved when the row has room, for a range of any row and for an entry of another row; for an entry of the same row the exact result. Inserting an entry or a range into a row that is too small: reads freed memory whenever the memory is allocated anew; otherwise the same as with copies for a row in front, and for an entry of the same row the exact result. Missing: a row that is too small with an entry or a range of a row behind it or a range of the same row, and an entry behind the new column of the same row, where the code inserts another entry."},
 {"property": "C82", "status": "proved", "theorems": ["LvArray.Props.C82_views", "LvArray.Props.C82_gone", "LvArray.Props.C82_gone_edit", "LvArray.Props.C82_room"], "note": "All programs with one object and any number of views. C82_views: answers as specified; C82_gone and C82_gone_edit: what is undefined once a storage was replaced; C82_room: calls that fit in the room there is never invalidate a view. In debug builds empty ranges are not inserted (hypothesis). Elements that cannot be moved as bytes: the storage of the elements is replaced only while there are no gaps (otherwise the call itself is undefined, C24)."},
 {"property": "C83", "status": "proved", "theorems": ["LvArray.Props.C83_eigenvalues2", "LvArray.Props.C83_eigenvalues3", "LvArray.Props.C83_eigenvectors2", "LvArray.Props.C83_eigenvectors3", "LvArray.Props.C83_eigenvectors_shared", "LvArray.Props.C83_normalize", "LvArray.Props.C83_eigen_sizes"], "note": "Exact real arithmetic. C83_eigenvectors_shared: values and vectors that share an element cannot both be right. That the matrix may overlap the destinations is the absence of a hypothesis in the theorems; an example shows eigenvalues written over the matrix."},
 {"property": "C84", "status": "proved", "theorems": ["LvArray.Props.C84_views", "LvArray.Props.C84_fresh", "LvArray.Props.C84_room", "LvArray.Props.C84_pushed_out_witness", "LvArray.Props.C84_gone", "LvArray.Props.C84_outside"], "note": "Views of a SortedArray whose storage is on the heap (MallocBuffer / ChaiBuffer without device). Undefined access to a removed value is only stated for types with a destructor: with trivial types stale bytes are read. Addresses are not used again after release (C82 and DESIGN.md say what changes if they are)."},
 {"property": "C85", "status": "partial", "theorems": ["LvArray.Props.C85_enough", "LvArray.Props.C85_refused", "LvArray.Props.C85_wraps"], "note": "C85_enough: everything while the memory is there. The rest of the statement is false of the code: C85_refused says exactly what every call does when its request is refused (abort before anything changed in debug builds; undefined in release builds; reserve of an empty array pretends to succeed), C85_wraps what happens with a byte count that wraps. Modelled for one-dimensional arrays; the other containers use the same reallocate."},
 {"property": "C86", "status": "proved", "theorems": ["LvArray.Props.C86_views", "LvArray.Props.C86_room", "LvArray.Props.C86_gone"], "note": "All programs with one matrix and any number of views, trivially copyable entries. C86_views: effects and answers as specified; C86_room: calls that fit in the room there is never invalidate a view; C86_gone: undefined behaviour after a replacement of any storage the call looks at (for searches the columns too, if the row is not empty and there is something to look for)."},
 {"property": "C87", "status": "partial", "theorems": ["LvArray.Props.C87_zero_partial", "LvArray.Props.C87_nothing", "LvArray.Props.C87_overrun"], "note": "zero() sets exactly the values to zero after every legal program, before every legal program, as long as the bytes of the room for entries are fewer than INDEX_TYPE can count. Beyond that the code violates the property: C87_nothing (nothing is set to zero when the count is a multiple of 2^bits) and C87_overrun (memset beyond the buffer when it wraps to a negative number), with a 32 bit INDEX_TYPE as witness."},
 {"property": "C88", "status": "partial", "theorems": ["LvArray.Props.C88_consistent", "LvArray.Props.C88_assimilated_partial", "LvArray.Props.C88_records_kept", "LvArray.Props.C88_unsorted_asserted"], "note": "No false alarm after any legal history; after assimilate a report exactly when the description was false, for three of the four descriptions. For SORTED_WITH_DUPLICATES the code violates the property in builds without assertions: C88_records_kept says which values are lost without a report; with assertions assimilate reports it (C88_unsorted_asserted)."},
 {"property": "C89", "status": "proved", "theorems": ["LvArray.Props.C89_views", "LvArray.Props.C89_room", "LvArray.Props.C89_gone"], "note": "All programs with one object and any number of views, trivially copyable values. C89_views: effects and answers as specified; C89_room: calls that fit in the room there is never invalidate a view; C89_gone: undefined behaviour after a replacement, for every call about a set and every storage it looks at (the values wherever the set is not empty)."},
 {"property": "C90", "status": "partial", "theorems": ["LvArray.Props.C90_amount_partial", "LvArray.Props.C90_order", "LvArray.Props.C90_cut_off", "LvArray.Props.C90_witness", "LvArray.Props.C90_message"], "note": "All numbers of bytes. Partial because the code cuts the text off: C90_amount_partial holds up to 9999.9 GB, C90_cut_off says that the text is not an amount with a unit for any larger number and what it is instead, C90_witness gives examples. C90_order and C90_message are complete (order: up to the same limit)."},
 {"property": "C91", "status": "proved", "theorems": ["LvArray.Props.C91_order", "LvArray.Props.C91_assign", "LvArray.Props.C91_ends", "LvArray.Props.C91_empty", "LvArray.Props.C91_histories"], "note": "Order of the loop, assignment through it and the two ends for every layout and size, for well formed arrays and for all histories of calls. Reading front() or back() of an empty array is shown to be undefined behaviour."},
 {"property": "C92", "status": "partial", "theorems": ["LvArray.Props.C92_exact_partial", "LvArray.Props.C92_enough", "LvArray.Props.C92_reserved", "LvArray.Props.C92_debug_partial", "LvArray.Props.C92_unreported"], "note": "The outcome of every legal history under every allocator is determined exactly (C92_exact_partial). Partial because the code does not report a refusal in release builds, nor in any build when a range is inserted into an empty set or an empty set is reserved for (C92_unreported). Byte counts that wrap around are excluded here."},
 {"property": "C93", "status": "partial", "theorems": ["LvArray.Props.C93_is_set_partial", "LvArray.Props.C93_narrow_wraps", "LvArray.Props.C93_signed_overflow", "LvArray.Props.C93_unsigned_wraps", "LvArray.Props.C93_unsigned_full", "LvArray.Props.C93_range_lost", "LvArray.Props.C93_reached"], "note": "For every index type the array is the set as long as every number of values is a value of the type and twice it one of std::ptrdiff_t (C93_is_set_partial). Partial because the code does not reject an insertion that exhausts the type: the other theorems say exactly what it does instead. What the functions do with a negative size afterwards is not followed further."},
 {"property": "C94", "status": "partial", "theorems": ["LvArray.Props.C94_failed_calls_have_no_effect_partial", "LvArray.Props.C94_throw_in_insert_breaks_set", "LvArray.Props.C94_throw_in_range_insert_breaks_set", "LvArray.Props.C94_throw_in_range_insert_above", "LvArray.Props.C94_set_stays_broken", "LvArray.Props.C94_throw_in_range_insert_leaks", "LvArray.Props.C94_throw_in_copy", "LvArray.Props.C94_throw_in_growing_copy", "LvArray.Props.C94_throw_in_first_copy", "LvArray.Props.C94_copy_that_returns", "LvArray.Props.C94_full_statement_fails", "LvArray.Props.C94_no_spurious_throw"], "note": "Refused calls have no effect, and neither does a value that throws when it is inserted above all others, alone or in a range whose other values are present, nor the first assignment of a copy from a set of the same size. Partial because the code violates the rest: for every other insertion the theorems say, by the value whose copy throws, whether the array is left with a hole (undefined when read or destroyed) or reads as before but never destroys the values copied earlier; for copy assignment they say, by the number of the call that throws, which values of which set each position reads as, which positions are undefined and how many values leak. Not said: how an array that leaks behaves in later calls that write over the leaked values."},
 {"property": "C95", "status": "proved", "theorems": ["LvArray.Props.C95_array_from_buffer", "LvArray.Props.C95_stays_in_the_buffer", "LvArray.Props.C95_objects_in_buffer_leak"], "note": "Every capacity and every history that is valid for a std::vector. In debug builds without insertions of an empty range, as in C07. Heap buffers. C95_objects_in_buffer_leak is about buffers outside the documented precondition."},
 {"property": "C96", "status": "partial", "theorems": ["LvArray.Props.C96_constructors_clean_partial", "LvArray.Props.C96_sized_array", "LvArray.Props.C96_copied_array", "LvArray.Props.C96_copied_set", "LvArray.Props.C96_copied_rows", "LvArray.Props.C96_throw_in_sized_array", "LvArray.Props.C96_throw_in_copied_array", "LvArray.Props.C96_throw_in_copied_set", "LvArray.Props.C96_throw_in_copied_rows"], "note": "Proved for constructors in which no value throws, and for copies of arrays of which the very first value throws. False of the code otherwise: the theorems say for every call that may throw how many values and how much memory are lost, and that an exception in Array( n ) is undefined behaviour. Negative sizes, several dimensions and stack buffers are not modelled; of ArrayOfArrays only the copy constructor is, and only the memory of its values is counted."},
 {"property": "C97", "status": "partial", "theorems": ["LvArray.Props.C97_no_throw", "LvArray.Props.C97_harmless_throws_partial", "LvArray.Props.C97_throw_in_append", "LvArray.Props.C97_throw_in_resizeArray", "LvArray.Props.C97_throw_in_emplace_at_end", "LvArray.Props.C97_throw_in_emplace_breaks_row", "LvArray.Props.C97_throw_in_insertIntoArray_breaks_row", "LvArray.Props.C97_throw_in_appendArray_adds_row", "LvArray.Props.C97_throw_in_sized_appendArray_adds_row", "LvArray.Props.C97_throw_in_insertArray_adds_row", "LvArray.Props.C97_copy_no_throw", "LvArray.Props.C97_throw_in_copy_breaks_object"], "note": "In every history, exceptions of the first value in calls that construct at the end of an inner array (emplaceBack, appendToArray, resizeArray, emplace and insertIntoArray behind the last value) have no effect and lose no value. The other exceptions have an effect, so the claim is false of the code, and the theorems say which: values that are never destroyed, inner arrays with slots without values, additional inner arrays; after a copy assignment that throws the destructor is undefined."}
]}
