{
 "claims": [
  {
   "property": "C01",
   "status": "proved",
   "theorems": [
    "Verif.Split.C01_split_tiles",
    "Verif.Split.C01_no_process_is_error"
   ],
   "note": "n and m are naturals; m = 0 is the error case."
  },
  {
   "property": "C02",
   "status": "proved",
   "theorems": [
    "Verif.Split.C02_con_concat",
    "Verif.Split.C02_alt_indices",
    "Verif.Split.C02_rand_rearrangement",
    "Verif.Split.C02_rand_independent_draws_lose",
    "Verif.Split.C02_unknown_method"
   ],
   "note": "The permutation drawn for 'rand' is an argument; the theorem assumes every caller has the same one and a further theorem shows what happens otherwise."
  },
  {
   "property": "C03",
   "status": "proved",
   "theorems": [
    "Verif.Split.C03_parallel_map_is_map",
    "Verif.Split.C03_bad_root",
    "Verif.Split.C03_unknown_method"
   ],
   "note": "The mapped function is pure; collectives are reliable; the root is one of the processes (another one is refused). Functions that raise and the method 'rand' are in C101."
  },
  {
   "property": "C04",
   "status": "partial",
   "theorems": [
    "Verif.Mpi.C04_redistribute_partial",
    "Verif.Mpi.C04_progress_partial",
    "Verif.Mpi.C04_round_trip_partial",
    "Verif.Mpi.C04_plan_partial",
    "Verif.Mpi.C04_axis_partial",
    "Verif.Mpi.C04_serial_violated",
    "Verif.Mpi.C04_negative_axis_violated",
    "Verif.Mpi.C04_memory_violated"
   ],
   "note": "Proved for every shape, axes, process count and interleaving when the axes are given as non-negative numbers and the memory check agrees on every process. Violated: naming the current axis by its negative number raises; a memory check that fails on one process leaves the others waiting; without mpi4py the array keeps its axis whatever is asked for."
  },
  {
   "property": "C05",
   "status": "partial",
   "theorems": [
    "Verif.Mpi.C05_allgather",
    "Verif.Mpi.C05_gather_partial",
    "Verif.Mpi.C05_gather_others_partial",
    "Verif.Mpi.C05_global",
    "Verif.Mpi.C05_gather_violated",
    "Verif.Mpi.C05_allgather_layout",
    "Verif.Mpi.C05_gather_layout_partial",
    "Verif.Mpi.C05_transposed_violated",
    "Verif.Mpi.C05_slice_violated",
    "Verif.Mpi.C05_serial_violated"
   ],
   "note": "allgather and the other processes of gather are proved outright, however the local arrays are arranged in memory; gather on the root is proved for arrays in row-major order when the root's own message has arrived when it is copied. Violated: the root does not wait for its own block; the blocks of transposed arrays come out in the wrong order; slices that are not contiguous raise or hang; both functions fail without mpi4py."
  },
  {
   "property": "C06",
   "status": "partial",
   "theorems": [
    "Verif.Mpi.C06_many_partial",
    "Verif.Mpi.C06_one_partial",
    "Verif.Mpi.C06_list_shape_violated"
   ],
   "note": "Proved for every matrix, process count and order of arrival. Violated: on one process a shape given as a list is always rejected."
  },
  {
   "property": "C07",
   "status": "proved",
   "theorems": [
    "Verif.Mpi.C07_wrap",
    "Verif.Mpi.C07_missing_axis"
   ],
   "note": "Every shape and process count; a missing axis on one process only is shown to raise there and to leave the others waiting."
  },
  {
   "property": "C08",
   "status": "partial",
   "theorems": [
    "Verif.Dist.C08_nd_slice",
    "Verif.Dist.C08_nd_tiling",
    "Verif.Dist.C08_nd_index_partial",
    "Verif.Dist.C08_nd_full",
    "Verif.Dist.C08_newaxis_violated",
    "Verif.Dist.C08_newaxis_shift_violated",
    "Verif.Dist.C08_list_violated",
    "Verif.Dist.C08_alone_partial",
    "Verif.Dist.C08_alone_violated",
    "Verif.Dist.C08_list_alone_violated",
    "Verif.Slice.C08_set_values_partial",
    "Verif.Slice.C08_set_repeated",
    "Verif.Slice.C08_set_values_violated",
    "Verif.Slice.C08_set_values_edge_violated",
    "Verif.Slice.C08_step_aligned_partial",
    "Verif.Slice.C08_slice_block",
    "Verif.Slice.C08_slice_concat",
    "Verif.Slice.C08_index_partial",
    "Verif.Slice.C08_negative_index_violated",
    "Verif.Slice.C08_numpy_index_violated",
    "Verif.Slice.C08_step_violated",
    "Verif.Slice.C08_step_canonical_violated",
    "Verif.Slice.C08_negative_step_violated",
    "Verif.Slice.C08_single_process_step_partial",
    "Verif.Slice.C08_setitem",
    "Verif.Slice.C08_ellipsis_expansion"
   ],
   "note": "Slices without a step: proved for every process count, length, start, stop, for reading and for assigning a scalar, and for reading arrays with any number of axes (C08_nd_...: slices, non-negative integers and ':' on the distributed axis, anything except np.newaxis on the others). Several values are stored rightly when the selection lies in one block and no block begins where it stops. Violated (witness theorems) for negative integers, numpy integers, strides out of phase with the blocks, negative steps, np.newaxis and lists; for [...] and numpy integers by themselves (TypeError), a list by itself (taken for a tuple), and for several values over several blocks; the _partial theorems cover the rest."
  },
  {
   "property": "C09",
   "status": "partial",
   "theorems": [
    "Verif.PartIO.C09_split_io_partial",
    "Verif.PartIO.C09_whole",
    "Verif.PartIO.C09_refused",
    "Verif.PartIO.C09_empty_violated"
   ],
   "note": "The byte threshold is an exact fraction. Holds for every non-empty array; for an array without elements the code divides by zero (witness theorem)."
  },
  {
   "property": "C10",
   "status": "partial",
   "theorems": [
    "Verif.Load.C10_nd_read_partial",
    "Verif.Load.C10_two_lists_violated",
    "Verif.Load.C10_zarr_list_violated",
    "Verif.Load.C10_empty_violated",
    "Verif.Slice.C10_len_slice_partial",
    "Verif.Slice.C10_read_block_partial",
    "Verif.Slice.C10_read_list",
    "Verif.Slice.C10_inverted_violated",
    "Verif.Slice.C10_descending_violated"
   ],
   "note": "Proved for ascending slices that are not inverted and for lists of positions, on both read paths along one axis, and for arrays with any number of axes with MPI transfers in several parts (C10_nd_read_partial). Violated for inverted and for descending slices, for two lists, for a list in a zarr file, and for an empty result with parallel access (witness theorems)."
  },
  {
   "property": "C11",
   "status": "partial",
   "theorems": [
    "Verif.Reshape.C11_reshape_partial",
    "Verif.Reshape.C11_accepts_partial",
    "Verif.Reshape.C11_decision_partial",
    "Verif.Reshape.C11_decision_zero_partial",
    "Verif.Reshape.C11_empty_accepts_violated",
    "Verif.Reshape.C11_empty_wildcard_violated",
    "Verif.Reshape.C11_negative_axis_violated",
    "Verif.Reshape.C11_order_a_violated"
   ],
   "note": "Proved in both index orders for every shape, request and process count on processes with non-empty blocks, including that they all decide alike. Violated: a process with an empty block accepts shapes the others reject, or divides by zero on a wildcard; an array stored with a negative axis; order='A'."
  },
  {
   "property": "C12",
   "status": "partial",
   "theorems": [
    "Verif.Trunc.C12_int_rounds",
    "Verif.Trunc.C12_long_rounds",
    "Verif.Trunc.C12_spec_total",
    "Verif.Trunc.C12_int_error",
    "Verif.Trunc.C12_long_error",
    "Verif.Trunc.C12_zero",
    "Verif.Trunc.C12_int_idempotent",
    "Verif.Trunc.C12_long_idempotent",
    "Verif.Trunc.C12_boundary_violated"
   ],
   "note": "Rounding to the nearest multiple, error bound, identity for err=0 and idempotence hold for every value and every 0<=err<2^30 (2^62). At the documented limit err=2^30 (2^62) itself the property fails; a witness is proved."
  },
  {
   "property": "C13",
   "status": "partial",
   "theorems": [
    "Verif.Trunc.C13_float_partial",
    "Verif.Trunc.C13_double_partial",
    "Verif.Trunc.C13_float_truncates",
    "Verif.Trunc.C13_double_truncates",
    "Verif.Trunc.C13_float_gap_violated",
    "Verif.Trunc.C13_float_gap_all_violated",
    "Verif.Trunc.C13_double_gap_violated",
    "Verif.Trunc.C13_overflow_violated",
    "Verif.Trunc.C13_infinite_tolerance",
    "Verif.Trunc.C13_finite_tolerance",
    "Verif.Trunc.C13_nonfinite",
    "Verif.Trunc.C13_nan_violated"
   ],
   "note": "Proved for every finite bit pattern and tolerance except |val| in [2^-105,2^-104) (float) or [2^-972,2^-971) (double), where the code returns zero for any tolerance, and except |val|+err beyond the float range, where it may return infinity; both failures are proved. The truncation granularity is proved too. An infinite tolerance gives zero for every bit pattern. Infinities and NaN are not changed by tolerances below 2^105 or 2^972; beyond that a NaN may become zero, against the comment in the code (proved)."
  },
  {
   "property": "C14",
   "status": "partial",
   "theorems": [
    "Verif.Trunc.C14_relative_float_partial",
    "Verif.Trunc.C14_relative_double_partial",
    "Verif.Trunc.C14_weights_float_partial",
    "Verif.Trunc.C14_weights_double_partial",
    "Verif.Trunc.C14_rejects",
    "Verif.Trunc.C14_weights_negative_violated",
    "Verif.Trunc.C14_row_max",
    "Verif.Trunc.C14_complex_partial",
    "Verif.Trunc.C14_complex_violated"
   ],
   "note": "Bounds proved for relative, weighted and complex truncation on the region where C13 holds, with the rounding of the tolerance as a parameter. Violated for zero weight with a negative element, and for complex data because of the cast to float (witness theorems)."
  },
  {
   "property": "C15",
   "status": "proved",
   "theorems": [
    "Verif.Median.C15_tree_invariants",
    "Verif.Median.C15_no_drift"
   ],
   "note": "Exact weights for the sums; C15_no_drift for any rounding of the additions. NaN values are outside the model."
  },
  {
   "property": "C16",
   "status": "partial",
   "theorems": [
    "Verif.Median.C16_split_median",
    "Verif.Median.C16_spec_unique",
    "Verif.Median.C16_empty",
    "Verif.Median.C16_unknown_method",
    "Verif.Median.C16_higher_partial",
    "Verif.Median.C16_lower_partial",
    "Verif.Median.C16_higher_violated",
    "Verif.Median.C16_lower_violated",
    "Verif.Median.C16_rounding_crash_violated",
    "Verif.Median.C16_clear_partial",
    "Verif.Median.C16_near_split_partial",
    "Verif.Median.C16_whole_split",
    "Verif.Median.C16_whole_others_partial"
   ],
   "note": "split is proved for exact sums of positive weights; lower/higher only when half the weight does not fall between two elements (violated otherwise). With double rounding the descent can dereference a null pointer (C16_rounding_crash_violated). Also proved for the additions of doubles, where the weights are whole multiples of a power of two that add up to less than 2^51 of them. For all other doubles up to 2^40 items: all three methods are right unless a sum of the first weights is within one part in 2^45 of half; near half, what split gives, if it does not crash, has at most about half of the weight on either side."
  },
  {
   "property": "C17",
   "status": "partial",
   "theorems": [
    "Verif.Moving.C17_moving_partial",
    "Verif.Moving.C17_local",
    "Verif.Moving.C17_bad_sizes",
    "Verif.Moving.C17_empty_array",
    "Verif.Moving.C17_first_nan_violated",
    "Verif.Moving.C17_size_one_violated",
    "Verif.Moving.C17_size_one_partial",
    "Verif.Moving.C17_negative_size_violated",
    "Verif.Moving.C17_rounding_crash_violated",
    "Verif.Moving.C17_window_never_lost",
    "Verif.Moving.C17_lower_higher_partial",
    "Verif.Moving.C17_higher_violated",
    "Verif.Moving.C17_clear_partial",
    "Verif.Moving.C17_whole_partial",
    "Verif.Moving.C17_counts_partial"
   ],
   "note": "Proved for exact weight sums; violated: index 0 without weight gives 0 instead of NaN, integer size 1, negative odd sizes are undefined behaviour, lower/higher with ties, and a null dereference under double rounding. Also proved for the additions of doubles, where the weights are whole multiples of a power of two that add up to less than 2^51 of them. For all other doubles, all three methods are right where in no window a sum of the first weights is within one part in 2^45 of half."
  },
  {
   "property": "C18",
   "status": "partial",
   "theorems": [
    "Verif.Moving.C18_lower_higher_partial",
    "Verif.Moving.C18_higher_violated",
    "Verif.Moving.C18_bad_sizes",
    "Verif.Moving.C18_size_one_partial",
    "Verif.Moving.C18_list_violated",
    "Verif.Moving.C18_more_sizes_violated",
    "Verif.Moving.C18_negative_violated",
    "Verif.Moving.C18_call_partial",
    "Verif.Moving.C18_moving2_partial",
    "Verif.Moving.C18_even_sizes",
    "Verif.Moving.C18_nan_violated",
    "Verif.Moving.C18_no_rows_violated",
    "Verif.Moving.C18_rounding_crash_violated",
    "Verif.Moving.C18_clear_partial",
    "Verif.Moving.C18_whole_partial"
   ],
   "note": "Proved for exact weight sums, arrays with rows and columns and all values of size: split is the weighted median of the window, lower and higher are right where no window has half of its weight between two elements, sizes that cannot be used are refused except as below. Violated: windows without weight give 0 instead of NaN, arrays without rows write out of bounds, negative odd sizes give zeros everywhere, sizes in a list are accepted only if the first is smaller, lower/higher with ties, null dereference under double rounding. More than two sizes are not refused; which of them are used depends on the first two. Also proved for the additions of doubles, where the weights are whole multiples of a power of two that add up to less than 2^51 of them. For all other doubles, all three methods are right where in no window a sum of the first weights is within one part in 2^45 of half."
  },
  {
   "property": "C19",
   "status": "partial",
   "theorems": [
    "Verif.Quick.C19_no_stray_access",
    "Verif.Quick.C19_rounding_partial",
    "Verif.Quick.C19_double_partial",
    "Verif.Quick.C19_tie_violated",
    "Verif.Quick.C19_single_small_violated",
    "Verif.Quick.C19_any_type_partial",
    "Verif.Quick.C19_integer_partial",
    "Verif.Quick.C19_overflow_violated",
    "Verif.Quick.C19_layout_partial",
    "Verif.Quick.C19_layout_violated",
    "Verif.Quick.C19_inner",
    "Verif.Quick.C19_spec_unique",
    "Verif.Quick.C19_order_free",
    "Verif.Quick.C19_quantile_partial",
    "Verif.Quick.C19_single_element_violated",
    "Verif.Quick.C19_zero_weights",
    "Verif.Quick.C19_errors",
    "Verif.Quick.C19_rows_partial",
    "Verif.Quick.C19_integer_mean_violated"
   ],
   "note": "Proved for real-valued data, exact arithmetic and non-negative weights: termination, no out-of-bounds access and the quantile property, all q in [0,1], except rows of length one with q=1. For any arithmetic and any data (rounding, NaN, infinities, negative weights): termination and no out-of-bounds access for rows of at least two elements. With rounding errors of at most d per operation the quantile is right up to the weight (n+1)^2 d; for doubles and the methods lower and higher without further assumptions but overflow. Negations: a row of length one with q=1, or with the smallest weights, reads past the end; integer data round the mean down; rounding hides ties, so that the median of six values with weights 0.1 is the third and not the mean. The methods lower and higher are right for all four types, and split gives the quantile rounded down for integers whose sums fit the type. Further negations: sums of large integers wrap around; views that do not lie in memory row by row, and arrays that must not be written, are refused."
  },
  {
   "property": "C20",
   "status": "proved",
   "theorems": [
    "Verif.Pipe.C20_lifecycle",
    "Verif.Pipe.C20_finished_once"
   ],
   "note": "All schedules, all behaviours of the hooks (an arbitrary stream of results), all lengths, also runs that fail. One process; interactive mode is in C113."
  },
  {
   "property": "C21",
   "status": "proved",
   "theorems": [
    "Verif.Pipe.C21_exactly_once",
    "Verif.Pipe.C21_in_order",
    "Verif.Pipe.C21_tuple_dropped",
    "Verif.Pipe.C21_by_position",
    "Verif.Pipe.C21_taken"
   ],
   "note": "Exact equality while the task accepts input, prefix at every point including failed runs. C21_tuple_dropped records that a bare out key keeps only the first item of a returned tuple."
  },
  {
   "property": "C22",
   "status": "proved",
   "theorems": [
    "Verif.Pipe.C22_terminates",
    "Verif.Pipe.C22_idle_source_runs_forever"
   ],
   "note": "Explicit bound on the number of rounds. C22_idle_source_runs_forever shows the condition on sources is needed."
  },
  {
   "property": "C23",
   "status": "proved",
   "theorems": [
    "Verif.Pipe.C23_some_input_used_up",
    "Verif.Pipe.C23_nothing_lost",
    "Verif.Pipe.C23_consumer_first_loses",
    "Verif.Pipe.C23_leftover_lost"
   ],
   "note": "C23_consumer_first_loses and C23_leftover_lost show the conditions are needed."
  },
  {
   "property": "C24",
   "status": "partial",
   "theorems": [
    "Verif.Pipe.C24_limit_partial",
    "Verif.Pipe.C24_then_finish",
    "Verif.Pipe.C24_zero_limit_violated"
   ],
   "note": "Proved for every positive limit; the code violates it for limit 0, where one product is emitted (C24_zero_limit_violated)."
  },
  {
   "property": "C25",
   "status": "partial",
   "theorems": [
    "Verif.Pipe.C25_validation_partial",
    "Verif.Pipe.C25_setup_sound",
    "Verif.Pipe.C25_setup_exact_partial",
    "Verif.Pipe.C25_before_any_hook",
    "Verif.Pipe.C25_null_output_violated",
    "Verif.Pipe.C25_no_type_violated",
    "Verif.Pipe.C25_own_output_accepted"
   ],
   "note": "Exact acceptance for task lists without an explicit out: null and with a type for every task; the code violates it for two tasks saying out: null and raises KeyError for a task without type (both proved)."
  },
  {
   "property": "C26",
   "status": "partial",
   "theorems": [
    "Verif.Config.C26_value",
    "Verif.Config.C26_default_partial",
    "Verif.Config.C26_unknown_reported",
    "Verif.Config.C26_no_other_error",
    "Verif.Config.C26_missing_reported",
    "Verif.Config.C26_overridden_converter_violated",
    "Verif.Config.C26_overridden_key_violated",
    "Verif.Config.C26_not_atomic_violated",
    "Verif.Config.C26_raise_partial",
    "Verif.Config.C26_empty_tolerance_violated"
   ],
   "note": "Proved for all class hierarchies, converters and configurations: present keys give the value converted by the most derived declaration; absent keys give the default if no overridden declaration's key is present; unknown and missing keys are reported, and nothing else raises but a converter. Violations proved: overridden converters still run and may reject; an overridden declaration's key still sets the attribute; a raising call leaves a prefix applied; compare_keys=[] checks nothing."
  },
  {
   "property": "C27",
   "status": "partial",
   "theorems": [
    "Verif.Config.C27_float_in_range_partial",
    "Verif.Config.C27_float_rejects",
    "Verif.Config.C27_nan_violated",
    "Verif.Config.C27_enum",
    "Verif.Config.C27_enum_strings",
    "Verif.Config.C27_enum_bool_violated",
    "Verif.Config.C27_list_type_partial",
    "Verif.Config.C27_zero_length_violated",
    "Verif.Config.C27_empty_default_violated",
    "Verif.Config.C27_file_format_partial",
    "Verif.Config.C27_file_format_options",
    "Verif.Config.C27_file_format_violated",
    "Verif.Config.C27_file_format_default_violated",
    "Verif.Config.C27_logging",
    "Verif.Config.C27_logging_violated",
    "Verif.Config.C27_declared",
    "Verif.Config.C27_logging_refused"
   ],
   "note": "Proved exactly: float_in_range on finite and infinite numbers, enum, list_type for lengths other than 0, file_format on None and classes, logging_config on strings and mappings. Violations proved: NaN accepted by float_in_range; True accepted for the option 1; length 0 ignored; empty default not validated; file_format rejects every string including 'hdf5' and 'zarr'; its 'zarr' default makes every access raise; logging_config raises AttributeError for other types and rejects CRITICAL."
  },
  {
   "property": "C28",
   "status": "proved",
   "theorems": [
    "Verif.Lock.C28_crash_atomic",
    "Verif.Lock.C28_published"
   ],
   "note": "Every state of the block (every crash point), every previous directory and every body that does not itself write to the final name. System calls are atomic steps; loss of power is not modelled."
  },
  {
   "property": "C29",
   "status": "partial",
   "theorems": [
    "Verif.Lock.C29_success",
    "Verif.Lock.C29_failure_partial",
    "Verif.Lock.C29_failure_preserve",
    "Verif.Lock.C29_early_exception_violated",
    "Verif.Lock.C29_lock_lost_violated",
    "Verif.Lock.C29_directory_exception_violated",
    "Verif.Lock.C29_directory_replace_violated",
    "Verif.Lock.C29_other_ranks"
   ],
   "note": "Proved for success, for an exception after the temporary file was written (as a file), and for preserve. Violations proved for every input of their kind: an exception before the temporary file exists is replaced by FileNotFoundError and leaves the lock; a zarr store (directory) cannot be removed or replaced, which leaves the lock and the temporary directory."
  },
  {
   "property": "C30",
   "status": "partial",
   "theorems": [
    "Verif.Mem.C30_same_object",
    "Verif.Mem.C30_create_group",
    "Verif.Mem.C30_create_group_others",
    "Verif.Mem.C30_create_dataset_partial",
    "Verif.Mem.C30_create_dataset_others_partial",
    "Verif.Mem.C30_trailing_violated"
   ],
   "note": "Proved for all trees and paths: slash-equivalent names give the same object; create_group makes every prefix a group and changes nothing else (including the loop's doubled parent name); create_dataset under a name without trailing slash. Violation proved: create_dataset('y/') hides the dataset under an empty name and makes y a group."
  },
  {
   "property": "C31",
   "status": "partial",
   "theorems": [
    "Verif.Mem.C31_create_group",
    "Verif.Mem.C31_create_dataset_partial",
    "Verif.Mem.C31_overwrite_violated",
    "Verif.Mem.C31_require",
    "Verif.Mem.C31_delete_partial",
    "Verif.Mem.C31_delete_missing",
    "Verif.Mem.C31_delete_trailing_violated",
    "Verif.Mem.C31_history_partial"
   ],
   "note": "Proved: create_group raises on existing names and leaves the tree; create_dataset on new names and every failing create keeps what exists; require_*; deletion removes exactly the subtree; histories of creations by induction. Violations proved: create_dataset silently replaces existing datasets and whole groups; del g['a/'] raises KeyError."
  },
  {
   "property": "C32",
   "status": "partial",
   "theorems": [
    "Verif.Mem.C32_ends_partial",
    "Verif.Mem.C32_content_partial",
    "Verif.Mem.C32_source_partial",
    "Verif.Mem.C32_independent",
    "Verif.Mem.C32_shared_names",
    "Verif.Mem.C32_selected_data",
    "Verif.Mem.C32_subgroup_violated",
    "Verif.Mem.C32_empty_name_violated",
    "Verif.Mem.C32_scalar_violated",
    "Verif.Mem.C32_shared_attributes_violated",
    "Verif.Mem.C32_file_selection_violated",
    "Verif.Mem.C32_file_selection_partial"
   ],
   "note": "Proved for copies of a whole tree between memory trees (any tree, selections, shared names): it ends, raises only for the listed reasons, reproduces every path and nothing else, and later writes do not cross over. Fails for subgroups (KeyError), datasets without dimensions (IndexError), a dataset named '/', attributes of shared datasets, and selections when writing to a file without string conversion."
  },
  {
   "property": "C33",
   "status": "partial",
   "theorems": [
    "Verif.Mem.Attrs.C33_round_trip_partial",
    "Verif.Mem.Attrs.C33_list_partial",
    "Verif.Mem.Attrs.C33_marker",
    "Verif.Mem.Attrs.C33_prefix_violated",
    "Verif.Mem.Attrs.C33_prefix_error_violated",
    "Verif.Mem.Attrs.C33_mixed_list_violated",
    "Verif.Mem.Attrs.C33_datetime_violated",
    "Verif.Mem.Attrs.C33_numpy_in_dict_violated",
    "Verif.Mem.Attrs.C33_integer_key_violated",
    "Verif.Mem.Attrs.C33_single_item_violated",
    "Verif.Mem.Attrs.C33_json",
    "Verif.Mem.Attrs.C33_round_trip_json_partial",
    "Verif.Mem.Attrs.C33_marker_json",
    "Verif.Mem.Attrs.C33_prefix_digits_violated",
    "Verif.Mem.Attrs.C33_prefix_alone_violated",
    "Verif.Mem.Attrs.C33_nested_partial",
    "Verif.Mem.Attrs.C33_ragged_violated"
   ],
   "note": "Proved for HDF5 and zarr: booleans, integers in range, floats, strings without the prefix, nested dictionaries come back equal; flat lists come back as arrays with the same items; nested lists of one shape with integers, floats or strings come back from HDF5 as arrays of that shape with the same items (C33_nested_partial). That json.loads inverts the encoder is proved for python's encoder and decoder (C33_json), given that the texts of floats are read back. Fails for strings starting with the prefix, mixed lists, datetimes, numpy integers in dictionaries, non-string keys, single item arrays in zarr, ragged nested lists in HDF5 (C33_ragged_violated)."
  },
  {
   "property": "C34",
   "status": "partial",
   "theorems": [
    "Verif.Mpi.C34_common_to_distributed_partial",
    "Verif.Mpi.C34_distributed_to_common_partial",
    "Verif.Mpi.C34_round_trip_partial",
    "Verif.Mpi.C34_axis_violated",
    "Verif.Mpi.C34_axis_raises_violated",
    "Verif.Mpi.C34_one_process_violated"
   ],
   "note": "Proved for the first axis on several processes. Violated: the slice is always taken along the first axis; the way back raises on one process."
  },
  {
   "property": "C35",
   "status": "partial",
   "theorems": [
    "Verif.Tod.C35_filters_partial",
    "Verif.Tod.C35_bound_method_violated",
    "Verif.Tod.C35_optional_violated",
    "Verif.Tod.C35_concatenate_filtered_partial",
    "Verif.Tod.C35_concatenate_is_slice_partial",
    "Verif.Tod.C35_other_axes",
    "Verif.Tod.C35_early_start_pads",
    "Verif.Tod.C35_early_start_violated",
    "Verif.Tod.C35_crossed_selection_raises",
    "Verif.Tod.C35_empty_selection_violated"
   ],
   "note": "Proved for inputs identical except along time, starts not before the first sample and not after the stop, and (for datasets) at least one selected sample; for filters that are functions of one argument, or of two that apply the slice they are given. Violations proved: a start before the first sample yields uninitialised leading samples; a start after the stop or end raises ValueError instead of giving an empty result; an empty selection at an input border loses the datasets; a filter that is a method fails whatever it does, and so does a selection with a filter that has a second, optional parameter. Attributes and string conversion are in C98, datasets with several axes and distributed data in C99. Filters that change the order of the axes are not modelled."
  },
  {
   "property": "C36",
   "status": "partial",
   "theorems": [
    "Verif.Tod.C36_select_time_range_partial",
    "Verif.Tod.C36_one_sided_partial",
    "Verif.Tod.C36_in_two_steps",
    "Verif.Tod.C36_nothing_there_raises",
    "Verif.Tod.C36_outside_violated",
    "Verif.Tod.C36_unsorted_wrong",
    "Verif.Tod.C36_read_selected_partial"
   ],
   "note": "Proved on sorted times when some sample is at or after the start and some sample is before the stop, for one bound only, in two steps, and composed with reading (C35). Violation proved: an interval outside the data raises IndexError."
  },
  {
   "property": "C37",
   "status": "partial",
   "theorems": [
    "Verif.Cont.C37_names",
    "Verif.Cont.C37_sorted",
    "Verif.Cont.C37_axes",
    "Verif.Cont.C37_override_partial",
    "Verif.Cont.C37_all_declare_partial",
    "Verif.Cont.C37_single_inheritance_partial",
    "Verif.Cont.C37_instance",
    "Verif.Cont.C37_diamond_violated"
   ],
   "note": "Names, axes and their order proved for every class hierarchy (C3 order). The rule that the most derived declaration wins is proved when every class declares its own specification, and for single inheritance. It fails in a diamond with a class that declares none: C37_diamond_violated. Run-time specifications of tables are C97."
  },
  {
   "property": "C38",
   "status": "partial",
   "theorems": [
    "Verif.Cont.C38_history_partial",
    "Verif.Cont.C38_reserved",
    "Verif.Cont.C38_on_disk_violated",
    "Verif.Cont.C38_alias_violated",
    "Verif.Cont.C38_old_format_partial",
    "Verif.Cont.C38_no_order_violated",
    "Verif.Cont.Literal.C38_text",
    "Verif.Cont.Literal.C38_history_text_partial",
    "Verif.Cont.Literal.C38_old_format_text_partial"
   ],
   "note": "Proved for containers in memory whose entries are not changed by the caller. That literal_eval reads back what str wrote for a list of names is proved for python's texts (C38_text, C38_history_text_partial). Fails on disk (the name is recorded, the entry is not: C38_on_disk_violated) and when the caller changes the dictionary later (C38_alias_violated). Also proved for files that have a history, in either format (C38_old_format_partial); without an order in the file its entries are not listed, or cannot be read (C38_no_order_violated)."
  },
  {
   "property": "C39",
   "status": "partial",
   "theorems": [
    "Verif.Cont.C39_attributes_partial",
    "Verif.Cont.C39_attribute_prefix_violated",
    "Verif.Cont.C39_copy_partial",
    "Verif.Cont.C39_single_selection_partial",
    "Verif.Cont.C39_missing_selection",
    "Verif.Cont.C39_accepts_partial",
    "Verif.Cont.C39_caller_dict_violated",
    "Verif.Cont.C39_index_array_violated",
    "Verif.Cont.C39_empty_list_violated",
    "Verif.Cont.C39_some_axes_listed_violated",
    "Verif.Cont.C39_common_to_distributed_violated",
    "Verif.Cont.C39_broadcast_violated",
    "Verif.Cont.C39_more_axes_violated",
    "Verif.Cont.C39_source_axis_violated",
    "Verif.Cont.C39_full_slice_violated"
   ],
   "note": "Proved for slices, lists and tuples, common and distributed datasets, when axis lists all the selected axes or none and the destination has the shapes of the selected data. Shown to fail: the caller's dictionary is changed; index arrays and empty lists are refused; wrong data when only some of the selected axes are listed; a listed slice(None) on a distributed dataset; a common dataset copied into a distributed one. A destination of another shape is filled by broadcasting without an error (C39_broadcast_violated); a source distributed over a selected axis is left distributed over another (C39_source_axis_violated). Attributes are copied with equal values (C39_attributes_partial) except strings with the mark of encoded values (C39_attribute_prefix_violated). The same with a destination of more axes (C39_more_axes_violated)."
  },
  {
   "property": "C40",
   "status": "partial",
   "theorems": [
    "Verif.Types.C40_to_unicode_partial",
    "Verif.Types.C40_to_bytestring_partial",
    "Verif.Types.C40_round_trip_partial",
    "Verif.Types.C40_round_trip_bytes_partial",
    "Verif.Types.C40_has_kind_partial",
    "Verif.Types.C40_subarray_violated",
    "Verif.Types.C40_alignment_violated",
    "Verif.Types.C40_byte_order_violated",
    "Verif.Types.C40_metadata_violated",
    "Verif.Types.C40_no_fields_violated",
    "Verif.Types.C40_has_kind_violated"
   ],
   "note": "Proved for dtypes without sub-arrays, alignment gaps, big-endian unicode or metadata: every string field converted, names, order, nesting and other fields kept, round trip, has_kind. Negations: sub-array shapes lost, alignment gaps become fields, big-endian unicode recognised but not converted, metadata lost, has_kind raises on a struct whose only field is a struct."
  },
  {
   "property": "C41",
   "status": "partial",
   "theorems": [
    "Verif.Types.C41_no_bytes_partial",
    "Verif.Types.C41_shape",
    "Verif.Types.C41_idempotent",
    "Verif.Types.C41_unchanged_partial",
    "Verif.Types.C41_succeeds_partial",
    "Verif.Types.C41_frozenset_violated",
    "Verif.Types.C41_namedtuple_violated",
    "Verif.Types.C41_array_violated",
    "Verif.Types.C41_set_violated",
    "Verif.Types.C41_dict_violated"
   ],
   "note": "Proved: no byte strings left unless inside a frozenset, element-by-element correspondence, idempotence, objects without byte strings unchanged, success when everything decodes. Negations: frozensets keep byte strings, named tuples are refused, arrays of non-ASCII byte strings raise although the same bytes decode, sets and dicts with a key both as bytes and text shrink."
  },
  {
   "property": "C42",
   "status": "proved",
   "theorems": [
    "Verif.Util.C42_unique",
    "Verif.Util.C42_idempotent",
    "Verif.Util.C42_unhashable"
   ],
   "note": "For every list with hashable elements; unhashable elements raise."
  },
  {
   "property": "C43",
   "status": "partial",
   "theorems": [
    "Verif.Util.C43_budget",
    "Verif.Util.C43_lookup",
    "Verif.Util.C43_stored",
    "Verif.Util.C43_refused",
    "Verif.Util.C43_eviction",
    "Verif.Util.C43_replace",
    "Verif.Util.C43_replace_larger_partial",
    "Verif.Util.C43_replace_larger_violated"
   ],
   "note": "Proved: budget after any operation sequence, lookups return the last stored value, oversize items refused, eviction order and necessity for new keys and for replacements by values of at most the old size. Negation: replacing a held value by a larger one counts the old value too and drops an item that had room."
  },
  {
   "property": "C44",
   "status": "proved",
   "theorems": [
    "Verif.Tasks.C44_groups",
    "Verif.Tasks.C44_prefix",
    "Verif.Tasks.C44_all"
   ],
   "note": "Group size at least one. Model: AccumulateList.next/process_finish."
  },
  {
   "property": "C45",
   "status": "partial",
   "theorems": [
    "Verif.Tasks.C45_range_first_partial",
    "Verif.Tasks.C45_only_partial",
    "Verif.Tasks.C45_nothing",
    "Verif.Tasks.C45_raises_partial",
    "Verif.Tasks.C45_map_over_index_violated",
    "Verif.Tasks.C45_no_axis_name_violated"
   ],
   "note": "Range takes precedence over index and map for every named axis, single selections are used, exactly malformed entries raise when keys contain an underscore. Shown to fail: map overrides index, contrary to the documentation; keys without an axis name are accepted."
  },
  {
   "property": "C46",
   "status": "partial",
   "theorems": [
    "Verif.Tasks.C46_never_partial",
    "Verif.Tasks.C46_failed_partial",
    "Verif.Tasks.C46_proceeds_partial",
    "Verif.Tasks.C46_once_partial",
    "Verif.Tasks.C46_finished_stays_partial",
    "Verif.Tasks.C46_running_violated",
    "Verif.Tasks.C46_temporary_violated",
    "Verif.Tasks.C46_retry_violated",
    "Verif.Tasks.C46_runs_partial",
    "Verif.Tasks.C46_runs_distinct_partial",
    "Verif.Tasks.C46_repeated_variable_violated",
    "Verif.Tasks.C46_repeated_value_violated",
    "Verif.Tasks.C46_template_run_partial",
    "Verif.Tasks.C46_template_run_violated"
   ],
   "note": "Holds for 'never' without temp_directory, for FINISHED jobs under 'failed', and for templates with distinct variables and values. Shown to fail: 'failed' re-submits running jobs; with temp_directory 'never' re-submits; a failed submission blocks the retry; repeated --var loses values; repeated values repeat runs; the command template-run without --submit starts nothing."
  },
  {
   "property": "C47",
   "status": "partial",
   "theorems": [
    "Verif.Invert.C47_double_partial",
    "Verif.Invert.C47_double_violated",
    "Verif.Invert.C47_float",
    "Verif.Invert.C47_complex_partial",
    "Verif.Invert.C47_complex_float",
    "Verif.Invert.C47_complex_violated"
   ],
   "note": "All finite floats and complex numbers of floats; doubles and complex numbers of doubles except those of magnitude 2^-1024. The result is the nearest number to 1/x. Shown to fail: 1/x is infinite for x = ±2^-1024, since 1/DBL_MAX is rounded down. Complex division is taken as exact with rounded parts."
  },
  {
   "property": "C48",
   "status": "partial",
   "theorems": [
    "Verif.Obj.C48_sum_partial",
    "Verif.Obj.C48_depth_violated",
    "Verif.Obj.C48_module_violated",
    "Verif.Obj.C48_hidden_violated"
   ],
   "note": "Proved: if the structure has no module, no hidden children and fits the recursion limit, the result is the sum of the sizes of the distinct reachable objects, also for cycles. Violated: deep structures raise RecursionError; a module inside turns the whole sum to 0; frozensets, object arrays and inherited slots are not counted."
  },
  {
   "property": "C49",
   "status": "partial",
   "theorems": [
    "Verif.Obj.C49_dicts",
    "Verif.Obj.C49_seqs",
    "Verif.Obj.C49_numbers",
    "Verif.Obj.C49_strings",
    "Verif.Obj.C49_kinds",
    "Verif.Obj.C49_reflexive",
    "Verif.Obj.C49_symmetric",
    "Verif.Obj.C49_transitive_partial",
    "Verif.Obj.C49_order",
    "Verif.Obj.C49_transitive_violated",
    "Verif.Obj.C49_empty_violated"
   ],
   "note": "Proved: decision theorems for dictionaries, sequences, numbers, strings and different kinds; reflexivity and symmetry including arrays; transitivity without arrays; dictionary order irrelevant. Violated with arrays: a number equals every array filled with it, and an empty array equals every number, so transitivity fails. Comparison of leaves follows numpy.testing.assert_equal as published."
  },
  {
   "property": "C50",
   "status": "partial",
   "theorems": [
    "Verif.Rng.C50_filled",
    "Verif.Rng.C50_deterministic",
    "Verif.Rng.C50_progress",
    "Verif.Rng.C50_reproducible",
    "Verif.Rng.C50_streams",
    "Verif.Rng.C50_out_partial",
    "Verif.Rng.C50_out_violated"
   ],
   "note": "Proved for every interleaving of the threads: each element is written exactly once with the number its block's generator gives, nothing else changes, the generators end in the same state, sequences of calls are reproducible, and the threads always finish. A row-major out is filled. Violated: an out with another memory layout is returned unfilled."
  },
  {
   "property": "C51",
   "status": "partial",
   "theorems": [
    "Verif.RowWrite.C51_empty_partial",
    "Verif.RowWrite.C51_not_written_violated",
    "Verif.RowWrite.C51_rows_violated",
    "Verif.RowWrite.C51_start_violated",
    "Verif.RowWrite.C51_raises_violated",
    "Verif.RowWrite.C51_vector_violated"
   ],
   "note": "Proved only for arrays without rows. Violated otherwise: every process writes at the start of the file, so the dataset keeps its old bytes and the header is overwritten; rows of more than one byte raise after the write; one-dimensional arrays raise TypeError."
  },
  {
   "property": "C52",
   "status": "partial",
   "theorems": [
    "Verif.Tasks.C52_check_partial",
    "Verif.Tasks.C52_skipped",
    "Verif.Tasks.C52_skipped_single",
    "Verif.Tasks.C52_on_disk_violated",
    "Verif.Tasks.C52_no_axes_violated",
    "Verif.Tasks.C52_several_outputs_violated"
   ],
   "note": "In-memory containers with at least one axis and tasks with one output. Shown to fail: containers on disk are not checked; 0-d datasets raise; with several outputs None takes the place of a skipped container."
  },
  {
   "property": "C53",
   "status": "partial",
   "theorems": [
    "Verif.Roots.C53_grid_partial",
    "Verif.Roots.C53_spacing_violated",
    "Verif.Roots.C53_long_step_violated",
    "Verif.Roots.C53_default_step",
    "Verif.Roots.C53_given_step",
    "Verif.Roots.C53_search_partial",
    "Verif.Roots.C53_solve_partial",
    "Verif.Roots.C53_twice_violated",
    "Verif.Roots.C53_missed_violated",
    "Verif.Roots.C53_underflow_violated"
   ],
   "note": "Proved: the grid covers the interval with spacing at most dx (1 + 1/k) for k cells; the default step gives at least four cells of at most a quarter day; if no grid point is an exact root and products do not underflow, exactly one root with the right direction is reported per sign change. Violated: the spacing always exceeds dx and can miss roots; a step as long as the interval finds nothing; a root on an inner grid point is reported twice; tiny values raise."
  },
  {
   "property": "C54",
   "status": "proved",
   "theorems": [
    "Verif.Tasks.C54_takes_part",
    "Verif.Tasks.C54_one_per_host",
    "Verif.Tasks.C54_each_container_once"
   ],
   "note": "Hosts are numbers; the zipping itself is not modelled."
  },
  {
   "property": "C55",
   "status": "partial",
   "theorems": [
    "Verif.Lock.C55_as_alone_partial",
    "Verif.Lock.C55_published_partial",
    "Verif.Lock.C55_different_names_partial",
    "Verif.Lock.C55_ordinary_names",
    "Verif.Lock.C55_same_name_violated",
    "Verif.Lock.C55_lock_name_violated"
   ],
   "note": "Proved for any number of processes whose names share no path (in particular ordinary names), every interleaving, with and without exceptions. Violations proved: the same name (no mutual exclusion), and x together with x.lock."
  },
  {
   "property": "C56",
   "status": "partial",
   "theorems": [
    "Verif.Lock.C56_rank0_last_partial",
    "Verif.Lock.C56_other_rank_violated"
   ],
   "note": "Proved if rank 0 finishes last. Violation proved: rank 0 renames the file while another rank still writes; there is no barrier."
  },
  {
   "property": "C57",
   "status": "partial",
   "theorems": [
    "Verif.Tasks.C57_slurm_partial",
    "Verif.Tasks.C57_required",
    "Verif.Tasks.C57_pbs_violated",
    "Verif.Tasks.C57_pbs_pernode_violated",
    "Verif.Tasks.C57_default_arguments_violated"
   ],
   "note": "Holds for the slurm template; missing required keys are always reported. Shown to fail: the pbs template asks for a key that is never supplied, pernode is not required although used, default arguments of a system are never used."
  },
  {
   "property": "C58",
   "status": "partial",
   "theorems": [
    "Verif.Invert.C58_new",
    "Verif.Invert.C58_integers",
    "Verif.Invert.C58_out_partial",
    "Verif.Invert.C58_shape",
    "Verif.Invert.C58_layout_violated",
    "Verif.Invert.C58_not_contiguous_violated",
    "Verif.Invert.C58_integers_violated",
    "Verif.Invert.C58_list_violated"
   ],
   "note": "Without out: all layouts. With out: contiguous and in the same order as x. Shown to fail: out in the other order gets transposed values, a non-contiguous out is not filled, out is ignored for integers, lists raise."
  },
  {
   "property": "C59",
   "status": "partial",
   "theorems": [
    "Verif.Rng.C59_parameters_partial",
    "Verif.Rng.C59_thread_call",
    "Verif.Rng.C59_dtype_partial",
    "Verif.Rng.C59_out_keyword",
    "Verif.Rng.C59_direct",
    "Verif.Rng.C59_endpoint_violated",
    "Verif.Rng.C59_poisson_violated",
    "Verif.Rng.C59_out_position_violated",
    "Verif.Rng.C59_out_none_violated",
    "Verif.Rng.C59_size_violated"
   ],
   "note": "Proved: parameters keep their values when at most size and dtype follow them by position; dtype as in numpy except for poisson; out by keyword is used; small calls are passed on unchanged. Violated: endpoint by position is dropped; poisson gives floats; out by position is ignored; out=None raises; a contradicting size is ignored."
  },
  {
   "property": "C60",
   "status": "partial",
   "theorems": [
    "Verif.Dist.C60_transpose_partial",
    "Verif.Dist.C60_reversed",
    "Verif.Dist.C60_twice",
    "Verif.Dist.C60_accepts",
    "Verif.Dist.C60_negative_violated",
    "Verif.Dist.C60_none_violated",
    "Verif.Dist.C60_T_violated",
    "Verif.Dist.C60_own_axis_violated"
   ],
   "note": "Proved for every order of the axes that names the distributed axis by its own number, and for no arguments; the set of accepted calls is characterised. Violated for a negative number of the distributed axis, for transpose(None), for the attribute T and for an array made with axis=-1."
  },
  {
   "property": "C61",
   "status": "partial",
   "theorems": [
    "Verif.Dist.C61_call_partial",
    "Verif.Dist.C61_out_partial",
    "Verif.Dist.C61_out_refused",
    "Verif.Dist.C61_accepts_partial",
    "Verif.Dist.C61_other_axis",
    "Verif.Dist.C61_list_violated",
    "Verif.Dist.C61_nested_list_violated",
    "Verif.Dist.C61_local_length_violated",
    "Verif.Dist.C61_negative_axis_violated",
    "Verif.Dist.C61_out_violated",
    "Verif.Dist.C61_matmul_violated"
   ],
   "note": "Proved for any element function, arguments and shapes under the documented restriction, with and without out; accepted calls satisfy the restriction unless a numpy argument has the local length. Violated for lists, numpy arrays of the local length, arrays made with axis=-1, out with more axes, and the matrix product."
  },
  {
   "property": "C62",
   "status": "partial",
   "theorems": [
    "Verif.Dist.C62_reduce_partial",
    "Verif.Dist.C62_out_partial",
    "Verif.Dist.C62_distributed_axis",
    "Verif.Dist.C62_accepts",
    "Verif.Dist.C62_total_partial",
    "Verif.Dist.C62_allreduce_partial",
    "Verif.Dist.C62_accumulate_partial",
    "Verif.Dist.C62_accumulate_refused",
    "Verif.Dist.C62_accumulate_violated",
    "Verif.Dist.C62_default_axis_violated",
    "Verif.Dist.C62_empty_violated",
    "Verif.Dist.C62_keepdims_violated",
    "Verif.Dist.C62_negative_axis_violated",
    "Verif.Dist.C62_total_out_violated"
   ],
   "note": "Proved for any reduction, axes, keepdims and out; refusal of the distributed axis, accepted calls, total reductions, allreduce for any commutative monoid, accumulations. Violated for accumulation with the distributed axis counted from the end, a missing axis keyword, max with an empty block, keepdims before allreduce, arrays made with axis=-1, and total reductions with out."
  },
  {
   "property": "C63",
   "status": "partial",
   "theorems": [
    "Verif.Dist.C63_getitem_partial",
    "Verif.Dist.C63_accepts",
    "Verif.Dist.C63_malformed",
    "Verif.Dist.C63_local",
    "Verif.Dist.C63_prefix_violated",
    "Verif.Dist.C63_list_violated",
    "Verif.Dist.C63_two_lists_violated",
    "Verif.Dist.C63_step_one_violated"
   ],
   "note": "Proved for every index whose entry for the distributed axis is a full slice, with at most one list and then no integers; other entries give the local array; malformed ones raise. Violated for a slice from 0 to the local length, for lists combined with integers or other lists, and for ::1."
  },
  {
   "property": "C64",
   "status": "partial",
   "theorems": [
    "Verif.Proto.C64_sources",
    "Verif.Proto.C64_axes",
    "Verif.Proto.C64_datasets_partial",
    "Verif.Proto.C64_attributes",
    "Verif.Proto.C64_accepts",
    "Verif.Proto.C64_refused",
    "Verif.Proto.C64_unknown_axis",
    "Verif.Proto.C64_skip_violated",
    "Verif.Proto.C64_gather_violated",
    "Verif.Proto.C64_scatter_violated",
    "Verif.Proto.C64_length_violated",
    "Verif.Proto.C64_zero_violated",
    "Verif.Proto.C64_list_violated",
    "Verif.Proto.C64_forced_violated",
    "Verif.Proto.C64_shared_violated"
   ],
   "note": "Proved: axes, presence, shapes, distribution, names of axes and attributes of all datasets for every accepted call (C64_axes, C64_datasets_partial, C64_attributes), acceptance (C64_accepts) and refusal of undefined axes (C64_refused). Copied elements are proved where the source has the layout of the specification; the code fails otherwise: a distributed source into a common dataset can silently be wrong, a common source into a distributed one raises, a length-one source is repeated, new distributed datasets are not zeroed, skip_datasets does not stop copying, lists are not accepted as axes, copied axes share memory, distributed=True has no effect in a container that is not distributed."
  },
  {
   "property": "C65",
   "status": "partial",
   "theorems": [
    "Verif.Load.C65_load_partial",
    "Verif.Load.C65_lengths_partial",
    "Verif.Load.C65_unknown",
    "Verif.Load.C65_base_violated",
    "Verif.Load.C65_undeclared_violated",
    "Verif.Load.C65_pairs_violated",
    "Verif.Load.C65_two_lists_violated",
    "Verif.Load.C65_order_violated"
   ],
   "note": "Proved for selections that are slices with a positive step or increasing lists, with at most one list per dataset (none for distributed datasets in Zarr files). Violated: selections are ignored by classes that are not containers; datasets that the class does not declare are not restricted; two lists are paired element by element in Zarr files and refused in HDF5 files; unsorted lists are refused in HDF5 files."
  },
  {
   "property": "C66",
   "status": "partial",
   "theorems": [
    "Verif.Crawl.C66_redistribute_partial",
    "Verif.Crawl.C66_warnings_partial",
    "Verif.Crawl.C66_negative_violated",
    "Verif.Crawl.C66_subgroup_violated"
   ],
   "note": "Proved for containers that are the root of their tree and numbers that do not count back beyond the first axis. Violated: a number below minus the number of axes is passed on as another negative axis without warning; a container that is a group inside a tree redistributes the whole tree. What redistribute does to one array is C04."
  },
  {
   "property": "C67",
   "status": "partial",
   "theorems": [
    "Verif.Iter.C67_only_files",
    "Verif.Iter.C67_only_inputs",
    "Verif.Iter.C67_fails",
    "Verif.Iter.C67_files_partial",
    "Verif.Iter.C67_inputs_partial",
    "Verif.Iter.C67_no_name",
    "Verif.Iter.C67_single_partial",
    "Verif.Iter.C67_validate",
    "Verif.Iter.C67_directories",
    "Verif.Iter.C67_surplus",
    "Verif.Iter.C67_falsy_violated",
    "Verif.Iter.C67_current_directory_violated",
    "Verif.Iter.C67_group_violated",
    "Verif.Iter.C67_arity"
   ],
   "note": "Reading, processing and writing follow the files one by one and stop after the last; pipeline inputs are paired with names; configurations are decided exactly. If reading, processing or writing can fail: whatever calls succeed did exactly this (C67_only_files, C67_only_inputs) and every failure is raised (C67_fails). Violated by the code: inputs that count as false are not cast, output names without a directory fail, and tasks for groups cannot write at all (negations proved)."
  },
  {
   "property": "C68",
   "status": "partial",
   "theorems": [
    "Verif.Flow.C68_setup_partial",
    "Verif.Flow.C68_process",
    "Verif.Flow.C68_nested",
    "Verif.Flow.C68_flow_partial",
    "Verif.Flow.C68_no_setup_violated",
    "Verif.Flow.C68_surplus_violated",
    "Verif.Flow.C68_none_violated",
    "Verif.Flow.C68_copy_violated"
   ],
   "note": "Setup with all arguments provided, processing and nesting are proved; gathering and forwarding too. Violated: a part without setup of its own takes an argument from the next one; arguments too many are dropped; a part that gives None does not end the iteration; the copying and deleting tasks define process, which is never called, and stop at the first input."
  },
  {
   "property": "C69",
   "status": "partial",
   "theorems": [
    "Verif.Save.C69_next",
    "Verif.Save.C69_inputs",
    "Verif.Save.C69_finish",
    "Verif.Save.C69_files_partial",
    "Verif.Save.C69_distinct_partial",
    "Verif.Save.C69_numbered",
    "Verif.Save.C69_untagged_violated",
    "Verif.Save.C69_no_container_violated",
    "Verif.Save.C69_tuple_violated",
    "Verif.Save.C69_count_violated"
   ],
   "note": "Every call that succeeds handles every output as specified; in the standard configuration calls succeed and the files are as named. Format strings consist of literal text and plain named fields; compression and history are left out. Violated: with inputs without a tag every output is tagged None (or empty, for inputs that are no containers) and written to the same file; outputs of one call overwrite each other; the count is not that of the iterations."
  },
  {
   "property": "C70",
   "status": "partial",
   "theorems": [
    "Verif.Files.C70_list_partial",
    "Verif.Files.C70_order",
    "Verif.Files.C70_filelists_partial",
    "Verif.Files.C70_groups_partial",
    "Verif.Files.C70_load_partial",
    "Verif.Files.C70_bracket_violated",
    "Verif.Files.C70_loop_violated",
    "Verif.Files.C70_group_pattern_violated",
    "Verif.Files.C70_group_tag_violated",
    "Verif.Files.C70_group_zarr_violated",
    "Verif.Files.C70_flat_violated",
    "Verif.Files.C70_filelists_order_violated",
    "Verif.Files.C70_filelists_names_violated"
   ],
   "note": "Lists and patterns are decided exactly if no file found has a wildcard character in its name, also in lists of lists (C70_filelists_partial); the result of list_or_glob does not depend on the listing order; loading is proved for files without NaNs. Violated: a file with a bracket in its name is lost or another one taken for it, one with a star or question mark sends the search into an endless recursion; in groups the documented patterns with brackets and zarr stores are rejected and numbers start at 0, not at 1; lists of lists are not flattened, and their patterns are not sorted (C70_filelists_order_violated)."
  },
  {
   "property": "C71",
   "status": "partial",
   "theorems": [
    "Verif.Shorten.C71_rest",
    "Verif.Shorten.C71_which",
    "Verif.Shorten.C71_standard",
    "Verif.Shorten.C71_notation_violated",
    "Verif.Shorten.C71_fixed_partial",
    "Verif.Shorten.C71_axes_partial",
    "Verif.Shorten.C71_weights_partial",
    "Verif.Shorten.C71_axes_violated",
    "Verif.Shorten.C71_empty_violated",
    "Verif.Shorten.C71_unspecified_violated",
    "Verif.Shorten.C71_kinds_violated",
    "Verif.Shorten.C71_small_violated"
   ],
   "note": "Holds for the truncation of the kernels of C13 and C14 on single and double precision numbers, up to the relative error of the arithmetic, where C13 holds, if the axes of the weights come in the order of the data, and if the weights are not truncated themselves. Weights with axes in another order are silently misaligned; an empty dict means off in a class and on in a configuration; datasets that are configured but not in the specification are ignored; double data with single weights fail; very small values in the gap of C13 become zero. A precision that is written without a point, such as 1e-6, is a text in YAML and silently means the standard precision of 1e-4."
  },
  {
   "property": "C72",
   "status": "partial",
   "theorems": [
    "Verif.Stellar.C72_angle",
    "Verif.Stellar.C72_next",
    "Verif.Stellar.C72_next_unique",
    "Verif.Stellar.C72_day",
    "Verif.Stellar.C72_steady",
    "Verif.Stellar.C72_order",
    "Verif.Stellar.C72_round_trip",
    "Verif.Stellar.C72_leap_violated",
    "Verif.Stellar.C72_far_violated"
   ],
   "note": "Proved for exact numbers and a steadily turning Earth with leap seconds at least two days apart (C72_day needs neither). Missing: floating point, and variations of the rotation. An angle that falls into a leap second is given a time one second off; beyond about fourteen thousand years the whole day is wrong."
  },
  {
   "property": "C73",
   "status": "partial",
   "theorems": [
    "Verif.Grid.C73_leap_arrays_partial",
    "Verif.Grid.C73_era_to_unix_arrays_partial",
    "Verif.Grid.C73_era_arrays_partial",
    "Verif.Grid.C73_lsa_arrays_partial",
    "Verif.Grid.C73_lsa_to_unix_arrays_partial",
    "Verif.Grid.C73_lsd_arrays_partial",
    "Verif.Grid.C73_lsd_to_unix_arrays_partial",
    "Verif.Grid.C73_sidereal_arrays_partial",
    "Verif.Grid.C73_empty_shape_violated",
    "Verif.Forms.C73_era",
    "Verif.Forms.C73_leap",
    "Verif.Forms.C73_era_to_unix",
    "Verif.Forms.C73_lsa_to_unix",
    "Verif.Forms.C73_lsa",
    "Verif.Forms.C73_lengths",
    "Verif.Forms.C73_lsd",
    "Verif.Forms.C73_lsd_to_unix",
    "Verif.Forms.C73_zerod_violated",
    "Verif.Forms.C73_empty_violated",
    "Verif.Forms.C73_sidereal_partial",
    "Verif.Forms.C73_sidereal_violated",
    "Verif.Forms.C73_keywords_violated"
   ],
   "note": "Proved for numbers, lists, tuples and arrays of any shape, which are broadcast; for empty ones along one axis only. Violated: arrays without axes are refused; an empty list mixed with a number raises; the sidereal time of an empty list raises; an empty array with several axes gives one with one axis; calls with keyword arguments only are refused. Not covered: arrays of which an axis other than the first has length zero."
  },
  {
   "property": "C74",
   "status": "partial",
   "theorems": [
    "Verif.Fmt.C74_spellings",
    "Verif.Fmt.C74_copies",
    "Verif.Fmt.C74_hdf5",
    "Verif.Fmt.C74_zarr",
    "Verif.Fmt.C74_options",
    "Verif.Fmt.C74_names",
    "Verif.Fmt.C74_check",
    "Verif.Fmt.C74_datasets",
    "Verif.Fmt.C74_shorthand",
    "Verif.Fmt.C74_suffix_violated",
    "Verif.Fmt.C74_slash_violated",
    "Verif.Fmt.C74_filters_violated",
    "Verif.Fmt.C74_gzip_violated",
    "Verif.Fmt.C74_error_violated",
    "Verif.Fmt.C74_codec_violated",
    "Verif.Fmt.C74_stale_violated",
    "Verif.Fmt.C74_key_violated",
    "Verif.Fmt.C74_string_violated"
   ],
   "note": "Spellings, copies, refusals, guessing and checking of formats, and the settings of a task are proved for all inputs. Fails: an explicit format with an unknown suffix is refused; \"x.zarr/\" is not Zarr unless it exists; filters such as LZF cannot go to Zarr; gzip for Zarr needs bitshuffle; codecs other than LZ4 are not translated; TypeError instead of ValueError without options; an override of the filter keeps the old options; misspelt keys are ignored; \"32008\" is no shorthand."
  },
  {
   "property": "C75",
   "status": "partial",
   "theorems": [
    "Verif.Clock.C75_calendar",
    "Verif.Clock.C75_naive",
    "Verif.Clock.C75_from_unix",
    "Verif.Clock.C75_round_trip",
    "Verif.Clock.C75_strings_partial",
    "Verif.Clock.C75_sorted_partial",
    "Verif.Clock.C75_ensure_partial",
    "Verif.Clock.C75_time_of_day",
    "Verif.Clock.C75_reading",
    "Verif.Clock.C75_other",
    "Verif.Clock.C75_times_of_day_partial",
    "Verif.Clock.C75_zone_violated",
    "Verif.Clock.C75_year_violated",
    "Verif.Clock.C75_offset_violated",
    "Verif.Clock.C75_digits_violated",
    "Verif.Clock.C75_mixed_violated",
    "Verif.Clock.C75_empty_violated",
    "Verif.Clock.C75_midnight_violated"
   ],
   "note": "Calendar, round trips, rounding, order and ranges are proved for all dates over exact numbers; the calendar of datetime and the matching of strptime are modelled, not assumed. Fails: a datetime in another zone is written with its own hour and a Z; zones in strings are ignored; strings with a digit missing are read as another time; years before 1000 cannot be read back; lists of mixed kinds are refused; time_of_day of an empty list is an error; times of Skyfield are left out."
  },
  {
   "property": "C76",
   "status": "partial",
   "theorems": [
    "Verif.Store.C76_hdf5_partial",
    "Verif.Store.C76_serial_partial",
    "Verif.Store.C76_zarr",
    "Verif.Store.C76_round_trip",
    "Verif.Store.C76_to_file_partial",
    "Verif.Store.C76_refused",
    "Verif.Store.C76_handles",
    "Verif.Store.C76_communicator_violated",
    "Verif.Store.C76_leftover_violated",
    "Verif.Store.C76_serial_options_violated",
    "Verif.Store.C76_negative_axis_violated",
    "Verif.Store.C76_options_violated"
   ],
   "note": "Proved for arrays over all processes with a non-negative axis, for both kinds of file, in any order of the writes, and joined to C10 for reading back. Without parallel HDF5 the data is the same but chunks and compression are dropped. The code opens the file over all processes instead of the communicator of the array, leaves an empty dataset when it refuses compression, cannot write arrays over axis -1, and joins options of different filters (violated theorems)."
  },
  {
   "property": "C77",
   "status": "partial",
   "theorems": [
    "Verif.Arch.C77_distributed_partial",
    "Verif.Arch.C77_plain_partial",
    "Verif.Arch.C77_refused",
    "Verif.Arch.C77_failure_reported",
    "Verif.Arch.C77_no_axis",
    "Verif.Arch.C77_class_partial",
    "Verif.Arch.C77_hints_violated",
    "Verif.Arch.C77_marks_violated",
    "Verif.Arch.C77_chunks_violated",
    "Verif.Arch.C77_strings_violated",
    "Verif.Arch.C77_on_disk_violated",
    "Verif.Arch.C77_class_violated",
    "Verif.Arch.C77_stamp_violated"
   ],
   "note": "Round trip proved for distributed and plain trees, HDF5 (parallel, serial) and Zarr, any numbers of processes. Missing because the code does not have it: hints=False is ignored, marks come back as attributes, chunks are lost by distributed reading, strings in distributed datasets, objects on disk, classes that cannot be imported or were recorded before."
  },
  {
   "property": "C78",
   "status": "partial",
   "theorems": [
    "Verif.Reader.C78_reader",
    "Verif.Reader.C78_listing",
    "Verif.Reader.C78_selection",
    "Verif.Reader.C78_fixed",
    "Verif.Reader.C78_read_partial",
    "Verif.Reader.C78_centres",
    "Verif.Reader.C78_single_violated",
    "Verif.Reader.C78_dictionary_partial",
    "Verif.Reader.C78_dictionary_violated",
    "Verif.Reader.C78_nested_violated",
    "Verif.Reader.C78_history_violated",
    "Verif.Reader.C78_axes_violated"
   ],
   "note": "Datasets in groups are listed but not read, the history is lost, one selection is used for all time axes, one sample has no centre, and dictionaries are changed (negations proved). Proved for datasets in the root of files that are alike."
  },
  {
   "property": "C79",
   "status": "partial",
   "theorems": [
    "Verif.Sphere.C79_to_cartesian",
    "Verif.Sphere.C79_there_and_back_partial",
    "Verif.Sphere.C79_back_and_there",
    "Verif.Sphere.C79_origin_violated",
    "Verif.Sphere.C79_integers_violated",
    "Verif.Sphere.C79_dot_partial",
    "Verif.Sphere.C79_dot_violated",
    "Verif.Sphere.C79_plane",
    "Verif.Sphere.C79_plane_radius_violated",
    "Verif.Sphere.C79_normalise",
    "Verif.Sphere.C79_circle_partial",
    "Verif.Sphere.C79_equal_violated",
    "Verif.Sphere.C79_cosine"
   ],
   "note": "Round trips for every vector but the origin and all angles in range, scalar products, unit vectors as derivatives, normalisation, equal steps along great circles between different points that are not opposite, and the cosine rule are proved over the real numbers. Violated: the origin, arrays of integers, broadcasting in sph_dot, radii in thetaphi_plane_cart, equal points on a great circle."
  },
  {
   "property": "C80",
   "status": "partial",
   "theorems": [
    "Verif.Sphere.C80_ground",
    "Verif.Sphere.C80_ground_back_partial",
    "Verif.Sphere.C80_point",
    "Verif.Sphere.C80_horizon_violated",
    "Verif.Sphere.C80_projected",
    "Verif.Sphere.C80_projected_arrays_partial",
    "Verif.Sphere.C80_broadcast_violated",
    "Verif.Sphere.C80_angle",
    "Verif.Sphere.C80_metric",
    "Verif.Sphere.C80_rotate"
   ],
   "note": "Components to east, north and up, the inverse above the horizon and for every point in the unit circle, projected distances of single points and arrays of equal length, sphdist as a metric, and rotations are proved over the real numbers. Violated: sources below the horizon, broadcasting of one coordinate to the east."
  },
  {
   "property": "C81",
   "status": "partial",
   "theorems": [
    "Verif.Fourier.C81_transform",
    "Verif.Fourier.C81_back",
    "Verif.Fourier.C81_convolution",
    "Verif.Fourier.C81_window",
    "Verif.Fourier.C81_padded",
    "Verif.Fourier.C81_refused",
    "Verif.Fourier.C81_like_violated",
    "Verif.Fourier.C81_direction_violated"
   ],
   "note": "Transforms, round trip, convolution, windows and padding proved for all shapes and axes. Violations: array-likes refused as not initialised, RuntimeError instead of AttributeError for the wrong direction."
  },
  {
   "property": "C82",
   "status": "partial",
   "theorems": [
    "Verif.Fourier.C82_apply",
    "Verif.Fourier.C82_polyphase",
    "Verif.Fourier.C82_tone",
    "Verif.Fourier.C82_profile",
    "Verif.Fourier.C82_evaluate_partial",
    "Verif.Fourier.C82_norm_violated",
    "Verif.Fourier.C82_decorrelation_partial",
    "Verif.Fourier.C82_between",
    "Verif.Fourier.C82_odd_violated",
    "Verif.Fourier.C82_nyquist_violated",
    "Verif.Fourier.C82_oversample_violated"
   ],
   "note": "Channels, polyphase form, response to tones, profile proved. Violations: norm of the first call kept, odd sizes IndexError, highest frequency counted twice, oversample one. Decorrelation proved for even sizes, oversample at least 2, windows without highest frequency."
  },
  {
   "property": "C83",
   "status": "partial",
   "theorems": [
    "Verif.Build.C83_tasks",
    "Verif.Build.C83_builds",
    "Verif.Build.C83_mistake_partial",
    "Verif.Build.C83_inline_violated",
    "Verif.Build.C83_name_violated",
    "Verif.Build.C83_empty_group_violated",
    "Verif.Build.C83_not_task_violated",
    "Verif.Build.C83_unhashable_violated",
    "Verif.Build.C83_line_violated",
    "Verif.Build.C83_loaded"
   ],
   "note": "Tasks are as asked for, correct lists are built, mistakes are configuration errors and would tell the line if the mappings of the document carried one (C83_tasks, C83_builds, C83_mistake_partial). Shown to fail: no mapping that the YAML loader returns carries its line, so no error tells one (C83_line_violated); unknown inline parameters lose the line in any case; class names without a module give KeyError; classes given as lists and empty groups TypeError; names of other things AttributeError."
  },
  {
   "property": "C84",
   "status": "partial",
   "theorems": [
    "Verif.Build.C84_switches",
    "Verif.Build.C84_tasks",
    "Verif.Build.C84_given",
    "Verif.Build.C84_builds",
    "Verif.Build.C84_levels_partial",
    "Verif.Build.C84_pipeline_error_partial",
    "Verif.Build.C84_no_pipeline_violated",
    "Verif.Build.C84_key_pattern_violated",
    "Verif.Build.C84_lint_violated",
    "Verif.Build.C84_version_violated",
    "Verif.Build.C84_misspelt_violated",
    "Verif.Build.C84_save_config_violated",
    "Verif.Build.C84_new_first",
    "Verif.Build.C84_venv_partial",
    "Verif.Build.C84_venv_violated",
    "Verif.Build.C84_cluster_violated",
    "Verif.Build.C84_venv_type_violated"
   ],
   "note": "Switches, tasks, versions, saved document, completeness, and order of the module path hold. Shown to fail: key_pattern has no effect; no pipeline key is a KeyError; lint keeps DEBUG and ignores misspelt options; modules without a version; save_config off breaks writing tasks; Python >= 3.10 gets the directory of 3.1; empty cluster section."
  },
  {
   "property": "C85",
   "status": "partial",
   "theorems": [
    "Verif.Runner.C85_names",
    "Verif.Runner.C85_profiler_partial",
    "Verif.Runner.C85_path_violated",
    "Verif.Runner.C85_io",
    "Verif.Runner.C85_io_names",
    "Verif.Runner.C85_rows",
    "Verif.Runner.C85_stop",
    "Verif.Runner.C85_table_partial",
    "Verif.Runner.C85_header_violated",
    "Verif.Runner.C85_table_path_violated",
    "Verif.Runner.C85_peak_partial",
    "Verif.Runner.C85_peak_violated",
    "Verif.Runner.C85_human"
   ],
   "note": "The code violates it: the path given to Profiler is ignored (path_violated); a path for PSUtilProfiler is an AttributeError (table_path_violated); a profiler that is not used writes rows without a header if started and stopped directly (header_violated); the peak can be below the memory in use at the end (peak_violated). What is measured is given, not modelled."
  },
  {
   "property": "C86",
   "status": "partial",
   "theorems": [
    "Verif.Runner.C86_options",
    "Verif.Runner.C86_unknown",
    "Verif.Runner.C86_modules_partial",
    "Verif.Runner.C86_purge_violated",
    "Verif.Runner.C86_venv",
    "Verif.Runner.C86_run_partial",
    "Verif.Runner.C86_blank_violated",
    "Verif.Runner.C86_default_violated",
    "Verif.Runner.C86_pbs_violated",
    "Verif.Runner.C86_reads",
    "Verif.Runner.C86_status",
    "Verif.Runner.C86_submit_partial",
    "Verif.Runner.C86_mailtype_violated"
   ],
   "note": "The code violates it: a path for modules alone removes all modules (purge_violated); a blank in the job's directory breaks the command (blank_violated); the default profiler of queue is refused by run (default_violated); the pbs script drops the profiling options (pbs_violated); an address without a type of mail is a ValueError (mailtype_violated). The shell is modelled for words without special characters."
  },
  {
   "property": "C87",
   "status": "partial",
   "theorems": [
    "Verif.Loading.C87_cycle_partial",
    "Verif.Loading.C87_shared_violated",
    "Verif.Loading.C87_empty_violated",
    "Verif.Loading.C87_tag_violated",
    "Verif.Loading.C87_key_partial",
    "Verif.Loading.C87_keys_partial",
    "Verif.Loading.C87_same_key_violated",
    "Verif.Loading.C87_key_missing",
    "Verif.Loading.C87_attrs",
    "Verif.Loading.C87_paths",
    "Verif.Loading.C87_save_partial",
    "Verif.Loading.C87_save_violated"
   ],
   "note": "Order, keys, paths and files proved for all sequences. The code hands out the same object again, with all changes made to it since and with the tag of the first input; of two files with the same key the first is lost; no files is a ZeroDivisionError; Save overwrites a file if a tag is a number already given or repeated."
  },
  {
   "property": "C88",
   "status": "partial",
   "theorems": [
    "Verif.Loading.C88_zip_partial",
    "Verif.Loading.C88_failed",
    "Verif.Loading.C88_stale_violated",
    "Verif.Loading.C88_count_violated",
    "Verif.Loading.C88_starts",
    "Verif.Loading.C88_wait_partial",
    "Verif.Loading.C88_wait_violated",
    "Verif.Loading.C88_empty_violated"
   ],
   "note": "Each job is started by one process; contents proved for every interleaving, if names differ and no zip file was there before; waiting ends well exactly if all jobs did. The code adds to a zip file that is there before; containers without a tag share one name, since the task never counts; only the process that started a failed job raises, the others wait for ever; waiting for nothing is a TypeError."
  },
  {
   "property": "C89",
   "status": "partial",
   "theorems": [
    "Verif.Nodes.C89_cores_partial",
    "Verif.Nodes.C89_cores_violated",
    "Verif.Nodes.C89_memory_partial",
    "Verif.Nodes.C89_limit_violated",
    "Verif.Nodes.C89_node",
    "Verif.Nodes.C89_global_partial",
    "Verif.Nodes.C89_global_violated",
    "Verif.Nodes.C89_blocked_violated",
    "Verif.Nodes.C89_log",
    "Verif.Nodes.C89_level_partial",
    "Verif.Nodes.C89_level_violated"
   ],
   "note": "Node answers, memory of the group, log records proved. The code divides cores by the number of nodes instead of processes per node; a group without a limit has less than no memory; the global answer rounds down; an OSError on one process leaves the others waiting; level names in small letters are rejected."
  },
  {
   "property": "C90",
   "status": "partial",
   "theorems": [
    "Verif.Nodes.C90_wait_partial",
    "Verif.Nodes.C90_progress_partial",
    "Verif.Nodes.C90_ends",
    "Verif.Nodes.C90_first_violated",
    "Verif.Nodes.C90_lists_violated"
   ],
   "note": "No early release and no deadlock proved for all rounds and interleavings, if active and close get the same list with rank 0 in it. The code waits for ever if rank 0 is not active, and a list that differs releases a later wait early."
  },
  {
   "property": "C91",
   "status": "partial",
   "theorems": [
    "Verif.Roots.C91_hour_angle",
    "Verif.Roots.C91_transits_partial",
    "Verif.Roots.C91_step_partial",
    "Verif.Roots.C91_step_violated",
    "Verif.Roots.C91_twice_violated",
    "Verif.Roots.C91_default_interval",
    "Verif.Roots.C91_dec",
    "Verif.Roots.C91_rise_set",
    "Verif.Roots.C91_alternate_partial",
    "Verif.Roots.C91_altitude_partial",
    "Verif.Roots.C91_rise_missed_violated",
    "Verif.Roots.C91_place_partial",
    "Verif.Roots.C91_place_violated",
    "Verif.Roots.C91_equator"
   ],
   "note": "Proved when the cells of the search grid turn less than half a turn (true for the default step) and no grid point is itself an event; the code misses events for steps below the documented bound, returns an event on a grid point twice, and keeps using the location of its first use."
  },
  {
   "property": "C92",
   "status": "partial",
   "theorems": [
    "Verif.Handle.C92_init_close_partial",
    "Verif.Handle.C92_hdf5_violated",
    "Verif.Handle.C92_zarr_violated",
    "Verif.Handle.C92_from_file",
    "Verif.Handle.C92_from_file_modes",
    "Verif.Handle.C92_two",
    "Verif.Handle.C92_given",
    "Verif.Handle.C92_from_file_given",
    "Verif.Handle.C92_twice",
    "Verif.Handle.C92_distributed",
    "Verif.Handle.C92_comm",
    "Verif.Handle.C92_no_comm",
    "Verif.Handle.C92_refused_violated",
    "Verif.Handle.C92_lock_made",
    "Verif.Handle.C92_lock_partial",
    "Verif.Handle.C92_lock_violated",
    "Verif.Handle.C92_to_memory_partial",
    "Verif.Handle.C92_in_memory",
    "Verif.Handle.C92_to_memory_violated",
    "Verif.Handle.C92_to_disk_partial",
    "Verif.Handle.C92_to_disk_violated",
    "Verif.Handle.C92_to_disk_new_violated",
    "Verif.Handle.C92_to_disk_refused"
   ],
   "note": "Proved for guessed HDF5 names, from_file and what the caller opened; the code leaves HDF5 files open when the format is given, raises when closing zarr files, removes the lock directory at the first close, makes files for refused constructors and loses the data in to_disk with mode w."
  },
  {
   "property": "C93",
   "status": "partial",
   "theorems": [
    "Verif.Mem.C93_read",
    "Verif.Mem.C93_hidden",
    "Verif.Mem.C93_field_violated",
    "Verif.Mem.C93_list",
    "Verif.Mem.C93_refused",
    "Verif.Mem.C93_create_partial",
    "Verif.Mem.C93_create_group_partial",
    "Verif.Mem.C93_require",
    "Verif.Mem.C93_require_new_partial",
    "Verif.Mem.C93_parents_violated",
    "Verif.Mem.C93_slashes_violated",
    "Verif.Mem.C93_no_groups",
    "Verif.Mem.C93_container",
    "Verif.Mem.C93_container_create"
   ],
   "note": "Proved for reading, listing, deleting and for Containers; the code makes groups on the way to a dataset without asking, asks about names as written (doubled slashes), and raises AttributeError for names of fields."
  },
  {
   "property": "C94",
   "status": "partial",
   "theorems": [
    "Verif.Views.C94_view_partial",
    "Verif.Views.C94_older_violated",
    "Verif.Views.C94_chunks",
    "Verif.Views.C94_chunks_violated",
    "Verif.Views.C94_copy_keeps",
    "Verif.Views.C94_copy_apart_partial",
    "Verif.Views.C94_copy_violated",
    "Verif.Views.C94_redistribute",
    "Verif.Views.C94_missing",
    "Verif.Views.C94_set",
    "Verif.Views.C94_deleted_violated",
    "Verif.Views.C94_objects_partial",
    "Verif.Views.C94_objects_violated"
   ],
   "note": "Proved for contents, axis and attributes unless the dataset is replaced or redistributed through another object; the code cuts other objects off at a redistribution, redistributes the original with a copy and merges the two, keeps chunks and compression in the object only, and shares python objects that are deeper in the data type."
  },
  {
   "property": "C95",
   "status": "partial",
   "theorems": [
    "Verif.Rng.C95_repeat",
    "Verif.Rng.C95_processes",
    "Verif.Rng.C95_classes_partial",
    "Verif.Rng.C95_same_class_violated",
    "Verif.Rng.C95_checksum_violated",
    "Verif.Rng.C95_later_violated",
    "Verif.Rng.C95_jobs_violated"
   ],
   "note": "Proved for repeating a run through the configuration and for different processes; tasks of one class share their seeds, and so do classes whose names have the same Adler-32, jobs whose seeds differ by the checksum share the seeds of neighbours, and a seed set on a task that exists is ignored."
  },
  {
   "property": "C96",
   "status": "partial",
   "theorems": [
    "Verif.Nodes.C96_pairs",
    "Verif.Nodes.C96_check_partial",
    "Verif.Nodes.C96_all_partial",
    "Verif.Nodes.C96_timeout_violated"
   ],
   "note": "Proved for positive timeouts; a timeout that is not positive raises for every network."
  },
  {
   "property": "C97",
   "status": "partial",
   "theorems": [
    "Verif.Cont.C97_tables_partial",
    "Verif.Cont.C97_others",
    "Verif.Cont.C97_columns_partial",
    "Verif.Cont.C97_loaded_partial",
    "Verif.Cont.C97_class_axes",
    "Verif.Cont.C97_select_violated",
    "Verif.Cont.C97_loaded_violated",
    "Verif.Cont.C97_base_violated",
    "Verif.Cont.C97_derived_violated",
    "Verif.Cont.C97_failed_violated"
   ],
   "note": "Proved for constructed objects and all histories, under the condition on the MRO of C37. Violated by the code for loaded objects (tables unknown until an object is constructed, or taken from a base class), for selections along a table's axis, for a derived class that declares a dataset with the name of a base's table, and when a construction fails."
  },
  {
   "property": "C98",
   "status": "partial",
   "theorems": [
    "Verif.Tod.C98_rest_partial",
    "Verif.Tod.C98_succeeds",
    "Verif.Tod.C98_independent",
    "Verif.Tod.C98_shared_violated",
    "Verif.Tod.C98_history_violated",
    "Verif.Tod.C98_reverse_attrs_violated",
    "Verif.Tod.C98_strings_violated",
    "Verif.Tod.C98_tuple_violated",
    "Verif.Tod.C98_nothing",
    "Verif.Tod.C98_time_index",
    "Verif.Tod.C98_disk_index_violated"
   ],
   "note": "Proved for containers in memory and on disk: attributes, index maps, reverse maps and datasets without a time axis are those of the first input, exactly when the call succeeds, and independence of the inputs if the input or the output is on disk. Shown to fail: history and attributes of reverse maps are not copied; time index maps are never written in a file; arrays are shared in memory; strings of datasets are not converted; tuples are refused. Distributed containers are C99."
  },
  {
   "property": "C99",
   "status": "partial",
   "theorems": [
    "Verif.TodDist.C99_common",
    "Verif.TodDist.C99_distributed_partial",
    "Verif.TodDist.C99_file_violated",
    "Verif.TodDist.C99_time_axis_violated",
    "Verif.TodDist.C99_rows_violated"
   ],
   "note": "Proved for datasets that every process has whole (any number of axes), and for datasets distributed over another axis than that of the concatenation with output in memory, on every process, also those with an empty part. Violations proved: datasets distributed over the axis of the concatenation give outputs that are never distributed, with one row repeated, a ValueError, or a TypeError; with output to a file each process puts only its own part there. Filters, attributes and data types are not part of this model."
  },
  {
   "property": "C100",
   "status": "partial",
   "theorems": [
    "Verif.Config.Shared.C100_history_partial",
    "Verif.Config.Shared.C100_set_partial",
    "Verif.Config.Shared.C100_others_partial",
    "Verif.Config.Shared.C100_contents_partial",
    "Verif.Config.Shared.C100_given_partial",
    "Verif.Config.Shared.C100_two_names_violated",
    "Verif.Config.Shared.C100_order_violated",
    "Verif.Config.Shared.C100_default_violated",
    "Verif.Config.Shared.C100_config_violated",
    "Verif.Config.Shared.C100_lost_violated"
   ],
   "note": "The code violates part of the property. Proved for all histories if every property object has one attribute name: an operation does what it would with unused property objects, setting changes only the attribute that is set and gives what the conversion gives, reading and failing change nothing, a configuration changes only its object; if all conversions make new values, values that are read or given can be changed without effect on anything else. Negations: one property object under two names (setting one sets the other; whether a configuration is read depends on the order of use), defaults and configuration values shared by all objects if the conversion returns its argument, and changes lost for defaults that are converted on each read."
  },
  {
   "property": "C101",
   "status": "partial",
   "theorems": [
    "Verif.Split.C101_list_partial",
    "Verif.Split.C101_world_partial",
    "Verif.Split.C101_range_partial",
    "Verif.Split.C101_range_arguments",
    "Verif.Split.C101_draws_violated",
    "Verif.Split.C101_map_partial",
    "Verif.Split.C101_map_draws_violated",
    "Verif.Split.C101_no_wrong_result_partial",
    "Verif.Split.C101_raises",
    "Verif.Split.C101_exception_violated",
    "Verif.Split.C101_method_partial",
    "Verif.Split.C101_method_violated"
   ],
   "note": "Proved for the methods 'con' and 'alt', and for 'rand' when all processes have drawn the same permutation; for functions that raise, that no process returns a wrong or incomplete list and which processes raise. Violated: processes that draw different permutations (they do unless seeded alike) lose elements and results and have others twice; if the function raises on one process another waits for ever; an unknown method is accepted on a single process."
  },
  {
   "property": "C102",
   "status": "partial",
   "theorems": [
    "Verif.Pipe.C102_first",
    "Verif.Pipe.C102_alone_partial",
    "Verif.Pipe.C102_same_calls_partial",
    "Verif.Pipe.C102_never_stuck_partial",
    "Verif.Pipe.C102_ends_partial",
    "Verif.Pipe.C102_waits_violated",
    "Verif.Pipe.C102_exception_violated"
   ],
   "note": "Proved for methods that do the same on all processes up to the values of the products (return nothing, one product, as many products with None in the same places, stop, or raise): every process runs as it would alone, all make the same calls, none is stuck, and all end. The first process always runs as alone. For others it is false: a process can wait for ever or be told to run a task that it no longer has (negations proved). Communication inside the methods is not modelled."
  },
  {
   "property": "C103",
   "status": "partial",
   "theorems": [
    "Verif.Mem.Places.C103_name",
    "Verif.Mem.Places.C103_again",
    "Verif.Mem.Places.C103_parent",
    "Verif.Mem.Places.C103_root",
    "Verif.Mem.Places.C103_equal",
    "Verif.Mem.Places.C103_created_partial",
    "Verif.Mem.Places.C103_copy_own",
    "Verif.Mem.Places.C103_new_own",
    "Verif.Mem.Places.C103_trailing_violated",
    "Verif.Mem.Places.C103_kept_violated",
    "Verif.Mem.Places.C103_symmetric_violated",
    "Verif.Mem.Places.C103_detached_violated"
   ],
   "note": "Names, files, parents and equality of objects looked up at the same time are proved for every reachable state. Creation is proved for names that do not end in a slash. Fails: create_dataset('y/') returns a group (C103_trailing_violated); a kept dataset object is equal to the dataset that replaced it, and a copy to its original, as long as the contents agree (C103_kept_violated); a kept group object is equal to a dataset in its place, but not the other way round (C103_symmetric_violated); datasets in no tree are compared by name and contents (C103_detached_violated)."
  },
  {
   "property": "C104",
   "status": "partial",
   "theorems": [
    "Verif.Bessel.C104_family",
    "Verif.Bessel.C104_first_partial",
    "Verif.Bessel.C104_first_error",
    "Verif.Bessel.C104_arrays",
    "Verif.Bessel.C104_broadcast",
    "Verif.Bessel.C104_second_partial",
    "Verif.Bessel.C104_second_violated",
    "Verif.Bessel.C104_origin_violated"
   ],
   "note": "jl_d is the derivative where the values of jl are exact, and off by at most the errors of these values elsewhere (all orders, all z but zero). The code violates the rest: jl_d2 is not the second derivative (witness at order 0; the condition under which it is one is given), and neither is defined at zero. Floating point rounding is not modelled; scipy's function is taken to be exact."
  },
  {
   "property": "C105",
   "status": "partial",
   "theorems": [
    "Verif.Bessel.C105_exact_partial",
    "Verif.Bessel.C105_expansions",
    "Verif.Bessel.C105_accuracy_violated",
    "Verif.Bessel.C105_elementwise",
    "Verif.Bessel.C105_broadcast",
    "Verif.Bessel.C105_list_violated"
   ],
   "note": "Values are exact outside the regions of the approximations; inside they are the expansions of Gradshteyn and Ryzhik, used where they are defined; shapes and broadcasting. Not shown: how close the expansions are for orders above 20. Violated: at order 1 and small arguments the value is more than a tenth too small; for lists only the first value is returned. Floating point rounding is not modelled."
  },
  {
   "property": "C106",
   "status": "partial",
   "theorems": [
    "Verif.Names.C106_defined",
    "Verif.Names.C106_prefixed_partial",
    "Verif.Names.C106_unknown_partial",
    "Verif.Names.C106_words",
    "Verif.Names.C106_underscore_violated",
    "Verif.Names.C106_any_pair_violated",
    "Verif.Names.C106_error_violated"
   ],
   "note": "Defined names, aliases, prefix and unit in one word each, and unknown names, for every table and every name. Violated by the code: a unit with an underscore in its name cannot have a prefix; any two constants are multiplied, prefix or not; names that are no numbers give TypeError."
  },
  {
   "property": "C107",
   "status": "partial",
   "theorems": [
    "Verif.Ephem.C107_directory",
    "Verif.Ephem.C107_once",
    "Verif.Ephem.C107_versions",
    "Verif.Ephem.C107_mirror",
    "Verif.Ephem.C107_retry",
    "Verif.Ephem.C107_reload_partial",
    "Verif.Ephem.C107_reload_violated",
    "Verif.Ephem.C107_leap_violated"
   ],
   "note": "All sequences of uses and reloads, all behaviours of the sources. Violated: a reload does not change what was loaded before, and does not reload the leap seconds; C107_reload_partial is for a wrapper that has loaded nothing and the file that is reloaded. The loader of skyfield is modelled from its documentation."
  },
  {
   "property": "C108",
   "status": "partial",
   "theorems": [
    "Verif.Dirs.C108_together_partial",
    "Verif.Dirs.C108_only",
    "Verif.Dirs.C108_alone_partial",
    "Verif.Dirs.C108_task_partial",
    "Verif.Dirs.C108_race_violated",
    "Verif.Dirs.C108_plain_violated"
   ],
   "note": "Proved for groups and containers: any number of processes, any interleaving, other programs making directories. read_process_write fails in a race (witness) and is proved for a process alone; plain file names fail for it and for groups (proved). Permissions and links are not modelled."
  },
  {
   "property": "C109",
   "status": "partial",
   "theorems": [
    "Verif.Chunks.C109_nothing_lost",
    "Verif.Chunks.C109_no_deadlock",
    "Verif.Chunks.C109_array_partial",
    "Verif.Chunks.C109_locks_gone_partial",
    "Verif.Chunks.C109_locks_left_violated"
   ],
   "note": "Any number of processes and calls, all interleavings: nothing is lost, no deadlock, bounded number of steps, lock files removed; for the block split of an array as corollary. The name of the lock directory is wrong for files in other directories, and directories are left behind (violated). Not modelled: making of the dataset, failing processes."
  },
  {
   "property": "C110",
   "status": "partial",
   "theorems": [
    "Verif.Abort.C110_ends_partial",
    "Verif.Abort.C110_result_partial",
    "Verif.Abort.C110_codes",
    "Verif.Abort.C110_quiet_violated",
    "Verif.Abort.C110_without"
   ],
   "note": "All interleavings, any number of processes: no deadlock, bounded steps, exit code 1 for all exactly if one failed, for exceptions that reach the handler. Violated for EOFError and broken pipes, which click turns into a quiet exit: then no process ever ends. Tasks are abstract lists of operations."
  },
  {
   "property": "C111",
   "status": "partial",
   "theorems": [
    "Verif.Glob.C111_matching",
    "Verif.Glob.C111_star",
    "Verif.Glob.C111_pattern",
    "Verif.Glob.C111_listing",
    "Verif.Glob.C111_literal_partial",
    "Verif.Glob.C111_sequence",
    "Verif.Glob.C111_times_partial",
    "Verif.Glob.C111_numbers_violated",
    "Verif.Glob.C111_brackets_violated",
    "Verif.Glob.C111_bytes_violated",
    "Verif.Glob.C111_refused"
   ],
   "note": "Proved for all directory trees, orders of listing and contents: a pattern, with wildcards in names of files and directories, stands for exactly the files that fit it in the documented sense (stars, question marks, sets, negated sets), each once and ascending by path; any pattern gives the same files and data for every order of listing; sequences keep their order; the joined times ascend if later files have later names. Violated (proved): numbers without leading zeros join in the wrong order; a file with brackets in its name is not found under its name, and another may be found instead; a name given as bytes, an allowed type, is an AttributeError; a name of no file is an IndexError."
  },
  {
   "property": "C112",
   "status": "partial",
   "theorems": [
    "Verif.Fit.C112_missing",
    "Verif.Fit.C112_spec",
    "Verif.Fit.C112_set",
    "Verif.Fit.C112_defaults_partial",
    "Verif.Fit.C112_fits_partial",
    "Verif.Fit.C112_selection_violated",
    "Verif.Fit.C112_create_violated",
    "Verif.Fit.C112_empty_violated",
    "Verif.Fit.C112_none_violated"
   ],
   "note": "Violated for selections of a file, which keep the chunks of the whole and then cannot be written; for chunks given to create_dataset by hand; for empty axes; for specifications with chunks: None; and defaults are filled in even where chunks are not allowed. The invariant holds for all sequences of the other operations."
  },
  {
   "property": "C113",
   "status": "partial",
   "theorems": [
    "Verif.Pipe.C113_steps",
    "Verif.Pipe.C113_one_round",
    "Verif.Pipe.C113_count",
    "Verif.Pipe.C113_run",
    "Verif.Pipe.C113_resume_partial",
    "Verif.Pipe.C113_resume_ends_partial",
    "Verif.Pipe.C113_restart_violated",
    "Verif.Pipe.C113_left_violated"
   ],
   "note": "Violated by the code when a runner is left after the first task has finished and a new one is made (C113_restart_violated, C113_left_violated). Stepping, counting of rounds and run() are proved for every pattern of interactive mode; new runners made before the first task has finished, or after all have, are covered by the _partial theorems. New runners after an exception are the subject of C128. Not covered: changes the user makes to the tasks while the runner is frozen."
  },
  {
   "property": "C114",
   "status": "partial",
   "theorems": [
    "Verif.Pipe.C114_highest_partial",
    "Verif.Pipe.C114_products_first",
    "Verif.Pipe.C114_one_source_at_a_time",
    "Verif.Pipe.C114_source_base_violated",
    "Verif.Pipe.C114_pile_violated",
    "Verif.Pipe.C114_turns_violated"
   ],
   "note": "Proved for every run: the choice among tasks that can do something (priority, base priority, order of the configuration), that tasks without inputs are asked only when nothing else can be done, and that they run one after another. The code does not have the rest: base priorities of tasks without inputs are ignored, tasks do not take turns, and a base priority of 10 is not always enough (negations proved). Floating point of priorities above 2^53 is not modelled."
  },
  {
   "property": "C115",
   "status": "partial",
   "theorems": [
    "Verif.Proto.C115_common_partial",
    "Verif.Proto.C115_zeros",
    "Verif.Proto.C115_refused",
    "Verif.Proto.C115_axis",
    "Verif.Proto.C115_distributed_partial",
    "Verif.Proto.C115_global_shape_partial",
    "Verif.Proto.C115_convert_violated",
    "Verif.Proto.C115_other_axis_violated",
    "Verif.Proto.C115_other_axis_raises_violated",
    "Verif.Proto.C115_disagree_violated",
    "Verif.Proto.C115_plain_violated",
    "Verif.Proto.C115_serial_violated",
    "Verif.Proto.C115_scalar_violated",
    "Verif.Proto.C115_unset_violated",
    "Verif.Proto.C115_list_violated",
    "Verif.Proto.C115_other_shape"
   ],
   "note": "Proved: ordinary datasets from arrays or data on disk of the same shape, zeros without data, refusal in groups that are not distributed; datasets from distributed arrays without a type or shape of their own, and with their global shape and axis and any type. Fails: a distributed array that is to be converted loses the rows of other processes when no shape is given; with its shape and another axis it is not redistributed, and elements are repeated or it raises; processes compare the shape with their own block, so that one can raise or wait for ever while another goes on; ordinary data is refused for distributed datasets; without mpi4py nothing can be made in a distributed group; data without axes cannot be converted; distributed datasets are not zeroed; lists are refused. With a shape that differs from that of ordinary data the elements are repeated along axes of length one, or the call raises."
  },
  {
   "property": "C116",
   "status": "partial",
   "theorems": [
    "Verif.Serial.C116_lists",
    "Verif.Serial.C116_map",
    "Verif.Serial.C116_create",
    "Verif.Serial.C116_read_zarr",
    "Verif.Serial.C116_read_mpi",
    "Verif.Serial.C116_wrap_mpi",
    "Verif.Serial.C116_names",
    "Verif.Serial.C116_wrap_violated",
    "Verif.Serial.C116_copy_violated",
    "Verif.Serial.C116_ufunc_violated",
    "Verif.Serial.C116_allreduce_violated",
    "Verif.Serial.C116_read_violated",
    "Verif.Serial.C116_redistribute_violated",
    "Verif.Serial.C116_gather_violated",
    "Verif.Serial.C116_write_violated",
    "Verif.Serial.C116_write_zarr_violated",
    "Verif.Serial.C116_write_open_violated"
   ],
   "note": "Proved: sharing out lists, parallel_map, new arrays, reading from Zarr and the names of mpitools, the same with mpi4py and without. Violated without mpi4py: an array cannot be wrapped, copied, computed with, reduced, redistributed, gathered, read from HDF5 or written; writing to HDF5 fills the dataset with zeros before it raises. Containers fall back to ordinary datasets and are not part of this model."
  },
  {
   "property": "C117",
   "status": "partial",
   "theorems": [
    "Verif.Look.C117_shown",
    "Verif.Look.C117_kept",
    "Verif.Look.C117_write_memory",
    "Verif.Look.C117_write_disk_violated",
    "Verif.Look.C117_sound",
    "Verif.Look.C117_itself",
    "Verif.Look.C117_single_partial",
    "Verif.Look.C117_compare_violated",
    "Verif.Look.C117_raises",
    "Verif.Look.C117_order_violated",
    "Verif.Look.C117_datasets",
    "Verif.Look.C117_data",
    "Verif.Look.C117_empty_name",
    "Verif.Look.C117_disk_violated"
   ],
   "note": "Proved: what index_map shows, that it is kept whatever is done to the axes later, that equal mappings have the same names and values, that a mapping equals itself, that comparison is right for axes with one entry each, exactly when it raises; datasets; data and weight in memory. Fails: comparison raises for axes with two entries or more, depending on the order of the names; on disk writing into index_map is lost and data and weight raise TypeError."
  },
  {
   "property": "C118",
   "status": "partial",
   "theorems": [
    "Verif.Log.C118_shown_partial",
    "Verif.Log.C118_one_level",
    "Verif.Log.C118_own_partial",
    "Verif.Log.C118_same_class_violated",
    "Verif.Log.C118_repeated_violated",
    "Verif.Log.C118_debug_info_violated",
    "Verif.Log.C118_left_over_violated",
    "Verif.Log.C118_no_handlers",
    "Verif.Log.C118_columns"
   ],
   "note": "Proved for all options and tasks: a message is shown exactly if its level reaches that of the longest name given and that of the logging task, with at most one logging task; a task has the level it asks for if no later task of its class asks for another; columns have equal width. Violated: tasks of one class share one level, which also stays for later pipelines; a second logging task does not replace the first; levels given to DebugInfo are not used."
  },
  {
   "property": "C119",
   "status": "partial",
   "theorems": [
    "Verif.Tasks.TimeLimit.C119_slurm_partial",
    "Verif.Tasks.TimeLimit.C119_colons_violated",
    "Verif.Tasks.TimeLimit.C119_octal_violated",
    "Verif.Tasks.TimeLimit.C119_pbs_partial"
   ],
   "note": "For slurm the limit keeps its meaning for quoted texts, decimal numbers and texts that YAML does not take for a number; each unquoted text with colons means 60 times as much (negation for all of them). For PBS it keeps its meaning except for numbers that begin with 0."
  },
  {
   "property": "C120",
   "status": "partial",
   "theorems": [
    "Verif.Tasks.Systems.C120_named_partial",
    "Verif.Tasks.Systems.C120_refused",
    "Verif.Tasks.Systems.C120_unknown_violated",
    "Verif.Tasks.Systems.C120_half_violated",
    "Verif.Tasks.Systems.C120_mail_partial",
    "Verif.Tasks.Systems.C120_mail_violated",
    "Verif.Tasks.Systems.C120_no_system_violated",
    "Verif.Tasks.Systems.C120_command_violated"
   ],
   "note": "Registered systems can be named with the description given last, for all sequences of complete files; incomplete ones and missing keys are refused. Negations: unknown systems, files refused half way, mail types of replaced descriptions, missing key system, and the command."
  },
  {
   "property": "C121",
   "status": "partial",
   "theorems": [
    "Verif.Dist.C121_common",
    "Verif.Dist.C121_length_partial",
    "Verif.Dist.C121_rows_partial",
    "Verif.Dist.C121_first_axis_violated",
    "Verif.Dist.C121_equal_partial",
    "Verif.Dist.C121_disagree_violated",
    "Verif.Dist.C121_axes_violated",
    "Verif.Dist.C121_kinds_violated",
    "Verif.Dist.C121_common_equal_partial",
    "Verif.Dist.C121_no_axes_violated"
   ],
   "note": "Length and rows are right for common datasets and for distributed ones unless the first axis is the distributed one; equality is right for common datasets with axes, and for distributed ones over the same axis if all processes are asked. The code violates the rest: the first axis distributed, processes that disagree, arrays that are the same but distributed differently, arrays without axes."
  },
  {
   "property": "C122",
   "status": "partial",
   "theorems": [
    "Verif.Types.ByteOrder.C122_values",
    "Verif.Types.ByteOrder.C122_native_partial",
    "Verif.Types.ByteOrder.C122_kept",
    "Verif.Types.ByteOrder.C122_compound_violated",
    "Verif.Types.ByteOrder.C122_other_violated"
   ],
   "note": "Values are kept for all types, marks and machines; simple types in the order of the machine become native, what can be sent is not touched. The code violates the rest: compound types keep the marks of their fields, and arrays in the other order stay in it."
  },
  {
   "property": "C123",
   "status": "partial",
   "theorems": [
    "Verif.Build.C123_like_run",
    "Verif.Build.C123_accepts_partial",
    "Verif.Build.C123_each_partial",
    "Verif.Build.C123_first_error",
    "Verif.Build.C123_local",
    "Verif.Build.C123_rest_violated",
    "Verif.Build.C123_path_violated",
    "Verif.Build.C123_modules_violated",
    "Verif.Build.C123_run_violated",
    "Verif.Build.C123_cluster_violated"
   ],
   "note": "Proved: with and without checking only, a document gives the same tasks or the same error; a file without an environment is accepted exactly if run could set it up; if no file names an environment the list is accepted exactly if each file is accepted alone; the error is that of the first wrong file. Shown to fail: the environment of a file and the modules imported for it stay for later files (a wrong file is accepted, a right one refused); files after a wrong one are not checked; run does not activate the environment that the check does; an empty section cluster is a TypeError. Not modelled: modules imported by modules."
  },
  {
   "property": "C124",
   "status": "partial",
   "theorems": [
    "Verif.Pipe.C124_given_partial",
    "Verif.Pipe.C124_collected_partial",
    "Verif.Pipe.C124_through_partial",
    "Verif.Pipe.C124_ends",
    "Verif.Pipe.C124_runs",
    "Verif.Pipe.C124_none_violated",
    "Verif.Pipe.C124_tuple_violated",
    "Verif.Pipe.C124_given_list",
    "Verif.Pipe.C124_array_violated",
    "Verif.Pipe.C124_callback_violated",
    "Verif.Pipe.C124_again_violated"
   ],
   "note": "In every run that ends the products under the key of an Input are those of its items, and outputs is the callback over all products under its key, whatever else is in the pipeline; runs end, and exist for every list and callback. Violated for None and tuples among the items, arrays, callbacks that count as false, and a second use."
  },
  {
   "property": "C125",
   "status": "partial",
   "theorems": [
    "Verif.Mem.C125_groups",
    "Verif.Mem.C125_datasets_partial",
    "Verif.Mem.C125_datasets_same",
    "Verif.Mem.C125_again",
    "Verif.Mem.C125_again_require_partial",
    "Verif.Mem.C125_left_violated",
    "Verif.Mem.C125_slash_violated"
   ],
   "note": "create_group, require_group and del that raise leave the very same tree; create_dataset and require_dataset change nothing that was there, add at most empty groups on the way, and can be repeated with the same outcome. The code violates the rest: the groups on the way are left behind, and with a trailing slash require_dataset cannot be repeated. The arguments of create_dataset other than the name are represented by the dataset or exception they lead to."
  },
  {
   "property": "C126",
   "status": "partial",
   "theorems": [
    "Verif.Config.C126_same",
    "Verif.Config.C126_warned_partial",
    "Verif.Config.C126_quiet",
    "Verif.Config.C126_access",
    "Verif.Config.C126_set",
    "Verif.Config.C126_strict_partial",
    "Verif.Config.C126_overridden_violated",
    "Verif.Config.C126_key_violated",
    "Verif.Config.C126_strict_violated"
   ],
   "note": "Proved for all hierarchies, objects and configurations: results are those without the marks, the warnings of a configuration are those of the deprecated declarations whose key it has, in order (for attributes declared once: each deprecated property that is set, once), access warns exactly if the declaration in use is deprecated, nothing else warns, and with warnings as errors deprecated properties are refused. The code violates the rest: overridden declarations warn too, the warning has the attribute name instead of the key, and a refused configuration has set the value (negations proved)."
  },
  {
   "property": "C127",
   "status": "partial",
   "theorems": [
    "Verif.Deco.C127_vectorize",
    "Verif.Deco.C127_order",
    "Verif.Deco.C127_raises",
    "Verif.Deco.C127_untyped_partial",
    "Verif.Deco.C127_scalarize_partial",
    "Verif.Deco.C127_empty",
    "Verif.Deco.C127_listize",
    "Verif.Deco.C127_first_violated",
    "Verif.Deco.C127_no_axes_violated",
    "Verif.Deco.C127_empty_violated",
    "Verif.Deco.C127_keywords_violated"
   ],
   "note": "Shape, elements, order and errors of vectorize are decided exactly for all functions, shapes and numbers of arguments if otypes are given, and without them if all results have one type; scalarize and listize of elementwise functions are elementwise for all forms. The code violates the rest: without otypes the first result decides the type, scalarize refuses arrays without axes and calls without positional arguments and loses axes of arrays without elements (negations proved)."
  },
  {
   "property": "C128",
   "status": "partial",
   "theorems": [
    "Verif.Pipe.C128_when",
    "Verif.Pipe.C128_again_partial",
    "Verif.Pipe.C128_as_none",
    "Verif.Pipe.C128_account_partial",
    "Verif.Pipe.C128_ends_partial",
    "Verif.Pipe.C128_lost_violated",
    "Verif.Pipe.C128_outputs_violated",
    "Verif.Pipe.C128_half",
    "Verif.Pipe.C128_refused_violated"
   ],
   "note": "Proved: an exception comes out exactly if the runner of C20 fails; setup and finish that raised are called again with the same arguments in every new run that ends; after an exception of next the new run is, round by round, the one after a call that returned None; over any number of runs after exceptions of any hooks the account of products stays exact, and such runs end under the conditions of C22; where a refused product has been queued. Violated: products of a failed next are lost; outputs of a wrong number are lost; a product refused by one task is not given to the tasks after it."
  },
  {
   "property": "C129",
   "status": "partial",
   "theorems": [
    "Verif.Tasks.C129_each_partial",
    "Verif.Tasks.C129_complete_partial",
    "Verif.Tasks.C129_names",
    "Verif.Tasks.C129_others",
    "Verif.Tasks.C129_file_name",
    "Verif.Tasks.C129_early_violated",
    "Verif.Tasks.C129_mixed_violated",
    "Verif.Tasks.C129_root_violated"
   ],
   "note": "Proved for every list of such tasks, number of processes, previous contents and interleaving of opens and partial writes: when all processes are through, every file is exactly its document (C129_complete_partial, all processes having the same document; C129_each_partial: for each file it is enough that all are through with the tasks that write it); names of files differ if kinds or roots differ, other files are never touched. Violated by the code: a process that has set the task up may find the file empty again (C129_early_violated), processes with different versions leave a mixture (C129_mixed_violated), and a missing root is not refused (C129_root_violated). The text of yaml.safe_dump is a parameter."
  }
 ]
}