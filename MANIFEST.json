{
 "claims": [
  {
   "property": "C01",
   "status": "proved",
   "theorems": [
    "Utils.Props.C01_is_power_of_2"
   ],
   "note": ""
  },
  {
   "property": "C02",
   "status": "proved",
   "theorems": [
    "Utils.Props.C02_next_multiple_of",
    "Utils.Props.C02_next_multiple_of_assert"
   ],
   "note": ""
  },
  {
   "property": "C03",
   "status": "proved",
   "theorems": [
    "Utils.Props.C03_next_multiple_of_typed",
    "Utils.Props.C03_next_multiple_of_too_big"
   ],
   "note": ""
  },
  {
   "property": "C04",
   "status": "proved",
   "theorems": [
    "Utils.Props.C04_skip_to_align",
    "Utils.Props.C04_skip_to_align_assert"
   ],
   "note": ""
  },
  {
   "property": "C05",
   "status": "proved",
   "theorems": [
    "Utils.Props.C05_is_aligned",
    "Utils.Props.C05_is_aligned_assert"
   ],
   "note": ""
  },
  {
   "property": "C06",
   "status": "proved",
   "theorems": [
    "Utils.Props.C06_greatest_divisor",
    "Utils.Props.C06_greatest_divisor_zero",
    "Utils.Props.C06_greatest_divisor_bool"
   ],
   "note": ""
  },
  {
   "property": "C07",
   "status": "proved",
   "theorems": [
    "Utils.Props.C07_bits_count",
    "Utils.Props.C07_nbits_occupied",
    "Utils.Props.C07_agree"
   ],
   "note": ""
  },
  {
   "property": "C08",
   "status": "proved",
   "theorems": [
    "Utils.Props.C08_num_bits_table"
   ],
   "note": ""
  },
  {
   "property": "C09",
   "status": "proved",
   "theorems": [
    "Utils.Props.C09_max_alignment_inside_block",
    "Utils.Props.C09_int_shift_limits",
    "Utils.Props.C09_undefined_for_large_blocks",
    "Utils.Props.C09_wrong_for_medium_blocks",
    "Utils.Props.C09_assert"
   ],
   "note": "Stated for A + S <= 2^31; beyond it the int shift gives a wrong value or undefined behaviour (C09_int_shift_limits, C09_undefined_for_large_blocks)."
  },
  {
   "property": "C10",
   "status": "proved",
   "theorems": [
    "Utils.Props.C10_uint_from_nbits",
    "Utils.Props.C10_uint_from_nbits_rejected",
    "Utils.Props.C10_serialize_type",
    "Utils.Props.C10_uint_from_nbytes"
   ],
   "note": ""
  },
  {
   "property": "C11",
   "status": "proved",
   "theorems": [
    "Utils.Props.C11_clz",
    "Utils.Props.C11_clz_rejected",
    "Utils.Props.C11_platforms"
   ],
   "note": ""
  },
  {
   "property": "C12",
   "status": "proved",
   "theorems": [
    "Utils.Props.C12_ctz",
    "Utils.Props.C12_ctz_rejected",
    "Utils.Props.C12_platforms"
   ],
   "note": ""
  },
  {
   "property": "C13",
   "status": "proved",
   "theorems": [
    "Utils.Props.C13_crafted_agrees",
    "Utils.Props.C13_zero"
   ],
   "note": ""
  },
  {
   "property": "C14",
   "status": "proved",
   "theorems": [
    "Utils.Props.C14_get_alignment",
    "Utils.Props.C14_null"
   ],
   "note": ""
  },
  {
   "property": "C15",
   "status": "partial",
   "theorems": [
    "Utils.Props.C15_div_const_partial",
    "Utils.Props.C15_div_partial",
    "Utils.Props.C15_div_as_partial",
    "Utils.Props.C15_zero",
    "Utils.Props.C15_div_as_wrapped",
    "Utils.Props.C15_div_as_zero",
    "Utils.Props.C15_counterexample_large_unsigned",
    "Utils.Props.C15_counterexample_mixed_sign",
    "Utils.Props.C15_counterexample_min",
    "Utils.Props.C15_run_time_halving_wrong",
    "Utils.Props.C15_const_iff",
    "Utils.Props.C15_run_iff"
   ],
   "note": "False in general: run-time branch converts to long long. Missing: operands not representable in the common type or long long, and min / -1. Counterexamples proved. C15_const_iff and C15_run_iff are the exact conditions."
  },
  {
   "property": "C16",
   "status": "proved",
   "theorems": [
    "Utils.Props.C16_shift_right",
    "Utils.Props.C16_shift_left",
    "Utils.Props.C16_shift_assert"
   ],
   "note": ""
  },
  {
   "property": "C17",
   "status": "proved",
   "theorems": [
    "Utils.Props.C17_sum_size",
    "Utils.Props.C17_sum_size_empty"
   ],
   "note": ""
  },
  {
   "property": "C18",
   "status": "proved",
   "theorems": [
    "Utils.Props.C18_memvcmp",
    "Utils.Props.C18_rejects"
   ],
   "note": ""
  },
  {
   "property": "C19",
   "status": "proved",
   "theorems": [
    "Utils.Props.C19_is_equal",
    "Utils.Props.C19_too_many"
   ],
   "note": ""
  },
  {
   "property": "C20",
   "status": "partial",
   "theorems": [
    "Utils.Props.C20_fill_partial",
    "Utils.Props.C20_elements",
    "Utils.Props.C20_counterexample",
    "Utils.Props.C20_iff"
   ],
   "note": "False for values changed by being moved from (C20_counterexample); C20_elements gives the elements for every type. C20_iff is the exact condition."
  },
  {
   "property": "C21",
   "status": "partial",
   "theorems": [
    "Utils.Props.C21_elements",
    "Utils.Props.C21_ascending_partial",
    "Utils.Props.C21_descending",
    "Utils.Props.C21_counterexample_wrap",
    "Utils.Props.C21_accepted",
    "Utils.Props.C21_rejected",
    "Utils.Props.C21_zero_step",
    "Utils.Arrays.Utils.Props.C21_iff",
    "Utils.Arrays.Utils.Props.C21_signs"
   ],
   "note": "False for descending ranges (C21_descending) and when the step wraps inside the type (C21_counterexample_wrap). C21_elements covers both directions. C21_iff is the exact condition for ascending ranges."
  },
  {
   "property": "C22",
   "status": "proved",
   "theorems": [
    "Utils.Props.C22_concatenate",
    "Utils.Props.C22_positions"
   ],
   "note": ""
  },
  {
   "property": "C23",
   "status": "proved",
   "theorems": [
    "Utils.Props.C23_at",
    "Utils.Props.C23_at_with_predicate",
    "Utils.Props.C23_index_of",
    "Utils.Props.C23_first_index_of_type",
    "Utils.Props.C23_count_of"
   ],
   "note": ""
  },
  {
   "property": "C24",
   "status": "partial",
   "theorems": [
    "Utils.Props.C24_exact",
    "Utils.Props.C24_contains_partial",
    "Utils.Props.C24_contains_all",
    "Utils.Props.C24_counterexample",
    "Utils.Props.C24_contains_empty_list",
    "Utils.Props.C24_is_type_list"
   ],
   "note": "False for queries that are themselves type lists (C24_counterexample). Proved for all other queries; C24_contains_all gives what type-list queries compute. C24_exact answers every query."
  },
  {
   "property": "C25",
   "status": "proved",
   "theorems": [
    "Utils.Props.C25_contains_copies",
    "Utils.Props.C25_is_same",
    "Utils.Props.C25_value_list"
   ],
   "note": ""
  },
  {
   "property": "C26",
   "status": "proved",
   "theorems": [
    "Utils.Props.C26_filter"
   ],
   "note": ""
  },
  {
   "property": "C27",
   "status": "proved",
   "theorems": [
    "Utils.Props.C27_min_sizeof_index",
    "Utils.Props.C27_max_sizeof_index",
    "Utils.Props.C27_min_exact",
    "Utils.Props.C27_max_exact"
   ],
   "note": ""
  },
  {
   "property": "C28",
   "status": "proved",
   "theorems": [
    "Utils.Props.C28_sublist",
    "Utils.Props.C28_sublist_zero",
    "Utils.Props.C28_exclude_at"
   ],
   "note": ""
  },
  {
   "property": "C29",
   "status": "proved",
   "theorems": [
    "Utils.Props.C29_sort_ascending",
    "Utils.Props.C29_sort_descending"
   ],
   "note": ""
  },
  {
   "property": "C30",
   "status": "proved",
   "theorems": [
    "Utils.Props.C30_concatenate",
    "Utils.Props.C30_concatenate_assoc"
   ],
   "note": ""
  },
  {
   "property": "C31",
   "status": "proved",
   "theorems": [
    "Utils.Props.C31_cartesian_product",
    "Utils.Props.C31_cartesian_product_rejected"
   ],
   "note": "The last list may be empty; any other empty list does not compile (C31_cartesian_product_rejected)."
  },
  {
   "property": "C32",
   "status": "proved",
   "theorems": [
    "Utils.Props.C32_lookup",
    "Utils.Props.C32_at",
    "Utils.Props.C32_list_all_of",
    "Utils.Props.C32_min",
    "Utils.Props.C32_max",
    "Utils.Props.C32_contains_type"
   ],
   "note": ""
  },
  {
   "property": "C33",
   "status": "proved",
   "theorems": [
    "Utils.Props.C33_has",
    "Utils.Props.C33_remove",
    "Utils.Props.C33_signature",
    "Utils.Props.C33_ellipsis"
   ],
   "note": ""
  },
  {
   "property": "C34",
   "status": "proved",
   "theorems": [
    "Utils.Props.C34_padding",
    "Utils.Props.C34_not_trivially_copyable",
    "Utils.Props.C34_rejected",
    "Utils.Props.C34_layout"
   ],
   "note": ""
  },
  {
   "property": "C35",
   "status": "proved",
   "theorems": [
    "Utils.Props.C35_secure_zero_memory",
    "Utils.Props.C35_writes_all",
    "Utils.Props.C35_secure_zero_memory_safe"
   ],
   "note": ""
  },
  {
   "property": "C36",
   "status": "partial",
   "theorems": [
    "Utils.Props.C36_iff",
    "Utils.Props.C36_memmove_partial",
    "Utils.Props.C36_constant_evaluation",
    "Utils.Props.C36_counterexample"
   ],
   "note": "False in constant evaluation when the destination starts inside the source (C36_counterexample); C36_constant_evaluation gives the result there. Run-time branch: proved for every overlap from the contract of std::memmove. C36_iff is the exact condition in constant evaluation."
  },
  {
   "property": "C37",
   "status": "partial",
   "theorems": [
    "Utils.Props.C37_memcpy",
    "Utils.Props.C37_constant_partial",
    "Utils.Props.C37_to_bool",
    "Utils.Props.C37_iff",
    "Utils.Props.C37_counterexample",
    "Utils.Props.C37_null"
   ],
   "note": "False in constant evaluation: copying to bool writes whether each byte is nonzero (C37_counterexample, C37_to_bool), and void pointers do not compile there. C37_memcpy is the run-time half without conditions; C37_constant_partial the other half under the exact condition (C37_iff)."
  },
  {
   "property": "C38",
   "status": "partial",
   "theorems": [
    "Utils.Props.C38_unwrapped_partial",
    "Utils.Props.C38_safe_partial",
    "Utils.Props.C38_wrapped",
    "Utils.Props.C38_iff",
    "Utils.Props.C38_counterexample"
   ],
   "note": "False for requests that wrap around (C38_counterexample: memory handed out twice). C38_unwrapped_partial covers every history without such a request; C38_wrapped says what such a request does; C38_iff: without upstream and with the buffer in the lower half of the address space, everything handed out lies in the buffer exactly if no request wraps around."
  },
  {
   "property": "C39",
   "status": "partial",
   "theorems": [
    "Utils.Props.C39_exact",
    "Utils.Props.C39_refuses_partial",
    "Utils.Props.C39_no_buffer",
    "Utils.Props.C39_empty",
    "Utils.Props.C39_counterexample"
   ],
   "note": "False when aligned position + size exceeds 2^64 (C39_counterexample). C39_exact gives the result of every call."
  },
  {
   "property": "C40",
   "status": "proved",
   "theorems": [
    "Utils.Props.C40_release",
    "Utils.Props.C40_free",
    "Utils.Props.C40_upstream",
    "Utils.Props.C40_asks"
   ],
   "note": ""
  },
  {
   "property": "C41",
   "status": "proved",
   "theorems": [
    "Utils.Props.C41_aligned",
    "Utils.Props.C41_forwards",
    "Utils.Props.C41_rejects",
    "Utils.Props.C41_no_leak",
    "Utils.Props.C41_null"
   ],
   "note": ""
  },
  {
   "property": "C42",
   "status": "proved",
   "theorems": [
    "Utils.Props.C42_register",
    "Utils.Props.C42_log",
    "Utils.Props.C42_program_order",
    "Utils.Props.C42_conserved"
   ],
   "note": ""
  },
  {
   "property": "C43",
   "status": "partial",
   "theorems": [
    "Utils.Props.C43_iff",
    "Utils.Props.C43_room_partial",
    "Utils.Props.C43_counterexample",
    "Utils.Props.C43_system"
   ],
   "note": "False when count * sizeof wraps (C43_counterexample). C43_iff is the exact condition."
  },
  {
   "property": "C44",
   "status": "proved",
   "theorems": [
    "Utils.Props.C44_pairing",
    "Utils.Props.C44_resource",
    "Utils.Props.C44_new",
    "Utils.Props.C44_equal"
   ],
   "note": ""
  },
  {
   "property": "C45",
   "status": "proved",
   "theorems": [
    "Utils.Props.C45_geometry"
   ],
   "note": ""
  },
  {
   "property": "C46",
   "status": "proved",
   "theorems": [
    "Utils.Props.C46_bookkeeping",
    "Utils.Props.C46_tracks"
   ],
   "note": "Safely scanned: each allocation's scan rejects a free region only if it is the last region or a first region of one block, and fills no region to its last byte (SafeScan). Pool (C47) and LIFO (C56) usage are proved to stay inside this class."
  },
  {
   "property": "C47",
   "status": "proved",
   "theorems": [
    "Utils.Props.C47_pool_refinement",
    "Utils.Props.C47_pool_sound"
   ],
   "note": ""
  },
  {
   "property": "C48",
   "status": "partial",
   "theorems": [
    "Utils.Props.C48_no_overlap_partial",
    "Utils.Props.C48_in_bounds_debug",
    "Utils.Props.C48_counterexample"
   ],
   "note": "False in general (C48_counterexample). Missing: histories with an unsafe scan; with assertions these still stay inside the area (C48_in_bounds_debug, all histories). C81_iff gives the exact condition on a request; C82 a way of use under which the claim holds for all sizes."
  },
  {
   "property": "C49",
   "status": "partial",
   "theorems": [
    "Utils.Props.C49_terminates_partial",
    "Utils.Props.C49_dichotomy",
    "Utils.Props.C49_dichotomy_debug",
    "Utils.Props.C49_hang",
    "Utils.Props.C49_counterexample"
   ],
   "note": "False in general (C49_hang, C49_counterexample). Missing: unsafe scans. C49_dichotomy bounds every scan that ends; C49_dichotomy_debug does so after every history of a build with assertions. C79_hangs_iff says exactly when allocate does not return."
  },
  {
   "property": "C50",
   "status": "partial",
   "theorems": [
    "Utils.Props.C50_first_fit_partial",
    "Utils.Props.C50_refused_partial",
    "Utils.Props.C50_counterexample"
   ],
   "note": "Missing: unsafe scans, and alignments that neither divide the address of the area nor are at most its size (C50_counterexample). C79 gives the answer for every state."
  },
  {
   "property": "C51",
   "status": "partial",
   "theorems": [
    "Utils.Props.C51_overrun",
    "Utils.Props.C51_never",
    "Utils.Props.C51_overlong",
    "Utils.Props.C51_past_table",
    "Utils.Props.C51_one_block",
    "Utils.Props.C51_overlap",
    "Utils.Props.C51_spare_partial",
    "Utils.Props.C51_exact_fit_asserts",
    "Utils.Props.C51_counterexample"
   ],
   "note": "False of the code: an exact fit fails an assertion in debug builds (C51_exact_fit_asserts, all states) and is undefined or overlaps without assertions (C51_counterexample). C51_never: in no state and no build does such a request leave the bookkeeping right; C51_overlong: without assertions the region recorded for it is one block too long. C51_spare_partial: with a byte to spare in the last block the request is served and uses exactly the region. Missing: the last byte. C51_overrun: without assertions every such request on a fresh resource makes the next one return memory behind the end of the buffer. C51_past_table: without room in the table the request is undefined behaviour; C51_one_block, C51_overlap: if MaxBlockCount is the number of values of BIndex, a request for the whole area records one block, and the next request is given memory in use."
  },
  {
   "property": "C52",
   "status": "partial",
   "theorems": [
    "Utils.Props.C52_no_wrap",
    "Utils.Props.C52_iff",
    "Utils.Props.C52_impossible_partial",
    "Utils.Props.C52_impossible_debug",
    "Utils.Props.C52_counterexample"
   ],
   "note": "Missing: sizes for which alignment + size exceeds SIZE_MAX; false there without assertions (C52_counterexample), true there with assertions (C52_impossible_debug). C52_iff is the exact condition on a fresh resource without assertions; C52_no_wrap covers every state."
  },
  {
   "property": "C53",
   "status": "proved",
   "theorems": [
    "Utils.Props.C53_deallocate",
    "Utils.Props.C53_round_trip"
   ],
   "note": ""
  },
  {
   "property": "C54",
   "status": "proved",
   "theorems": [
    "Utils.Props.C54_aborts_iff",
    "Utils.Props.C54_accepts"
   ],
   "note": ""
  },
  {
   "property": "C55",
   "status": "partial",
   "theorems": [
    "Utils.Props.C55_iff",
    "Utils.Props.C55_release_partial",
    "Utils.Props.C55_counterexample"
   ],
   "note": "False in general (C55_counterexample). Proved for histories of one-block allocations. C80_release says exactly what is freed in every state. C55_iff is the exact condition."
  },
  {
   "property": "C56",
   "status": "proved",
   "theorems": [
    "Utils.Props.C56_stack_refinement"
   ],
   "note": ""
  },
  {
   "property": "C57",
   "status": "proved",
   "theorems": [
    "Utils.Props.C57_at_most_one_call",
    "Utils.Props.C57_allocate_routing",
    "Utils.Props.C57_deallocate_routing"
   ],
   "note": ""
  },
  {
   "property": "C58",
   "status": "partial",
   "theorems": [
    "Utils.Props.C58_iff",
    "Utils.Props.C58_returnable_partial",
    "Utils.Props.C58_counterexample"
   ],
   "note": "Missing: an upstream that delivers only the requested alignment (C58_counterexample), and unsafe scans. C58_iff: the pointer can be returned iff it is a multiple of BlockSize."
  },
  {
   "property": "C59",
   "status": "partial",
   "theorems": [
    "Utils.Props.C59_counterexample",
    "Utils.Props.C59_cycle",
    "Utils.Props.C59_destructor_partial",
    "Utils.Props.C59_destructor_debug"
   ],
   "note": "Missing: histories with unsafe scans in builds without assertions; C59_destructor_debug covers every history of a build with assertions. False without assertions (C59_counterexample). C59_cycle covers histories with releases and every good choice of requests."
  },
  {
   "property": "C60",
   "status": "partial",
   "theorems": [
    "Utils.Props.C60_undefined",
    "Utils.Props.C60_iff",
    "Utils.Props.C60_defined_partial",
    "Utils.Props.C60_deallocate_defined_partial",
    "Utils.Props.C60_release_build_partial",
    "Utils.Props.C60_counterexample"
   ],
   "note": "Missing: areas with address alignment plus size above 2^31 (C60_counterexample), unsafe histories without assertions. C60_iff is the exact condition under assertions."
  },
  {
   "property": "C61",
   "status": "partial",
   "theorems": [
    "Utils.Props.C61_iff",
    "Utils.Props.C61_conservation",
    "Utils.Props.C61_once_partial",
    "Utils.Props.C61_overwritten",
    "Utils.Props.C61_when",
    "Utils.Props.C61_moved",
    "Utils.Props.C61_moved_from_silent",
    "Utils.Props.C61_counterexample_assign",
    "Utils.Props.C61_counterexample_self"
   ],
   "note": "False when a timer that holds a callback is move-assigned to, self-assignment included (C61_counterexample_assign, C61_counterexample_self); C61_conservation accounts for every callback in every history. C61_iff is the exact condition."
  },
  {
   "property": "C62",
   "status": "proved",
   "theorems": [
    "Utils.Props.C62_start_is_a_reading",
    "Utils.Props.C62_start",
    "Utils.Props.C62_start_kept",
    "Utils.Props.C62_leaked",
    "Utils.Props.C62_monotone",
    "Utils.Props.C62_truncated"
   ],
   "note": ""
  },
  {
   "property": "C63",
   "status": "proved",
   "theorems": [
    "Utils.Props.C63_refines",
    "Utils.Props.C63_balanced",
    "Utils.Props.C63_assignment",
    "Utils.Props.C63_independent"
   ],
   "note": ""
  },
  {
   "property": "C64",
   "status": "proved",
   "theorems": [
    "Utils.Props.C64_for_each_arg",
    "Utils.Props.C64_for_each_arg_log",
    "Utils.Props.C64_for_each_in_tuple"
   ],
   "note": ""
  },
  {
   "property": "C65",
   "status": "proved",
   "theorems": [
    "Utils.Props.C65_bit_cast",
    "Utils.Props.C65_round_trip",
    "Utils.Props.C65_sizes"
   ],
   "note": ""
  },
  {
   "property": "C66",
   "status": "partial",
   "theorems": [
    "Utils.Props.C66_values_in_range_partial",
    "Utils.Props.C66_iff",
    "Utils.Props.C66_counterexample",
    "Utils.Props.C66_rejected",
    "Utils.Arrays.Utils.Props.C66_signs"
   ],
   "note": "False when the number of values does not fit the common type or Last + 1 overflows (C66_counterexample); C66_iff is the exact condition."
  },
  {
   "property": "C67",
   "status": "partial",
   "theorems": [
    "Utils.Props.C67_exact_iff",
    "Utils.Props.C67_detected",
    "Utils.Props.C67_exact_partial",
    "Utils.Props.C67_counterexample",
    "Utils.Props.C67_convertible"
   ],
   "note": "False for is_detected_exact_v with E = nonesuch (C67_counterexample). C67_exact_iff answers every E."
  },
  {
   "property": "C68",
   "status": "proved",
   "theorems": [
    "Utils.Props.C68_make_array_from_sv",
    "Utils.Props.C68_make_array_from_short_sv",
    "Utils.Props.C68_sv_to_array"
   ],
   "note": ""
  },
  {
   "property": "C69",
   "status": "partial",
   "theorems": [
    "Utils.Props.C69_value_partial",
    "Utils.Props.C69_counterexample_value",
    "Utils.Props.C69_counterexample_lvalue"
   ],
   "note": "False: construct forwards with the allocator's value type. C69_value_partial says exactly which integer arguments survive; lvalues of type T are moved from (C69_counterexample_lvalue)."
  },
  {
   "property": "C70",
   "status": "partial",
   "theorems": [
    "Utils.Props.C70_system_alignment",
    "Utils.Props.C70_returnable_partial",
    "Utils.Props.C70_counterexample",
    "Utils.Props.C70_iff"
   ],
   "note": "Missing: BlockSize above sizeof(void*), where it is false (C70_counterexample), and unsafe scans. C70_iff: the claim holds for exactly the block sizes up to sizeof(void*)."
  },
  {
   "property": "C71",
   "status": "partial",
   "theorems": [
    "Utils.Props.C71_iff",
    "Utils.Props.C71_sound",
    "Utils.Props.C71_complete_partial",
    "Utils.Props.C71_counterexample"
   ],
   "note": "False of const pointers, pointers to C-variadic functions and overloaded or generic call operators (C71_counterexample); never true of anything that cannot be called (C71_sound). C71_iff is the exact answer."
  },
  {
   "property": "C72",
   "status": "proved",
   "theorems": [
    "Utils.Props.C72_signature",
    "Utils.Props.C72_rejects"
   ],
   "note": ""
  },
  {
   "property": "C73",
   "status": "partial",
   "theorems": [
    "Utils.Props.C73_data_partial",
    "Utils.Props.C73_counterexample_data",
    "Utils.Props.C73_static_data_partial",
    "Utils.Props.C73_counterexample_static",
    "Utils.Props.C73_functions"
   ],
   "note": "False of members of reference type, bit-fields, static references to functions and static members whose class overloads the unary & (C73_counterexample_data, C73_counterexample_static); the two _partial theorems are exact conditions."
  },
  {
   "property": "C74",
   "status": "proved",
   "theorems": [
    "Utils.Props.C74_method",
    "Utils.Props.C74_static_method"
   ],
   "note": ""
  },
  {
   "property": "C75",
   "status": "partial",
   "theorems": [
    "Utils.Props.C75_callable_r_iff",
    "Utils.Props.C75_callable",
    "Utils.Props.C75_callable_r_partial",
    "Utils.Props.C75_static",
    "Utils.Props.C75_counterexample"
   ],
   "note": "False of the _r form with R = nonesuch (C75_counterexample). C75_callable_r_iff answers every R."
  },
  {
   "property": "C76",
   "status": "partial",
   "theorems": [
    "Utils.Props.C76_iff",
    "Utils.Props.C76_visible",
    "Utils.Props.C76_padding_partial",
    "Utils.Props.C76_counterexample",
    "Utils.Props.C76_counterexample_scalar"
   ],
   "note": "False of non-aggregate classes with padding (C76_counterexample) and of long double (C76_counterexample_scalar): all their bytes count as data (C76_visible). C76_iff is the exact condition."
  },
  {
   "property": "C77",
   "status": "partial",
   "theorems": [
    "Utils.Props.C77_iff",
    "Utils.Props.C77_member_type_partial",
    "Utils.Props.C77_counterexample"
   ],
   "note": "False for E = nonesuch and for targets nonesuch converts to (C77_counterexample). C77_iff answers every target."
  },
  {
   "property": "C78",
   "status": "proved",
   "theorems": [
    "Utils.Props.C78_call",
    "Utils.Props.C78_rvalue",
    "Utils.Props.C78_lvalue",
    "Utils.Props.C78_noexcept"
   ],
   "note": ""
  },
  {
   "property": "C79",
   "status": "proved",
   "theorems": [
    "Utils.Props.C79_decided",
    "Utils.Props.C79_never",
    "Utils.Props.C79_refuse",
    "Utils.Props.C79_take",
    "Utils.Props.C79_take_exact",
    "Utils.Props.C79_hangs_iff"
   ],
   "note": ""
  },
  {
   "property": "C80",
   "status": "proved",
   "theorems": [
    "Utils.Props.C80_release",
    "Utils.Props.C80_frees_all",
    "Utils.Props.C80_leaks"
   ],
   "note": ""
  },
  {
   "property": "C81",
   "status": "proved",
   "theorems": [
    "Utils.Props.C81_iff",
    "Utils.Props.C81_history",
    "Utils.Props.C81_wider",
    "Utils.Props.C81_first_block"
   ],
   "note": ""
  },
  {
   "property": "C82",
   "status": "proved",
   "theorems": [
    "Utils.Props.C82_pinned",
    "Utils.Props.C82_fresh"
   ],
   "note": ""
  },
  {
   "property": "C83",
   "status": "proved",
   "theorems": [
    "Utils.Res.C83_sound",
    "Utils.Res.C83_returns",
    "Utils.Res.C83_grain",
    "Utils.Res.C83_history"
   ],
   "note": ""
  },
  {
   "property": "C84",
   "status": "proved",
   "theorems": [
    "Utils.Res.C84_destroy",
    "Utils.Res.C84_counterexample"
   ],
   "note": ""
  },
  {
   "property": "C85",
   "status": "proved",
   "theorems": [
    "Utils.Res.C85_program",
    "Utils.Res.C85_allocators_fixed",
    "Utils.Res.C85_default",
    "Utils.Res.C85_resources",
    "Utils.Res.C85_counterexample"
   ],
   "note": ""
  },
  {
   "property": "C86",
   "status": "partial",
   "theorems": [
    "Utils.Props.C86_is_uint",
    "Utils.Props.C86_is_uint_partial",
    "Utils.Props.C86_counterexample_bool",
    "Utils.Props.C86_is_uint_or_byte",
    "Utils.Props.C86_counterexample_byte",
    "Utils.Props.C86_remove_cvref",
    "Utils.Props.C86_is_std_array",
    "Utils.Props.C86_ref_wrapper",
    "Utils.Props.C86_counterexample_ref_wrapper",
    "Utils.Props.C86_array_parts",
    "Utils.Props.C86_same_data",
    "Utils.Props.C86_sizes_sum"
   ],
   "note": "False of qualified bool (is_uint_v), qualified std::byte (is_uint_or_byte_v) and qualified reference wrappers (counterexamples); the theorems say what each trait answers for every type."
  },
  {
   "property": "C87",
   "status": "proved",
   "theorems": [
    "Utils.Props.C87_accepted",
    "Utils.Props.C87_objects",
    "Utils.Props.C87_values"
   ],
   "note": ""
  },
  {
   "property": "C88",
   "status": "proved",
   "theorems": [
    "Utils.Props.C88_accepted",
    "Utils.Props.C88_values",
    "Utils.Props.C88_order"
   ],
   "note": ""
  },
  {
   "property": "C89",
   "status": "proved",
   "theorems": [
    "Utils.Props.C89_fast_uint",
    "Utils.Props.C89_wide_enough",
    "Utils.Props.C89_fast_bytes"
   ],
   "note": ""
  },
  {
   "property": "C90",
   "status": "proved",
   "theorems": [
    "Utils.Props.C90_integers",
    "Utils.Props.C90_count_zeros",
    "Utils.Props.C90_arrays",
    "Utils.Props.C90_monotonic",
    "Utils.Props.C90_simple_resource",
    "Utils.Props.C90_undefined_caught"
   ],
   "note": "C90_undefined_caught: undefined behaviour without assertions is preceded by a failed assertion in the build with them."
  },
  {
   "property": "C91",
   "status": "partial",
   "theorems": [
    "Utils.Props.C91_sound_partial",
    "Utils.Props.C91_iff",
    "Utils.Props.C91_taken_back",
    "Utils.Props.C91_pool_refinement",
    "Utils.Props.C91_no_ub_debug",
    "Utils.Props.C91_counterexample"
   ],
   "note": "False for larger allocations: release leaves some of them in use (C91_counterexample; C91_taken_back says which). C91_iff is the exact condition on the requests between releases; C91_pool_refinement is the full claim for one-block allocations."
  },
  {
   "property": "C92",
   "status": "partial",
   "theorems": [
    "Utils.SR.Utils.Props.C92_inspect_partial",
    "Utils.SR.Utils.Props.C92_counterexample",
    "Utils.SR.Utils.Props.C92_no_block"
   ],
   "note": "False for a buffer without room for a block, where free_count() is 1 (C92_counterexample, C92_no_block); otherwise C92_inspect_partial."
  },
  {
   "property": "C93",
   "status": "partial",
   "theorems": [
    "Utils.SR.Utils.Props.C93_transparent_partial",
    "Utils.SR.Utils.Props.C93_release",
    "Utils.SR.Utils.Props.C93_counterexample"
   ],
   "note": "True of every history of allocate and deallocate; false of release(), which fails an assertion in builds with assertions (C93_release, C93_counterexample)."
  },
  {
   "property": "C94",
   "status": "partial",
   "theorems": [
    "Utils.Objects.Utils.Props.C94_transparent_partial",
    "Utils.Objects.Utils.Props.C94_terminate_iff",
    "Utils.Objects.Utils.Props.C94_counterexample"
   ],
   "note": "False when ~T throws, which ends the program since ~fast_pimpl is noexcept (C94_counterexample); C94_terminate_iff says that this is the only case."
  },
  {
   "property": "C95",
   "status": "partial",
   "theorems": [
    "Utils.Props.C95_mono_moves_partial",
    "Utils.Props.C95_mono_sane_partial",
    "Utils.Props.C95_simple_moves_partial",
    "Utils.Props.C95_mono_shared",
    "Utils.Props.C95_simple_shared",
    "Utils.Props.C95_source_destructor",
    "Utils.Props.C95_counterexample_mono",
    "Utils.Props.C95_counterexample_simple"
   ],
   "note": "False as soon as the source of an assignment is used again: both then hand out the same memory (C95_mono_shared, C95_simple_shared, counterexamples), and the destructor of the source aborts iff something was held when it was assigned from (C95_source_destructor). The _partial theorems cover every history that treats the assignment as a move."
  },
  {
   "property": "C96",
   "status": "partial",
   "theorems": [
    "Utils.Props.C96_same_answers_partial",
    "Utils.Props.C96_one_side_partial",
    "Utils.Props.C96_regions",
    "Utils.Props.C96_decision",
    "Utils.Props.C96_restart",
    "Utils.Props.C96_unrestarted",
    "Utils.Props.C96_like_new_partial",
    "Utils.Props.C96_first_request",
    "Utils.Props.C96_counterexample"
   ],
   "note": "False when the scan restarts inside the first region, where a link left behind decides (C96_restart says how; C96_counterexample). C96_same_answers_partial covers all calls that leave the bookkeeping of both right, C96_one_side_partial all scans that do not restart there."
  },
  {
   "property": "C97",
   "status": "partial",
   "theorems": [
    "Utils.Props.C97_exact",
    "Utils.Props.C97_sound",
    "Utils.Props.C97_complete_partial",
    "Utils.Props.C97_duration_only",
    "Utils.Props.C97_counterexample"
   ],
   "note": "Accepted callables always fit and can be called (C97_sound). The converse is false for functions by name that are not noexcept or not void, for rvalues whose call operator is qualified & and for const or volatile objects whose call operator is not (C97_counterexample); C97_exact is the exact condition."
  },
  {
   "property": "C98",
   "status": "proved",
   "theorems": [
    "Utils.Props.C98_checker",
    "Utils.Props.C98_names",
    "Utils.Props.C98_static",
    "Utils.Props.C98_clash",
    "Utils.Props.C98_clash_witness"
   ],
   "note": "Name clashes between checkers of different kinds (methods named r_... or ..._noexcept with CREATE_METHOD_CHECKERS) are not covered."
  },
  {
   "property": "C99",
   "status": "partial",
   "theorems": [
    "Utils.Props.C99_simple_partial",
    "Utils.Props.C99_mono_partial",
    "Utils.Props.C99_literal_zero",
    "Utils.Props.C99_counterexample",
    "Utils.Props.C99_alike"
   ],
   "note": "False for exactly one form of call: an array followed by a literal 0 picks the constructor of pointer and size, so the resource gets no bytes and the default upstream (C99_literal_zero). The _partial theorems cover every other list of arguments."
  },
  {
   "property": "C100",
   "status": "partial",
   "theorems": [
    "Utils.Props.C100_equal_partial",
    "Utils.Props.C100_mixed",
    "Utils.Props.C100_convert",
    "Utils.Props.C100_counterexample",
    "Utils.Props.C100_symmetric"
   ],
   "note": "False for two different value types: the converting constructor and the operator templates read a private member of another class and do not compile (C100_mixed, C100_counterexample). C100_mixed says exactly when a comparison compiles."
  },
  {
   "property": "C101",
   "status": "partial",
   "theorems": [
    "Utils.Props.C101_iff",
    "Utils.Props.C101_reaches",
    "Utils.Props.C101_own_partial",
    "Utils.Props.C101_counterexample"
   ],
   "note": "False when a resource is assigned, through memory_resource &, to one of another class (C101_counterexample); C101_iff is the exact condition on programs, C101_own_partial covers all programs without such assignments."
  },
  {
   "property": "C102",
   "status": "proved",
   "theorems": [
    "Utils.Props.C102_arena_refinement",
    "Utils.Props.C102_empty",
    "Utils.Props.C102_stack",
    "Utils.Props.C102_hole_matters"
   ],
   "note": ""
  },
  {
   "property": "C103",
   "status": "partial",
   "theorems": [
    "Utils.Props.C103_objects",
    "Utils.Props.C103_iff",
    "Utils.Props.C103_transparent_partial",
    "Utils.Props.C103_counterexample",
    "Utils.Props.C103_temporary"
   ],
   "note": "False for initialisations that need two user-defined conversions (fast_pimpl<std::string> p = \"x\"), for p = {} and p({}) when T is a class (ambiguous), and for arguments that convert to a T that cannot be moved (C103_counterexample). C103_iff says that these are the only cases; for objects the claim holds in full (C103_objects)."
  },
  {
   "property": "C104",
   "status": "partial",
   "theorems": [
    "Utils.Units.C104_iff",
    "Utils.Units.C104_default_partial",
    "Utils.Units.C104_counterexample",
    "Utils.Units.C104_lost",
    "Utils.Units.C104_early"
   ],
   "note": "False with two translation units (C104_counterexample): system_memory_resource is a static function, so each has a resource of its own, while default_resource is one inline variable. C104_iff: true exactly in the unit whose definition of default_resource was used. C104_early and C104_lost: before default_resource is initialised get gives a null pointer and set is lost."
  },
  {
   "property": "C105",
   "status": "partial",
   "theorems": [
    "Utils.Units.C105_start",
    "Utils.Units.C105_outlives_partial",
    "Utils.Units.C105_default",
    "Utils.Units.C105_counterexample",
    "Utils.Units.C105_passed"
   ],
   "note": "False for destructors that ask for the default resource or for system_memory_resource() (C105_counterexample, C105_passed). C105_outlives_partial: destructors that keep to the resources their constructors got are fine, whatever happened meanwhile; C105_default: so is the default resource as long as it is never changed."
  },
  {
   "property": "C106",
   "status": "partial",
   "theorems": [
    "Utils.C106_keeps",
    "Utils.C106_iff",
    "Utils.C106_keeps_partial",
    "Utils.C106_counterexample"
   ],
   "note": "If it compiles it keeps the values (C106_keeps). It does not compile for variables of type int and unsigned (C106_counterexample: narrowing); C106_iff is the exact condition, C106_keeps_partial covers equal signedness."
  },
  {
   "property": "C107",
   "status": "partial",
   "theorems": [
    "Utils.Diag.C107_message_partial",
    "Utils.Diag.C107_iff",
    "Utils.Diag.C107_returns",
    "Utils.Diag.C107_counterexample"
   ],
   "note": "False if the name of the file has a %: it is a part of the format (C107_counterexample). C107_iff: the output is right exactly if it has none, for formats that use all their arguments. The two empty strings that the macro appends do no harm."
  },
  {
   "property": "C108",
   "status": "partial",
   "theorems": [
    "Utils.Diag.Utils.SR.C108_reason",
    "Utils.Diag.Utils.SR.C108_destructor",
    "Utils.Diag.Utils.SR.C108_text_partial",
    "Utils.Diag.Utils.SR.C108_undefined",
    "Utils.Diag.Utils.SR.C108_counterexample"
   ],
   "note": "C108_reason: deallocate aborts exactly if there is a message, and what the message says is true. Printing it is undefined for the messages that print a size_t with %d, and for indices of blocks that are no int (C108_undefined, C108_counterexample); C108_text_partial covers exactly the other cases. The other theorems about aborts take printing as defined."
  },
  {
   "property": "C109",
   "status": "partial",
   "theorems": [
    "Utils.Props.C109_iff",
    "Utils.Props.C109_trivial_partial",
    "Utils.Props.C109_unmoved",
    "Utils.Props.C109_leak",
    "Utils.Props.C109_counterexample"
   ],
   "note": "False: moving a timer copies the bytes of its callable, and no callable is ever destroyed (C109_counterexample, C109_leak). C109_trivial_partial: with trivially copyable callables that do not throw every history does what C61 says; C109_unmoved: so does every history without moves, for any class. C109_iff decides every history."
  },
  {
   "property": "C110",
   "status": "partial",
   "theorems": [
    "Utils.Props.C110_iff",
    "Utils.Props.C110_counterexample",
    "Utils.Props.C110_partial"
   ],
   "note": "False: the constructor and call_finish_callback are noexcept, so std::terminate is called (C110_counterexample). C110_iff: for callables copied as bytes, the program ends that way iff some copy or call throws; C110_partial: without exceptions it never does."
  },
  {
   "property": "C111",
   "status": "partial",
   "theorems": [
    "Utils.Props.C111_refines",
    "Utils.Props.C111_concatenate",
    "Utils.Props.C111_counterexample",
    "Utils.Props.C111_fill",
    "Utils.Props.C111_zero",
    "Utils.Props.C111_reach_partial",
    "Utils.Props.C111_view"
   ],
   "note": "False: concatenate_arrays and make_array_with_value_impl are noexcept, so std::terminate is called (C111_counterexample). C111_concatenate, C111_fill, C111_zero and C111_view (make_array from a string view) are the exact conditions under which the caller gets an exception and the program is ended; concatenating several arrays also moves elements of lvalue arrays. C111_reach_partial: with moves that do not throw, exceptions of make_array reach the caller. C111_refines: without exceptions these are the functions of C20 and C87."
  },
  {
   "property": "C112",
   "status": "proved",
   "theorems": [
    "Utils.Props.C112_next_multiple_of_signed",
    "Utils.Props.C112_unrepresentable",
    "Utils.Props.C112_too_big",
    "Utils.Props.C112_bool"
   ],
   "note": "C112_unrepresentable, C112_too_big and C112_bool say what happens outside the claim."
  },
  {
   "property": "C113",
   "status": "partial",
   "theorems": [
    "Utils.Props.C113_iff",
    "Utils.Props.C113_lookup_partial",
    "Utils.Props.C113_lists_partial",
    "Utils.Props.C113_counterexample"
   ],
   "note": "False: references are compared by value, so two constants with equal values are taken for one object, and references to variables cannot be compared at all (C113_counterexample). C113_lookup_partial and C113_lists_partial hold whenever the comparison tells the arguments apart; C113_iff shows that this is the exact condition."
  },
  {
   "property": "C114",
   "status": "proved",
   "theorems": [
    "Utils.Props.C114_iff",
    "Utils.Props.C114_result",
    "Utils.Props.C114_limits"
   ],
   "note": ""
  },
  {
   "property": "C115",
   "status": "partial",
   "theorems": [
    "Utils.Props.C115_call",
    "Utils.Props.C115_checkers_partial",
    "Utils.Props.C115_no_volatile",
    "Utils.Props.C115_usual",
    "Utils.Props.C115_counterexample"
   ],
   "note": "False if the call is ambiguous: f() const and f() volatile on a T (C115_counterexample). C115_checkers_partial is the exact condition; C115_no_volatile: the full claim holds if no overload is volatile."
  },
  {
   "property": "C116",
   "status": "partial",
   "theorems": [
    "Utils.Props.C116_unique",
    "Utils.Props.C116_iff",
    "Utils.Props.C116_typed_partial",
    "Utils.Props.C116_counterexample"
   ],
   "note": "Ambiguity: C116_unique, for all calls. The rest is false: explicit types are only the beginning of the pack, so make_array<char>(c, 300) is an array of int; T&& does not bind to a variable of type T; a string literal is not taken for a view (C116_counterexample). C116_iff is the exact meaning of every call."
  },
  {
   "property": "C117",
   "status": "partial",
   "theorems": [
    "Utils.NewObj.C117_compiles_partial",
    "Utils.NewObj.C117_call_partial",
    "Utils.NewObj.C117_rvalues_partial",
    "Utils.NewObj.C117_counterexample"
   ],
   "note": "False: the static assertion is about the arguments of the call, but the constructor gets rvalues of the allocator's value type. Const arguments of that type do not compile, conversions to it can throw inside noexcept (C117_counterexample). C117_compiles_partial and C117_call_partial are exact for all arguments; C117_rvalues_partial: the full claim holds for writable rvalues of the value type."
  },
  {
   "property": "C118",
   "status": "partial",
   "theorems": [
    "Utils.Props.C118_method_partial",
    "Utils.Props.C118_static_partial",
    "Utils.Props.C118_silent_partial",
    "Utils.Props.C118_counterexample"
   ],
   "note": "False of static references to functions, which pass for static methods, and of static objects whose class overloads the unary & to give a pointer to a function (C118_counterexample). C118_method_partial and C118_static_partial are exact for every kind of member; C118_silent_partial: the full claim for all others."
  },
  {
   "property": "C119",
   "status": "partial",
   "theorems": [
    "Utils.Props.C119_free_regions_partial",
    "Utils.Props.C119_served_partial",
    "Utils.Props.C119_capacity_partial",
    "Utils.Props.C119_counterexample"
   ],
   "note": "False: the scan that restarts at block 1 may never return although almost everything is free (C119_counterexample, from the history of C49). C119_free_regions_partial and C119_served_partial prove both halves, for every alignment, after every history of calls whose scans go right; missing are the other scans, described by C79. C119_capacity_partial draws the sizing rule: a client that holds at most n allocations of at most k blocks is always served from 2nk - n - k + 1 blocks, in any order of giving back."
  },
  {
   "property": "C120",
   "status": "partial",
   "theorems": [
    "Utils.Props.C120_left_exact",
    "Utils.Props.C120_right_exact",
    "Utils.Props.C120_left_value_partial",
    "Utils.Props.C120_counterexample"
   ],
   "note": "False for negative values, whose left shift is undefined in C++17 (C120_counterexample). C120_left_value_partial says exactly when the value is right; C120_left_exact and C120_right_exact say what release builds do for every type, value and distance, also distances that only the promoted type has."
  },
  {
   "property": "C121",
   "status": "partial",
   "theorems": [
    "Utils.Props.C121_compiles",
    "Utils.Props.C121_exact",
    "Utils.Props.C121_tuple",
    "Utils.Props.C121_args_partial",
    "Utils.Props.C121_tuple_partial",
    "Utils.Props.C121_counterexample_rvalue",
    "Utils.Props.C121_counterexample_comma",
    "Utils.Props.C121_counterexample_results"
   ],
   "note": "False: a temporary callable is called as an rvalue every time (C121_counterexample_rvalue), a comma operator of the result is called or does not compile (C121_counterexample_comma), and the results are all kept until the end (C121_counterexample_results). C121_args_partial and C121_tuple_partial exclude just that; C121_compiles, C121_exact and C121_tuple describe every callable."
  },
  {
   "property": "C122",
   "status": "partial",
   "theorems": [
    "Utils.Props.C122_exact",
    "Utils.Props.C122_values_partial",
    "Utils.Props.C122_counterexample"
   ],
   "note": "False: the braces of CommonT{currentValue} forbid narrowing and currentValue is a variable, so <0, 3, 1, unsigned> and every floating type are rejected (C122_counterexample). C122_exact says when it compiles, C122_values_partial that the values are then the same."
  },
  {
   "property": "C123",
   "status": "partial",
   "theorems": [
    "Utils.Props.C123_exact",
    "Utils.Props.C123_qualifiers_partial",
    "Utils.Props.C123_never_less",
    "Utils.Props.C123_compiles",
    "Utils.Props.C123_counterexample"
   ],
   "note": "False: the specialisation of num_bits is for bool itself, so eight const bools take eight bytes (C123_counterexample). C123_exact gives the value for all packs, C123_qualifiers_partial the claim without qualified bools, C123_never_less and C123_compiles what holds for all."
  },
  {
   "property": "C124",
   "status": "partial",
   "theorems": [
    "Utils.Props.C124_data",
    "Utils.Props.C124_static_data",
    "Utils.Props.C124_type",
    "Utils.Props.C124_method",
    "Utils.Props.C124_static_method",
    "Utils.Props.C124_call",
    "Utils.Props.C124_inherited_partial",
    "Utils.Props.C124_hiding",
    "Utils.Props.C124_virtual",
    "Utils.Props.C124_counterexample"
   ],
   "note": "False: a name may be hidden, ambiguous or private, a method of a virtual base is not found by signature although it can be called, and a data member of a repeated base is reported although it cannot be used (C124_counterexample). C124_data to C124_call say for every hierarchy when each checker is true (C124_method and C124_static_method if the name denotes functions, C124_call if it denotes one), C124_inherited_partial is the claim where it holds, C124_hiding and C124_virtual are general facts about where it does not."
  },
  {
   "property": "C125",
   "status": "partial",
   "theorems": [
    "Utils.Props.C125_answer",
    "Utils.Props.C125_returns_iff",
    "Utils.Props.C125_mono_never_iff",
    "Utils.Props.C125_dealloc_never_iff",
    "Utils.Props.C125_assign_iff",
    "Utils.Props.C125_history_partial",
    "Utils.Props.C125_allocate_partial",
    "Utils.Props.C125_deallocate_partial",
    "Utils.Props.C125_program_partial",
    "Utils.Props.C125_counterexample"
   ],
   "note": "False: a = b where a is above b makes a cycle, in which a request that is too large recurses for ever (C125_counterexample). C125_assign_iff: an assignment keeps all chains finite exactly if its target is not above its source. C125_history_partial: without such assignments all chains end, after every program; C125_allocate_partial and C125_deallocate_partial: then no call goes deeper than there are resources; C125_program_partial: programs of monotonic resources run to their end. C125_answer, C125_returns_iff, C125_mono_never_iff and C125_dealloc_never_iff say for any net of resources who serves a request and exactly which calls never come back."
  },
  {
   "property": "C126",
   "status": "partial",
   "theorems": [
    "Utils.Props.C126_iff",
    "Utils.Props.C126_compiles",
    "Utils.Props.C126_words_partial",
    "Utils.Props.C126_counterexample",
    "Utils.Props.C126_r_counterexample",
    "Utils.Props.C126_kinds"
   ],
   "note": "False: every name a collides with a_v, and there are collisions between macros, such as CREATE_METHOD_CHECKERS(r_get) with CREATE_R_METHOD_CHECKERS(get) (C126_counterexample). C126_iff lists for all pairs of macros the equations between the two names that make them collide, C126_compiles extends it to any list of uses, C126_words_partial is the claim for names without underscore other than r (C126_r_counterexample says why not r), C126_kinds names the macros that never collide."
  },
  {
   "property": "C127",
   "status": "partial",
   "theorems": [
    "Utils.Props.C127_iff",
    "Utils.Props.C127_reserved_partial",
    "Utils.Props.C127_counterexample"
   ],
   "note": "False: CREATE_MEMBER_DATA_CHECKERS(data_) declares has_data_data__v, and names with a double underscore are reserved (C127_counterexample). C127_iff says exactly for which names a reserved name is declared, C127_reserved_partial is the claim where it holds."
  },
  {
   "property": "C128",
   "status": "partial",
   "theorems": [
    "Utils.Props.C128_iff",
    "Utils.Props.C128_single_partial",
    "Utils.Props.C128_counterexample",
    "Utils.Props.C128_destroyed",
    "Utils.Props.C128_simple_resource",
    "Utils.Props.C128_layout"
   ],
   "note": "False: the address given back is the one of the base, which is another one for all but the first polymorphic base, and pointers to const do not convert to void* (C128_counterexample). C128_iff says exactly when delete_object does what delete does, C128_single_partial is the claim where no class has two polymorphic bases, C128_destroyed: the destructors are always right; C128_simple_resource: simple_resource then aborts, in every state."
  },
  {
   "property": "C129",
   "status": "proved",
   "theorems": [
    "Utils.Props.C129_packed",
    "Utils.Props.C129_iff",
    "Utils.Props.C129_enough",
    "Utils.Props.C129_tight",
    "Utils.Props.C129_sorted"
   ],
   "note": "C129_packed and C129_iff: exactly the sequences that end inside the buffer when packed are served (the converse without upstream, in the lower half of the address space). C129_enough is the bound, C129_tight its optimality for every number of requests and every alignment, C129_sorted the order that loses nothing."
  },
  {
   "property": "C130",
   "status": "partial",
   "theorems": [
    "Utils.Props.C130_index_of",
    "Utils.Props.C130_index_of_asks",
    "Utils.Props.C130_at_right",
    "Utils.Props.C130_at_partial",
    "Utils.Props.C130_at_copies",
    "Utils.Props.C130_count",
    "Utils.Props.C130_list_of",
    "Utils.Props.C130_contains_partial",
    "Utils.Props.C130_contains_counterexample",
    "Utils.Props.C130_total"
   ],
   "note": "Exact for index_of, count_of_predicate_compliant and list_of_predicate_compliant, and for at in lists without copies (C130_at_copies shows why; C130_at_right is soundness for all lists). False for contains_predicate_compliant, which counts instead of stopping (C130_contains_counterexample); C130_contains_partial says when it compiles."
  },
  {
   "property": "C131",
   "status": "proved",
   "theorems": [
    "Utils.Props.C131_at",
    "Utils.Props.C131_index_of",
    "Utils.Props.C131_at_predicate",
    "Utils.Props.C131_concatenate",
    "Utils.Props.C131_list_of",
    "Utils.Props.C131_sublist",
    "Utils.Props.C131_slices",
    "Utils.Props.C131_exclude_at",
    "Utils.Props.C131_sort",
    "Utils.Props.C131_sort_tight",
    "Utils.Props.C131_sort_sorted",
    "Utils.Props.C131_product",
    "Utils.Props.C131_product_tight",
    "Utils.Props.C131_value_index_of",
    "Utils.Props.C131_value_all_of",
    "Utils.Props.C131_value_count_of",
    "Utils.Props.C131_value_min_max",
    "Utils.Props.C131_limit"
   ],
   "note": "Class templates of the headers are counted (Model/Depth.lean). Exact for at, at with predicate, index_of, concatenate, list_of_predicate_compliant, sublist, exclude_at, and index_of, list_all_of, count_of, min and max of a value_list; bounds for the sorts (C131_sort_tight: reached; C131_sort_sorted: exact if sorted already) and the product. C131_limit: the limit cannot be ignored."
  },
  {
   "property": "C132",
   "status": "partial",
   "theorems": [
    "Utils.Props.C132_run_partial",
    "Utils.Props.C132_fresh_partial",
    "Utils.Props.C132_release_build_partial",
    "Utils.Props.C132_counterexample",
    "Utils.Props.C132_distance_counterexample",
    "Utils.Props.C132_mono_partial",
    "Utils.Props.C132_mono_counterexample"
   ],
   "note": "False at addresses where the code itself goes wrong: simple_resource at multiples of 2^32 (C132_counterexample), monotonic_buffer_resource at the end of the address space (C132_mono_counterexample). Proved for areas that are Small before and after, from any bookkeeping state, for all calls including release; in release builds for histories that pass the assertions. C132_distance_counterexample: the alignments of the requests must divide the distance."
  },
  {
   "property": "C133",
   "status": "partial",
   "theorems": [
    "Utils.Props.C133_runs",
    "Utils.Props.C133_exact",
    "Utils.Props.C133_sound",
    "Utils.Props.C133_alike",
    "Utils.Props.C133_complete_partial",
    "Utils.Props.C133_counterexample",
    "Utils.Props.C133_ignored",
    "Utils.Props.C133_single"
   ],
   "note": "The operator for the timer runs (C133_runs) and others are ignored (C133_ignored), but acceptance also needs that the language selects an operator for a duration, which is never called: operator()(const timer &) beside operator()(duration) const is rejected as ambiguous (C133_counterexample). C133_exact is the exact condition, C133_complete_partial the claim for operators that are qualified alike; C133_single ties it to C97."
  },
  {
   "property": "C134",
   "status": "partial",
   "theorems": [
    "Utils.Props.C134_found",
    "Utils.Props.C134_call_partial",
    "Utils.Props.C134_all_before_partial",
    "Utils.Props.C134_settled",
    "Utils.Props.C134_hidden",
    "Utils.Props.C134_counterexample"
   ],
   "note": "False of the code (C134_counterexample): functions declared behind the macro are seen only through argument-dependent lookup, and what the namespace details declares hides the others. C134_found says exactly which declarations are seen, C134_call_partial when they are those of the call, C134_settled that answers for types without associated namespaces are settled at the macro."
  },
  {
   "property": "C135",
   "status": "proved",
   "theorems": [
    "Utils.Props.C135_allocate",
    "Utils.Props.C135_first",
    "Utils.Props.C135_full",
    "Utils.Props.C135_filled",
    "Utils.Props.C135_release",
    "Utils.Props.C135_release_bound",
    "Utils.Props.C135_not_linear"
   ],
   "note": "C135_allocate bounds the rounds by the number of regions (sharper than the 2 * block_count() of C49_dichotomy), C135_first and C135_full give exact numbers, C135_release the exact quadratic number for one-block regions, C135_release_bound that this is the worst case of all tracked states with that many blocks, C135_filled that such states are reached, C135_not_linear what follows. A round is one pass of the loop of apply_if."
  },
  {
   "property": "C136",
   "status": "partial",
   "theorems": [
    "Utils.Props.C136_inside",
    "Utils.Props.C136_mutex_serial",
    "Utils.Props.C136_serial_partial",
    "Utils.Props.C136_mutex",
    "Utils.Props.C136_undisturbed_partial",
    "Utils.Props.C136_race",
    "Utils.Props.C136_counterexample"
   ],
   "note": "False without a mutex: any two requests of one alignment can be given the same address (C136_race), an address can be misaligned, and the position can be set back for good (C136_counterexample). C136_mutex: with a mutex around every call it holds for all schedules; C136_mutex_serial: such a run is the sequential run in the order in which the calls return. C136_undisturbed_partial and C136_serial_partial: the same without a mutex for the schedules in which next_ does not change while another thread is inside the call. C136_inside: bounds hold for all schedules. Missing: the racing schedules. Accesses are sequentially consistent in the model; in the language these schedules are undefined. No upstream, no release."
  },
  {
   "property": "C137",
   "status": "partial",
   "theorems": [
    "Utils.Props.C137_method",
    "Utils.Props.C137_method_partial",
    "Utils.Props.C137_static",
    "Utils.Props.C137_call",
    "Utils.Props.C137_call_partial",
    "Utils.Props.C137_plain",
    "Utils.Props.C137_counterexample"
   ],
   "note": "False for has_invocable_r_NAME... when B is a private, virtual or repeated base: &T::NAME has the type of a member of B, which does not convert (C137_counterexample), although the call compiles. C137_method, C137_static and C137_call: exact conditions. C137_method_partial and C137_call_partial: the claim for public bases that are not virtual and occur once (calls: that occur once). C137_plain: without using-declarations these are the checkers of C74 and C115. Missing: the other bases. No templates, no converting arguments."
  },
  {
   "property": "C138",
   "status": "partial",
   "theorems": [
    "Utils.Props.C138_mutex_serial",
    "Utils.Props.C138_serial_partial",
    "Utils.Props.C138_order",
    "Utils.Props.C138_mutex",
    "Utils.Props.C138_own",
    "Utils.Props.C138_counterexample"
   ],
   "note": "False without a mutex: two threads can be given the same block, and giving it back aborts (C138_counterexample). C138_mutex_serial: with a mutex around every call, all schedules of all programs do what the calls do one after another in the order in which they return, which keeps the order of every program (C138_order). C138_mutex: threads that use the resource as a pool (C47) then never fail and hold allocations that are inside, apart and aligned. C138_serial_partial: the same without a mutex if the bookkeeping does not change while another thread is inside allocate. Missing: the racing schedules. A look at one region, taking a region, and a deallocation are single steps of the model. No upstream, no release. C138_own: a thread gives back its own allocations only."
  },
  {
   "property": "C139",
   "status": "partial",
   "theorems": [
    "Utils.Props.C139_code",
    "Utils.Props.C139_counterexample",
    "Utils.Props.C139_exact",
    "Utils.Props.C139_stores",
    "Utils.Props.C139_iff",
    "Utils.Props.C139_strict_partial",
    "Utils.Props.C139_seen_partial"
   ],
   "note": "False of the loop used by gcc and clang, whose stores are ordinary ones: a program that ends with the call may be run without it (C139_counterexample, every program). C139_exact: the exact condition in any program; C139_iff: after a secret was received the call may be left out exactly if it is the loop and no zeroed byte reaches the outside afterwards. C139_strict_partial: memset_s and SecureZeroMemory are carried out in every implementation; C139_seen_partial: whoever looks at the range sees zeros. C139_code ties the accesses to the model of C35. Missing: the loop when nobody looks. Programs are straight lines of accesses without arithmetic."
  }
 ]
}