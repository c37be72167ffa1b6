{
 "claims": [
  {
   "property": "C01",
   "status": "proved",
   "theorems": [
    "CC.CList.C01_push_back",
    "CC.CList.C01_push_front",
    "CC.CList.C01_insert",
    "CC.CList.C01_pop_back",
    "CC.CList.C01_pop_front",
    "CC.CList.C01_erase",
    "CC.CList.C01_erase_end",
    "CC.CList.C01_erase_range",
    "CC.CList.C01_clear",
    "CC.CList.C01_resize_with_value",
    "CC.CList.C01_resize",
    "CC.CList.C01_size",
    "CC.CList.C01_empty",
    "CC.CList.C01_front",
    "CC.CList.C01_back",
    "CC.CList.C01_history"
   ],
   "note": "every edit, and every history of edits, with arguments that may alias the list's own elements"
  },
  {
   "property": "C02",
   "status": "proved",
   "theorems": [
    "CC.CList.C02_forward",
    "CC.CList.C02_backward",
    "CC.CList.C02_advance",
    "CC.CList.C02_reverse",
    "CC.CList.C02_reverse_step",
    "CC.CList.C02_history"
   ],
   "note": "both walks and the iterator advance, after every history"
  },
  {
   "property": "C03",
   "status": "proved",
   "theorems": [
    "CC.CList.C03_push_back",
    "CC.CList.C03_push_front",
    "CC.CList.C03_insert",
    "CC.CList.C03_resize",
    "CC.CList.C03_create",
    "CC.CList.C03_sort"
   ],
   "note": "Triple False ranges over every allocator behaviour (including failure of any allocation)"
  },
  {
   "property": "C04",
   "status": "proved",
   "theorems": [
    "CC.CList.C04_lifecycle",
    "CC.CList.C04_destroy",
    "CC.CList.C04_destroy_null"
   ],
   "note": "whole-memory equality after create; history; destroy"
  },
  {
   "property": "C05",
   "status": "proved",
   "theorems": [
    "CC.CList.C05_splice_range",
    "CC.CList.C05_splice",
    "CC.CList.C05_splice_from",
    "CC.CList.C05_splice_later",
    "CC.CList.C05_splice_earlier",
    "CC.CList.C05_splice_mismatch"
   ],
   "note": "two lists and one list, all three splice functions, and mismatched types"
  },
  {
   "property": "C06",
   "status": "proved",
   "theorems": [
    "CC.CList.C06_merge",
    "CC.CList.C06_merge_default"
   ],
   "note": "sorted stable merge"
  },
  {
   "property": "C07",
   "status": "proved",
   "theorems": [
    "CC.CList.C07_sort",
    "CC.CList.C07_sort_default",
    "CC.CList.C07_sort_any"
   ],
   "note": "stable sort for fewer than 2^64 elements (the code has 64 counters), any allocator"
  },
  {
   "property": "C08",
   "status": "proved",
   "theorems": [
    "CC.CList.C08_remove_if",
    "CC.CList.C08_remove"
   ],
   "note": "remove with a value outside the list, remove_if with any predicate"
  },
  {
   "property": "C09",
   "status": "partial",
   "theorems": [
    "CC.CList.C09_remove_partial",
    "CC.CList.C09_violated",
    "CC.CList.C09_own_last_partial",
    "CC.CList.C09_back_partial",
    "CC.CList.C09_own_kept_partial",
    "CC.CList.C09_own_violated"
   ],
   "note": "violated by the code: use after free for a reference to any own element that is equal to itself and not the last one; correct for values outside the list, for the last element and for elements unequal to themselves (complete case distinction)"
  },
  {
   "property": "C10",
   "status": "proved",
   "theorems": [
    "CC.CList.C10_reverse",
    "CC.CList.C10_reverse_twice",
    "CC.CList.C10_unique",
    "CC.CList.C10_unique_default",
    "CC.CList.C10_unique_adjacent"
   ],
   "note": "reverse and unique"
  },
  {
   "property": "C11",
   "status": "proved",
   "theorems": [
    "CC.CList.C11_copy",
    "CC.CList.C11_copy_any",
    "CC.CList.C11_assign",
    "CC.CList.C11_assign_self",
    "CC.CList.C11_swap",
    "CC.CList.C11_swap_self",
    "CC.CList.C11_create_from"
   ],
   "note": "copy, assign, swap, create_from, self-assignment, self-swap"
  },
  {
   "property": "C12",
   "status": "proved",
   "theorems": [
    "CC.CList.C12_stable",
    "CC.CList.C12_survivors"
   ],
   "note": "addresses and stored values of all surviving elements after every history"
  },
  {
   "property": "C13",
   "status": "proved",
   "theorems": [
    "CC.SList.C13_push_front",
    "CC.SList.C13_insert_after",
    "CC.SList.C13_insert_after_any",
    "CC.SList.C13_pop_front",
    "CC.SList.C13_erase_after",
    "CC.SList.C13_erase_after_last",
    "CC.SList.C13_erase_after_range",
    "CC.SList.C13_clear",
    "CC.SList.C13_resize_with_value",
    "CC.SList.C13_resize",
    "CC.SList.C13_empty",
    "CC.SList.C13_front",
    "CC.SList.C13_forward",
    "CC.SList.C13_advance",
    "CC.SList.C13_history",
    "CC.SList.C13_history_read",
    "CC.SList.C13_distance"
   ],
   "note": "every edit and every history of edits, arguments may alias the list's own elements, any allocator"
  },
  {
   "property": "C14",
   "status": "proved",
   "theorems": [
    "CC.SList.C14_merge",
    "CC.SList.C14_merge_default",
    "CC.SList.C14_sort",
    "CC.SList.C14_sort_default",
    "CC.SList.C14_sort_any",
    "CC.SList.C14_sort_oom",
    "CC.SList.C14_splice_after_range",
    "CC.SList.C14_splice_after",
    "CC.SList.C14_splice_after_from",
    "CC.SList.C14_splice_later",
    "CC.SList.C14_splice_earlier",
    "CC.SList.C14_splice_mismatch",
    "CC.SList.C14_remove_if",
    "CC.SList.C14_remove",
    "CC.SList.C14_reverse",
    "CC.SList.C14_unique",
    "CC.SList.C14_unique_default",
    "CC.SList.C14_copy",
    "CC.SList.C14_copy_any",
    "CC.SList.C14_assign",
    "CC.SList.C14_assign_self",
    "CC.SList.C14_create_from",
    "CC.SList.C14_swap"
   ],
   "note": "merge, sort, all splice functions, remove, reverse, unique, copy, assign, swap"
  },
  {
   "property": "C15",
   "status": "proved",
   "theorems": [
    "CC.SList.C15_create",
    "CC.SList.C15_lifecycle",
    "CC.SList.C15_destroy",
    "CC.SList.C15_destroy_null"
   ],
   "note": "whole-memory equality after create; history; destroy, any allocator"
  },
  {
   "property": "C16",
   "status": "proved",
   "theorems": [
    "CC.Vec.C16_push_back",
    "CC.Vec.C16_pop_back",
    "CC.Vec.C16_insert",
    "CC.Vec.C16_insert_invalid",
    "CC.Vec.C16_erase",
    "CC.Vec.C16_erase_invalid",
    "CC.Vec.C16_erase_range",
    "CC.Vec.C16_clear",
    "CC.Vec.C16_resize_with_value",
    "CC.Vec.C16_resize",
    "CC.Vec.C16_at",
    "CC.Vec.C16_front",
    "CC.Vec.C16_back",
    "CC.Vec.C16_data",
    "CC.Vec.C16_size",
    "CC.Vec.C16_empty",
    "CC.Vec.C16_element",
    "CC.Vec.C16_swap",
    "CC.Vec.C16_create_n",
    "CC.Vec.C16_create_from_array",
    "CC.Vec.C16_history"
   ],
   "note": "every edit and every history of edits, element callbacks are arbitrary programs; for elements that own resources the histories must not reallocate (defect C22)"
  },
  {
   "property": "C17",
   "status": "proved",
   "theorems": [
    "CC.Vec.C17_size_le_capacity",
    "CC.Vec.C17_capacity",
    "CC.Vec.C17_push_back",
    "CC.Vec.C17_amortised"
   ],
   "note": "exact doubling, logarithmic number of reallocations, linear number of relocated elements"
  },
  {
   "property": "C18",
   "status": "partial",
   "theorems": [
    "CC.Vec.C18_insert_n_partial",
    "CC.Vec.C18_violated"
   ],
   "note": "violated by the code: characterised exactly; where the code asks for enough memory insert_n is correct, everywhere else it writes outside its storage"
  },
  {
   "property": "C19",
   "status": "partial",
   "theorems": [
    "CC.Vec.C19_reserve_partial",
    "CC.Vec.C19_violated"
   ],
   "note": "violated by the code: reserve changes the size whenever it has anything to do; capacity and old elements are right"
  },
  {
   "property": "C20",
   "status": "partial",
   "theorems": [
    "CC.Vec.C20_copy_partial",
    "CC.Vec.C20_copy_violated",
    "CC.Vec.C20_assign_partial",
    "CC.Vec.C20_assign_violated",
    "CC.Vec.C20_assign_self"
   ],
   "note": "violated by the code: characterised exactly for copy and assign of plain data"
  },
  {
   "property": "C21",
   "status": "partial",
   "theorems": [
    "CC.Vec.C21_push_back_partial",
    "CC.Vec.C21_push_back_violated",
    "CC.Vec.C21_insert_partial",
    "CC.Vec.C21_insert_violated"
   ],
   "note": "violated by the code: push_back of an own element is correct with room and a use after free without; insert copies the wrong element if it is behind the position"
  },
  {
   "property": "C22",
   "status": "partial",
   "theorems": [
    "CC.Vec.C22_lifecycle_partial",
    "CC.Vec.C22_destroy",
    "CC.Vec.C22_violated"
   ],
   "note": "violated by the code on relocation of elements that own resources; proved for all histories without such a relocation"
  },
  {
   "property": "C23",
   "status": "proved",
   "theorems": [
    "CC.Vec.C23_push_back",
    "CC.Vec.C23_insert_n",
    "CC.Vec.C23_resize",
    "CC.Vec.C23_shrink_to_fit",
    "CC.Vec.C23_create"
   ],
   "note": "push_back, insert_n, resize, shrink_to_fit, create with any allocator"
  },
  {
   "property": "C24",
   "status": "proved",
   "theorems": [
    "CC.Deq.C24_create_from",
    "CC.Deq.C24_push_back",
    "CC.Deq.C24_push_front",
    "CC.Deq.C24_push_back_nofail",
    "CC.Deq.C24_push_front_nofail",
    "CC.Deq.C24_pop_back",
    "CC.Deq.C24_pop_front",
    "CC.Deq.C24_pop_back_empty",
    "CC.Deq.C24_pop_front_empty",
    "CC.Deq.C24_insert_n",
    "CC.Deq.C24_insert_invalid",
    "CC.Deq.C24_erase",
    "CC.Deq.C24_erase_invalid",
    "CC.Deq.C24_erase_range",
    "CC.Deq.C24_erase_range_invalid",
    "CC.Deq.C24_clear",
    "CC.Deq.C24_resize_with_value",
    "CC.Deq.C24_shrink_to_fit",
    "CC.Deq.C24_swap",
    "CC.Deq.C24_size",
    "CC.Deq.C24_empty",
    "CC.Deq.C24_capacity",
    "CC.Deq.C24_at",
    "CC.Deq.C24_element",
    "CC.Deq.C24_front",
    "CC.Deq.C24_back",
    "CC.Deq.C24_history",
    "CC.Deq.C24_lifecycle"
   ],
   "note": "every edit and every history of edits with any allocator; element callbacks are arbitrary programs; for elements that own resources the histories must not reallocate"
  },
  {
   "property": "C25",
   "status": "partial",
   "theorems": [
    "CC.Deq.C25_copy_partial",
    "CC.Deq.C25_copy_violated",
    "CC.Deq.C25_assign_partial",
    "CC.Deq.C25_assign_self",
    "CC.Deq.C25_assign_violated",
    "CC.Deq.C25_assign_overflow_violated"
   ],
   "note": "violated by the code: characterised exactly for copy and assign of plain data (padded copy, lost elements, overflow)"
  },
  {
   "property": "C26",
   "status": "proved",
   "theorems": [
    "CC.Adapter.C26_stack_lifo",
    "CC.Adapter.C26_swap"
   ],
   "note": "whole client lives (create, any history, destroy) with list, vector and deque backends; swap of two stacks of the same backend kind"
  },
  {
   "property": "C27",
   "status": "partial",
   "theorems": [
    "CC.Adapter.C27_queue_fifo_partial",
    "CC.Adapter.C27_vector_violated"
   ],
   "note": "violated by the code for the vector backend (pop calls a NULL function pointer); proved for list and deque backends"
  },
  {
   "property": "C28",
   "status": "proved",
   "theorems": [
    "CC.Adapter.C28_priority_queue",
    "CC.Adapter.C28_drain",
    "CC.Adapter.C28_list_backend_stops"
   ],
   "note": "whole client lives with vector and deque backends (a list backend has no random access iterators, as the heap algorithms demand by assertion), memory not running out; see C83 for the iterator objects and for failing allocations"
  },
  {
   "property": "C29",
   "status": "partial",
   "theorems": [
    "CC.Adapter.C29_swap_partial",
    "CC.Adapter.C29_swap_violated"
   ],
   "note": "violated by the code when the comparisons differ: swap exchanges the contents but not the comparisons"
  },
  {
   "property": "C30",
   "status": "proved",
   "theorems": [
    "CC.Tree.C30_history",
    "CC.Tree.C30_sorted",
    "CC.Tree.C30_erase",
    "CC.Tree.C30_erase_range",
    "CC.Tree.C30_clear",
    "CC.Tree.C30_swap",
    "CC.Tree.C30_swap_self"
   ],
   "note": "every edit and every history of edits (arguments may alias the tree's own elements); one tree shape covers set, multiset, map and multimap, whose functions are thin wrappers"
  },
  {
   "property": "C31",
   "status": "proved",
   "theorems": [
    "CC.Tree.C31_present",
    "CC.Tree.C31_absent",
    "CC.Tree.C31_history",
    "CC.Tree.C31_insert_from",
    "CC.Tree.C31_insert_range",
    "CC.Tree.C31_insert_range_any"
   ],
   "note": "unique insertion, with a key present or absent, histories of unique insertions, insert_from"
  },
  {
   "property": "C32",
   "status": "proved",
   "theorems": [
    "CC.Tree.C32_insert_equal",
    "CC.Tree.C32_insert_from",
    "CC.Tree.C32_insert_range",
    "CC.Tree.C32_insert_range_any"
   ],
   "note": "insert_equal adds behind all equivalents; insert_from"
  },
  {
   "property": "C33",
   "status": "proved",
   "theorems": [
    "CC.Tree.C33_find_steps",
    "CC.Tree.C33_lower_bound_steps",
    "CC.Tree.C33_upper_bound_steps",
    "CC.Tree.C33_equal_range_steps",
    "CC.Tree.C33_insert_unique_steps",
    "CC.Tree.C33_insert_equal_steps",
    "CC.Tree.C33_insert_unique_hint_steps",
    "CC.Tree.C33_insert_equal_hint_steps",
    "CC.Tree.C33_erase_steps",
    "CC.Tree.C33_increment_steps",
    "CC.Tree.C33_decrement_steps",
    "CC.Tree.C33_balanced",
    "CC.Tree.C33_rb_verify",
    "CC.Tree.C33_rb_verify_history"
   ],
   "note": "red-black rules, height bound and the verifier's verdict after every history; *_steps bound the number of memory accesses of each lookup, insertion (with and without hint), erasure and iterator step by c*log2(n+1)+d with explicit constants"
  },
  {
   "property": "C34",
   "status": "proved",
   "theorems": [
    "CC.Tree.C34_find",
    "CC.Tree.C34_lower_bound",
    "CC.Tree.C34_upper_bound",
    "CC.Tree.C34_count",
    "CC.Tree.C34_equal_range",
    "CC.Tree.C34_equal_range_set",
    "CC.Tree.C34_equal_range_multiset",
    "CC.Tree.C34_equal_range_map",
    "CC.Tree.C34_equal_range_multimap"
   ],
   "note": "find, lower_bound, upper_bound, count and equal_range (iterators supplied by the caller)"
  },
  {
   "property": "C35",
   "status": "proved",
   "theorems": [
    "CC.Tree.C35_erase_key",
    "CC.Tree.C35_erase_from",
    "CC.Tree.C35_set_erase_from",
    "CC.Tree.C35_multiset_erase_from"
   ],
   "note": "erase_key and erase_from for keys of the size of elements (sets)"
  },
  {
   "property": "C36",
   "status": "proved",
   "theorems": [
    "CC.Tree.C36_increment",
    "CC.Tree.C36_decrement",
    "CC.Tree.C36_forward",
    "CC.Tree.C36_backward",
    "CC.Tree.C36_begin_end",
    "CC.Tree.C36_size",
    "CC.Tree.C36_empty",
    "CC.Tree.C36_distance",
    "CC.Tree.C36_advance",
    "CC.Tree.C36_reverse"
   ],
   "note": "increment, decrement, whole walks in both directions, begin, end, size, empty, distance"
  },
  {
   "property": "C37",
   "status": "proved",
   "theorems": [
    "CC.Tree.C37_insert_unique_present",
    "CC.Tree.C37_insert_unique_absent",
    "CC.Tree.C37_insert_equal"
   ],
   "note": "every hint, for unique and equal insertion"
  },
  {
   "property": "C38",
   "status": "proved",
   "theorems": [
    "CC.Tree.C38_stable",
    "CC.Tree.C38_survivors"
   ],
   "note": "addresses and stored values after every history of insertions, and of the survivors of erase"
  },
  {
   "property": "C39",
   "status": "partial",
   "theorems": [
    "CC.Tree.C39_create",
    "CC.Tree.C39_destroy_partial",
    "CC.Tree.C39_destroy_violated",
    "CC.Tree.C39_lifecycle_violated"
   ],
   "note": "violated by the code: clear and destroy release every element, but the header node is leaked by every create/destroy"
  },
  {
   "property": "C40",
   "status": "partial",
   "theorems": [
    "CC.Pair.C40_createNode_partial",
    "CC.Pair.C40_createNode_violated"
   ],
   "note": "violated by the code: c_pair_copy asserts on uninitialised memory; proved that insertion aborts whenever malloc's memory is not zero there, and that it is correct when it is zero"
  },
  {
   "property": "C41",
   "status": "partial",
   "theorems": [
    "CC.Algo.C41_sort_short_partial",
    "CC.Algo.C41_sort_any_partial",
    "CC.Algo.C41_sort_exact_partial",
    "CC.Algo.C41_sort_sorted_partial",
    "CC.Algo.C41_sort_ends_partial",
    "CC.Algo.C41_introsort_permutes",
    "CC.Algo.C41_sort_long_violated"
   ],
   "note": "violated by the code: up to 512 elements a sorted permutation; beyond, exactly characterised (C41_sort_exact_partial): sorted, in bounds, smallest first, largest last, a range in order stays so, but elements out of order behind the first 512 after partitioning are overwritten by larger ones (witness with 513 numbers)"
  },
  {
   "property": "C42",
   "status": "proved",
   "theorems": [
    "CC.Algo.C42_partial_sort",
    "CC.Algo.C42_partial_sort_copy"
   ],
   "note": "partial_sort_by and partial_sort_copy_by, every range and middle"
  },
  {
   "property": "C43",
   "status": "proved",
   "theorems": [
    "CC.Algo.C43_make_heap",
    "CC.Algo.C43_push_heap",
    "CC.Algo.C43_pop_heap",
    "CC.Algo.C43_sort_heap",
    "CC.Algo.C43_is_heap",
    "CC.Algo.C43_top"
   ],
   "note": "every function of c_heap.c except is_heap_until (C44)"
  },
  {
   "property": "C44",
   "status": "partial",
   "theorems": [
    "CC.Algo.C44_is_sorted",
    "CC.Algo.C44_is_sorted_until_partial",
    "CC.Algo.C44_is_heap_until_partial",
    "CC.Algo.C44_is_sorted_until_violated",
    "CC.Algo.C44_is_heap_until_violated"
   ],
   "note": "violated by the code: is_sorted_until and is_heap_until are wrong on every range that is not sorted / not a heap; is_sorted and is_heap are right"
  },
  {
   "property": "C45",
   "status": "proved",
   "theorems": [
    "CC.Algo.C45_lower_bound",
    "CC.Algo.C45_upper_bound",
    "CC.Algo.C45_binary_search",
    "CC.Algo.C45_equal_range",
    "CC.Algo.C45_sorted"
   ],
   "note": "every function of c_bsearch.c on ranges partitioned with respect to the value; sorted ranges are such ranges"
  },
  {
   "property": "C46",
   "status": "partial",
   "theorems": [
    "CC.Algo.C46_merge",
    "CC.Algo.C46_includes",
    "CC.Algo.C46_union",
    "CC.Algo.C46_intersection",
    "CC.Algo.C46_symmetric_difference",
    "CC.Algo.C46_difference_exact_partial",
    "CC.Algo.C46_difference_sublist_partial",
    "CC.Algo.C46_difference_partial",
    "CC.Algo.C46_difference_violated"
   ],
   "note": "violated by the code for set_difference: its exact effect on any ranges is proved (C46_difference_exact_partial) and that it is the difference if the elements of the second range are included in the first one, apart from those behind the whole first range; merge, includes, union, intersection and symmetric difference are proved"
  },
  {
   "property": "C47",
   "status": "proved",
   "theorems": [
    "CC.Algo.C47_all_of",
    "CC.Algo.C47_any_of",
    "CC.Algo.C47_none_of",
    "CC.Algo.C47_count",
    "CC.Algo.C47_count_if",
    "CC.Algo.C47_mismatch",
    "CC.Algo.C47_equal",
    "CC.Algo.C47_find",
    "CC.Algo.C47_find_if",
    "CC.Algo.C47_find_if_not",
    "CC.Algo.C47_find_first_of",
    "CC.Algo.C47_find_last_of",
    "CC.Algo.C47_adjacent_find",
    "CC.Algo.C47_search",
    "CC.Algo.C47_search_last",
    "CC.Algo.C47_search_n",
    "CC.Algo.C47_search_last_n",
    "CC.Algo.C47_search_zero",
    "CC.Algo.C47_for_each",
    "CC.Algo.C47_for_each_n",
    "CC.Algo.C47_list_range",
    "CC.Algo.C47_slist_range",
    "CC.Algo.C47_vector_range",
    "CC.Algo.C47_deque_range"
   ],
   "note": "every function of c_non_modifying.c, over overlapping ranges too; predicates are pure functions; for_each callbacks are arbitrary programs"
  },
  {
   "property": "C48",
   "status": "proved",
   "theorems": [
    "CC.Algo.C48_copy",
    "CC.Algo.C48_copy_left",
    "CC.Algo.C48_copy_if",
    "CC.Algo.C48_copy_backward",
    "CC.Algo.C48_copy_backward_right",
    "CC.Algo.C48_fill",
    "CC.Algo.C48_fill_n",
    "CC.Algo.C48_transform",
    "CC.Algo.C48_transform_in_place",
    "CC.Algo.C48_remove",
    "CC.Algo.C48_remove_if",
    "CC.Algo.C48_remove_copy",
    "CC.Algo.C48_remove_copy_if",
    "CC.Algo.C48_replace",
    "CC.Algo.C48_replace_if",
    "CC.Algo.C48_replace_copy",
    "CC.Algo.C48_replace_copy_if",
    "CC.Algo.C48_swap",
    "CC.Algo.C48_swap_range",
    "CC.Algo.C48_reverse",
    "CC.Algo.C48_reverse_copy",
    "CC.Algo.C48_rotate",
    "CC.Algo.C48_rotate_copy",
    "CC.Algo.C48_unique",
    "CC.Algo.C48_unique_copy"
   ],
   "note": "every function of c_modifying.c except generate and shuffle, including overlapping copies; predicates and operations are pure functions, values passed by reference lie outside of the modified range"
  },
  {
   "property": "C49",
   "status": "proved",
   "theorems": [
    "CC.Algo.C49_is_partitioned",
    "CC.Algo.C49_partition",
    "CC.Algo.C49_partition_copy",
    "CC.Algo.C49_partition_point"
   ],
   "note": "every function of c_partitioning.c"
  },
  {
   "property": "C50",
   "status": "proved",
   "theorems": [
    "CC.Algo.C50_max_element",
    "CC.Algo.C50_min_element",
    "CC.Algo.C50_minmax_element",
    "CC.Algo.C50_empty",
    "CC.Algo.C50_max",
    "CC.Algo.C50_min",
    "CC.Algo.C50_clamp",
    "CC.Algo.C50_lexicographical_compare"
   ],
   "note": "every function of c_min_max.c"
  },
  {
   "property": "C51",
   "status": "proved",
   "theorems": [
    "CC.Algo.C51_random_shuffle",
    "CC.Algo.C51_uniform"
   ],
   "note": "for every sequence of results of the generator within its documented range; the library's own generator stays in that range (floating point rounding not modelled)"
  },
  {
   "property": "C52",
   "status": "partial",
   "theorems": [
    "CC.Algo.C52_generate_partial",
    "CC.Algo.C52_generate_n",
    "CC.Algo.C52_generate_empty_violated"
   ],
   "note": "violated by the code on empty ranges (destroys an object that was never constructed); non-empty ranges and generate_n are correct"
  },
  {
   "property": "C53",
   "status": "proved",
   "theorems": [
    "CC.Pair.C53_less",
    "CC.Pair.C53_less_order",
    "CC.Pair.C53_equal",
    "CC.Pair.C53_assign",
    "CC.Pair.C53_destroy",
    "CC.Pair.C53_create"
   ],
   "note": "components of less/equal/assign are plain values; create/destroy with arbitrary component callbacks"
  },
  {
   "property": "C54",
   "status": "partial",
   "theorems": [
    "CC.Pair.C54_createNode_partial",
    "CC.Pair.C54_createNode_violated"
   ],
   "note": "violated by the code: the second half of the allocations (the components of the pair) can fail silently, leaving a dangling key pointer in the node; failures of the node or pair allocation are handled"
  },
  {
   "property": "C55",
   "status": "partial",
   "theorems": [
    "CC.Props.C55_list_partial",
    "CC.Props.C55_list_abort",
    "CC.Props.C55_list_erase_range_violated",
    "CC.Props.C55_forward_list",
    "CC.Props.C55_forward_list_abort",
    "CC.Props.C55_vector",
    "CC.Props.C55_vector_abort",
    "CC.Props.C55_deque",
    "CC.Props.C55_deque_abort",
    "CC.Props.C55_adapters",
    "CC.Props.C55_tree",
    "CC.Props.C55_tree_abort"
   ],
   "note": "harmless or assertion for every modelled function, for all memories and all other arguments; c_list_erase_range(NULL, first, last) never returns (C55_list_erase_range_violated)."
  },
  {
   "property": "C56",
   "status": "partial",
   "theorems": [
    "CC.Adapter.C56_swap_partial",
    "CC.Adapter.C56_swap_violated"
   ],
   "note": "proved for two adapters with the same kind of backend after any histories; different kinds are undefined behaviour (C56_swap_violated)."
  },
  {
   "property": "C57",
   "status": "proved",
   "theorems": [
    "CC.C57_set",
    "CC.C57_multiset"
   ],
   "note": "for allocators that do not fail (an insertion without memory stops at an assertion, C54/C39); one definition per function of c_set.c, generated from the C text; max_size and erase_from (see C35) not in the histories."
  },
  {
   "property": "C58",
   "status": "proved",
   "theorems": [
    "CC.C58_map",
    "CC.C58_multimap",
    "CC.C58_insert_lookup",
    "CC.C58_erase_lookup"
   ],
   "note": "at the level of element values: copying a pair is one step (the code's own pair copying is C40, C53, C54); max_size and erase_from (wrong stride for maps, see C35) not in the histories."
  },
  {
   "property": "C59",
   "status": "proved",
   "theorems": [
    "CC.C59_iterators",
    "CC.C59_vector",
    "CC.C59_deque",
    "CC.C59_deterministic"
   ],
   "note": "for lists, forward lists, vectors, deques and trees (sets, maps), all nine tables of iterator operations; moving out of range, decrementing forward-list iterators, C_ITER_LESS on non-random iterators are excluded (undefined: NULL function pointers)."
  },
  {
   "property": "C60",
   "status": "partial",
   "theorems": [
    "CC.C60_distance_partial",
    "CC.C60_distance_violated",
    "CC.C60_random_partial",
    "CC.C60_random_violated"
   ],
   "note": "violated by the code: for iterators and reverse iterators of vectors and deques distances are right forward (C60_random_partial, C59) and in all directions for types of size 1, but every backward distance of larger elements is a non-negative number (C60_random_violated)"
  },
  {
   "property": "C61",
   "status": "partial",
   "theorems": [
    "CC.Tree.C61_erase_from_strided",
    "CC.Tree.C61_multimap_erase_from_strided",
    "CC.Tree.C61_erase_from_partial",
    "CC.Tree.C61_erase_from_violated"
   ],
   "note": "violated by the code: the loop steps through the key array by the size of elements (C61_erase_from_violated; C61_erase_from_strided says exactly which keys are erased); proved where keys are as large as elements"
  },
  {
   "property": "C62",
   "status": "proved",
   "theorems": [
    "CC.IAlgo.C62_all_of",
    "CC.IAlgo.C62_any_of",
    "CC.IAlgo.C62_none_of",
    "CC.IAlgo.C62_count",
    "CC.IAlgo.C62_count_if",
    "CC.IAlgo.C62_equal",
    "CC.IAlgo.C62_lexicographical_compare",
    "CC.IAlgo.C62_find",
    "CC.IAlgo.C62_find_if",
    "CC.IAlgo.C62_find_if_not",
    "CC.IAlgo.C62_find_first_of",
    "CC.IAlgo.C62_find_last_of",
    "CC.IAlgo.C62_adjacent_find",
    "CC.IAlgo.C62_search",
    "CC.IAlgo.C62_search_last",
    "CC.IAlgo.C62_search_n",
    "CC.IAlgo.C62_search_last_n",
    "CC.IAlgo.C62_mismatch",
    "CC.IAlgo.C62_for_each",
    "CC.IAlgo.C62_for_each_n",
    "CC.IAlgo.C62_lower_bound",
    "CC.IAlgo.C62_upper_bound",
    "CC.IAlgo.C62_binary_search",
    "CC.IAlgo.C62_equal_range",
    "CC.IAlgo.C62_max_element",
    "CC.IAlgo.C62_min_element",
    "CC.IAlgo.C62_minmax_element",
    "CC.IAlgo.C62_is_partitioned",
    "CC.IAlgo.C62_partition_point",
    "CC.IAlgo.C62_find_if_whole"
   ],
   "note": "for lists, forward lists, vectors, deques and their reverse iterators (IAlgo/Views); malloc does not fail (for failures see C65); predicates are pure."
  },
  {
   "property": "C63",
   "status": "proved",
   "theorems": [
    "CC.IAlgo.C63_reverse_whole",
    "CC.IAlgo.C63_copy_whole",
    "CC.IAlgo.C63_copy",
    "CC.IAlgo.C63_copy_if",
    "CC.IAlgo.C63_remove_copy",
    "CC.IAlgo.C63_remove_copy_if",
    "CC.IAlgo.C63_replace_copy",
    "CC.IAlgo.C63_replace_copy_if",
    "CC.IAlgo.C63_reverse_copy",
    "CC.IAlgo.C63_unique_copy",
    "CC.IAlgo.C63_copy_left",
    "CC.IAlgo.C63_copy_backward",
    "CC.IAlgo.C63_copy_backward_right",
    "CC.IAlgo.C63_fill",
    "CC.IAlgo.C63_fill_n",
    "CC.IAlgo.C63_transform",
    "CC.IAlgo.C63_transform_in_place",
    "CC.IAlgo.C63_remove",
    "CC.IAlgo.C63_remove_if",
    "CC.IAlgo.C63_replace",
    "CC.IAlgo.C63_replace_if",
    "CC.IAlgo.C63_swap_range",
    "CC.IAlgo.C63_reverse",
    "CC.IAlgo.C63_rotate",
    "CC.IAlgo.C63_rotate_copy",
    "CC.IAlgo.C63_unique",
    "CC.IAlgo.C63_generate",
    "CC.IAlgo.C63_generate_n",
    "CC.IAlgo.C63_random_shuffle",
    "CC.IAlgo.C63_partition",
    "CC.IAlgo.C63_partition_copy",
    "CC.IAlgo.C63_merge",
    "CC.IAlgo.C63_union",
    "CC.IAlgo.C63_intersection",
    "CC.IAlgo.C63_symmetric_difference",
    "CC.IAlgo.C63_difference",
    "CC.IAlgo.C63_difference_exact",
    "CC.IAlgo.C63_includes"
   ],
   "note": "for lists, forward lists, vectors, deques and their reverse iterators; malloc does not fail; the functions of c_modifying.c that deliver a position check the address bits of the result variable's content instead of its category (C66), the theorems assume that check succeeds (hlow)."
  },
  {
   "property": "C64",
   "status": "partial",
   "theorems": [
    "CC.IAlgo.C64_sort_whole_partial",
    "CC.IAlgo.C64_heap_sort_whole",
    "CC.IAlgo.C64_make_heap_partial",
    "CC.IAlgo.C64_push_heap",
    "CC.IAlgo.C64_pop_heap",
    "CC.IAlgo.C64_sort_heap",
    "CC.IAlgo.C64_is_heap",
    "CC.IAlgo.C64_is_heap_until_partial",
    "CC.IAlgo.C64_sort_short_partial",
    "CC.IAlgo.C64_sort_any_partial",
    "CC.IAlgo.C64_partial_sort_partial",
    "CC.IAlgo.C64_partial_sort_copy_partial",
    "CC.IAlgo.C64_is_sorted",
    "CC.IAlgo.C64_is_sorted_until_partial"
   ],
   "note": "missing: sort of more than 512 elements loses elements (violated, C41; what remains true is C64_sort_any_partial), is_sorted_until/is_heap_until on ranges that are not sorted/heaps (violated, C44), make_heap/partial_sort through reverse iterators (the code computes positions before the buffer: hypothesis Far)."
  },
  {
   "property": "C65",
   "status": "partial",
   "theorems": [
    "CC.IAlgo.C65_all_of_violated",
    "CC.IAlgo.C65_find_if_violated",
    "CC.IAlgo.C65_lower_bound_violated",
    "CC.IAlgo.C65_copy_violated",
    "CC.IAlgo.C65_reverse_violated",
    "CC.IAlgo.C65_sort_violated",
    "CC.IAlgo.C65_max_partial",
    "CC.IAlgo.C65_min_partial"
   ],
   "note": "violated by the code: the algorithms do not check whether C_ITER_COPY could allocate (C65_*_violated: with no memory they dereference NULL); what holds: algo_max_by/algo_min_by return NULL (C65_max_partial, C65_min_partial)."
  },
  {
   "property": "C66",
   "status": "partial",
   "theorems": [
    "CC.IAlgo.C66_find_if_partial",
    "CC.IAlgo.C66_find_if_violated",
    "CC.IAlgo.C66_copy_violated",
    "CC.IAlgo.C66_copy_rejected_violated"
   ],
   "note": "violated by the code: an iterator of another kind passes the category check and is silently not moved (C66_find_if_violated, C66_copy_violated); c_modifying.c rejects valid iterators depending on their address (C66_copy_rejected_violated); delivered for iterators of the same kind (C66_find_if_partial, C62, C63)."
  },
  {
   "property": "C67",
   "status": "partial",
   "theorems": [
    "CC.Own.C67_swap",
    "CC.Own.C67_partition_copy",
    "CC.Own.C67_max",
    "CC.Own.C67_min",
    "CC.Own.C67_clamp",
    "CC.Own.C67_push_heap_violated",
    "CC.Own.C67_push_heap_partial",
    "CC.Own.C67_partial_sort_partial",
    "CC.Own.C67_partial_sort_plain_partial",
    "CC.Own.C67_partial_sort_copy_partial",
    "CC.Own.C67_partial_sort_copy_plain_partial",
    "CC.Own.C67_generate_violated",
    "CC.Own.C67_generate_partial",
    "CC.Own.C67_push_heap_boxes_violated",
    "CC.Own.C67_generate_empty_violated",
    "CC.Own.C67_all_of",
    "CC.Own.C67_any_of",
    "CC.Own.C67_none_of",
    "CC.Own.C67_for_each",
    "CC.Own.C67_for_each_n",
    "CC.Own.C67_count",
    "CC.Own.C67_count_if",
    "CC.Own.C67_mismatch",
    "CC.Own.C67_equal",
    "CC.Own.C67_find",
    "CC.Own.C67_find_if",
    "CC.Own.C67_find_if_not",
    "CC.Own.C67_find_first_of",
    "CC.Own.C67_find_last_of",
    "CC.Own.C67_adjacent_find",
    "CC.Own.C67_search",
    "CC.Own.C67_search_last",
    "CC.Own.C67_search_n",
    "CC.Own.C67_search_last_n",
    "CC.Own.C67_lower_bound",
    "CC.Own.C67_upper_bound",
    "CC.Own.C67_binary_search",
    "CC.Own.C67_equal_range",
    "CC.Own.C67_copy",
    "CC.Own.C67_copy_left",
    "CC.Own.C67_copy_if",
    "CC.Own.C67_copy_backward",
    "CC.Own.C67_copy_backward_right",
    "CC.Own.C67_fill",
    "CC.Own.C67_fill_n",
    "CC.Own.C67_transform",
    "CC.Own.C67_transform_in_place",
    "CC.Own.C67_remove",
    "CC.Own.C67_remove_if",
    "CC.Own.C67_remove_copy",
    "CC.Own.C67_remove_copy_if",
    "CC.Own.C67_replace",
    "CC.Own.C67_replace_if",
    "CC.Own.C67_replace_copy",
    "CC.Own.C67_replace_copy_if",
    "CC.Own.C67_swap_range",
    "CC.Own.C67_reverse",
    "CC.Own.C67_reverse_copy",
    "CC.Own.C67_rotate",
    "CC.Own.C67_rotate_copy",
    "CC.Own.C67_unique",
    "CC.Own.C67_unique_copy",
    "CC.Own.C67_is_partitioned",
    "CC.Own.C67_partition",
    "CC.Own.C67_partition_point",
    "CC.Own.C67_max_element",
    "CC.Own.C67_min_element",
    "CC.Own.C67_minmax_element",
    "CC.Own.C67_lexicographical_compare",
    "CC.Own.C67_random_shuffle",
    "CC.Own.C67_sort_short_partial",
    "CC.Own.C67_sort_any_partial",
    "CC.Own.C67_make_heap",
    "CC.Own.C67_pop_heap",
    "CC.Own.C67_sort_heap",
    "CC.Own.C67_is_heap",
    "CC.Own.C67_is_sorted",
    "CC.Own.C67_merge",
    "CC.Own.C67_includes",
    "CC.Own.C67_union",
    "CC.Own.C67_intersection",
    "CC.Own.C67_difference_exact_partial",
    "CC.Own.C67_difference_partial",
    "CC.Own.C67_symmetric_difference"
   ],
   "note": "proved for all algorithms with arbitrary element callbacks (malloc does not fail), except those that violate it: algo_push_heap_by frees its temporary object without destroying it (C67_push_heap_violated, C67_push_heap_boxes_violated), hence also partial_sort and partial_sort_copy may leave such remains (C67_partial_sort_partial, C67_partial_sort_copy_partial); algo_generate(_n) overwrites all but the last generated object (C67_generate_violated) and on an empty range destroys raw memory (C67_generate_empty_violated)"
  },
  {
   "property": "C68",
   "status": "proved",
   "theorems": [
    "CC.Vec.C68_vector_at",
    "CC.Vec.C68_vector_front",
    "CC.Vec.C68_vector_back",
    "CC.Vec.C68_vector_data",
    "CC.Vec.C68_vector_size",
    "CC.Vec.C68_vector_capacity",
    "CC.Vec.C68_vector_empty",
    "CC.Vec.C68_vector_swap",
    "CC.Deq.C68_deque_at",
    "CC.Deq.C68_deque_front",
    "CC.Deq.C68_deque_back",
    "CC.Deq.C68_deque_size",
    "CC.Deq.C68_deque_capacity",
    "CC.Deq.C68_deque_empty",
    "CC.Deq.C68_deque_swap",
    "CC.CList.C68_list_push_back",
    "CC.CList.C68_list_push_front",
    "CC.CList.C68_list_insert",
    "CC.CList.C68_list_pop_back",
    "CC.CList.C68_list_pop_front",
    "CC.CList.C68_list_erase",
    "CC.CList.C68_list_empty",
    "CC.CList.C68_list_front",
    "CC.CList.C68_list_back",
    "CC.CList.C68_list_splice_range",
    "CC.CList.C68_list_splice",
    "CC.CList.C68_list_splice_from",
    "CC.CList.C68_list_splice_later",
    "CC.CList.C68_list_splice_earlier",
    "CC.CList.C68_list_swap",
    "CC.SList.C68_slist_push_front",
    "CC.SList.C68_slist_insert_after",
    "CC.SList.C68_slist_pop_front",
    "CC.SList.C68_slist_erase_after",
    "CC.SList.C68_slist_empty",
    "CC.SList.C68_slist_front",
    "CC.SList.C68_slist_swap"
   ],
   "note": "memory accesses (loads, stores, malloc, free) are counted by the model; all operations listed in the statement have a constant bound, next to their functional specification"
  },
  {
   "property": "C69",
   "status": "partial",
   "theorems": [
    "CC.Vec.C69_vector_history",
    "CC.Deq.C69_deque_push_partial",
    "CC.Deq.C69_deque_stack_partial",
    "CC.Deq.C69_deque_stack_front_partial",
    "CC.Deq.C69_deque_history_partial",
    "CC.Deq.C69_deque_fifo_violated",
    "CC.Deq.C69_deque_program_violated"
   ],
   "note": "vectors: proved for every valid history (capacity at most twice the largest size). Deques: violated, n rounds of push_back and pop_front (one or two elements at any time) leave a capacity of at least n, C69_deque_fifo_violated, C69_deque_program_violated; proved: clients that only push (at either end) or use one end only keep at most four times the elements (plus two); for every valid history, with insert, erase, resize, clear and shrink, the storage is linear in the number of elements ever added (C69_deque_history_partial)"
  },
  {
   "property": "C70",
   "status": "proved",
   "theorems": [
    "CC.Algo.C70_all_of",
    "CC.Algo.C70_any_of",
    "CC.Algo.C70_none_of",
    "CC.Algo.C70_find_if",
    "CC.Algo.C70_find_if_not",
    "CC.Algo.C70_find",
    "CC.Algo.C70_count",
    "CC.Algo.C70_count_if",
    "CC.Algo.C70_for_each",
    "CC.Algo.C70_for_each_n",
    "CC.Algo.C70_mismatch",
    "CC.Algo.C70_equal",
    "CC.Algo.C70_adjacent_find",
    "CC.Algo.C70_search_n",
    "CC.Algo.C70_find_first_of",
    "CC.Algo.C70_find_last_of",
    "CC.Algo.C70_search",
    "CC.Algo.C70_search_last",
    "CC.Algo.C70_search_last_n",
    "CC.Algo.C70_lower_bound",
    "CC.Algo.C70_upper_bound",
    "CC.Algo.C70_equal_range",
    "CC.Algo.C70_binary_search",
    "CC.Algo.C70_max_element",
    "CC.Algo.C70_min_element",
    "CC.Algo.C70_minmax_element",
    "CC.Algo.C70_lexicographical_compare",
    "CC.Algo.C70_copy",
    "CC.Algo.C70_copy_if",
    "CC.Algo.C70_copy_backward",
    "CC.Algo.C70_fill",
    "CC.Algo.C70_fill_n",
    "CC.Algo.C70_transform",
    "CC.Algo.C70_remove_copy",
    "CC.Algo.C70_remove_copy_if",
    "CC.Algo.C70_replace_copy",
    "CC.Algo.C70_replace_copy_if",
    "CC.Algo.C70_reverse_copy",
    "CC.Algo.C70_unique_copy",
    "CC.Algo.C70_rotate_copy",
    "CC.Algo.C70_partition_copy",
    "CC.Algo.C70_generate",
    "CC.Algo.C70_generate_n",
    "CC.Algo.C70_remove",
    "CC.Algo.C70_remove_if",
    "CC.Algo.C70_replace",
    "CC.Algo.C70_replace_if",
    "CC.Algo.C70_unique",
    "CC.Algo.C70_swap_range",
    "CC.Algo.C70_reverse",
    "CC.Algo.C70_rotate",
    "CC.Algo.C70_random_shuffle",
    "CC.Algo.C70_partition",
    "CC.Algo.C70_is_partitioned",
    "CC.Algo.C70_partition_point",
    "CC.Algo.C70_is_sorted_until",
    "CC.Algo.C70_is_sorted",
    "CC.Algo.C70_merge",
    "CC.Algo.C70_includes",
    "CC.Algo.C70_set_difference",
    "CC.Algo.C70_set_intersection",
    "CC.Algo.C70_set_symmetric_difference",
    "CC.Algo.C70_set_union",
    "CC.Algo.C70_push_heap",
    "CC.Algo.C70_pop_heap",
    "CC.Algo.C70_make_heap",
    "CC.Algo.C70_sort_heap",
    "CC.Algo.C70_is_heap",
    "CC.Algo.C70_is_heap_until",
    "CC.Algo.C70_partial_sort",
    "CC.Algo.C70_partial_sort_copy",
    "CC.Algo.C70_find_correct",
    "CC.Algo.C70_lower_bound_correct",
    "CC.Algo.C70_merge_correct",
    "CC.Algo.C70_push_heap_correct",
    "CC.Algo.C70_partial_sort_correct",
    "CC.Algo.C70_sort",
    "CC.Algo.C70_sort_short"
   ],
   "note": "element accesses only (iterators are positions in this model; each iterator operation of a vector, deque or list is constant time, C68); user callbacks of for_each have a given cost.  sort is n log n although it may lose elements of ranges longer than 512 (C41)."
  },
  {
   "property": "C71",
   "status": "partial",
   "theorems": [
    "CC.Iter.C71_vector_null_partial",
    "CC.Iter.C71_vector_invalid_partial",
    "CC.Iter.C71_vector_violated",
    "CC.Iter.C71_vector_alone_violated",
    "CC.Iter.C71_deque_null_partial",
    "CC.Iter.C71_deque_invalid_partial",
    "CC.Iter.C71_deque_violated",
    "CC.Iter.C71_deque_alone_violated"
   ],
   "note": "violated by the code: the parameters are c_iterator_t by value, every call with a valid position reads memory behind its parameters (C71_vector_violated, C71_deque_violated); NULL and invalid positions behave as documented"
  },
  {
   "property": "C72",
   "status": "partial",
   "theorems": [
    "CC.Deq.C72_push_back_partial",
    "CC.Deq.C72_push_front_partial",
    "CC.Deq.C72_push_back_violated",
    "CC.Deq.C72_push_front_violated",
    "CC.Deq.C72_insert_end_partial",
    "CC.Deq.C72_insert_end_violated",
    "CC.Deq.C72_insert_start_partial",
    "CC.Deq.C72_insert_start_violated",
    "CC.Deq.C72_insert_full_violated"
   ],
   "note": "violated by the code: without room at the end (front) push_back (push_front) of an own element reads freed memory, insert copies a neighbour of the element or reads freed memory; the _partial theorems give the layouts where it works"
  },
  {
   "property": "C73",
   "status": "partial",
   "theorems": [
    "CC.Deq.C73_lifecycle_partial",
    "CC.Deq.C73_destroy",
    "CC.Deq.C73_violated"
   ],
   "note": "proved for every history that does not relocate elements owning something; violated otherwise: the storage is copied bit by bit and the old elements are destroyed (C73_violated)"
  },
  {
   "property": "C74",
   "status": "proved",
   "theorems": [
    "CC.IAlgo.C74_find_if",
    "CC.IAlgo.C74_find_if_reverse",
    "CC.IAlgo.C74_count_if",
    "CC.IAlgo.C74_lower_bound_agrees",
    "CC.IAlgo.C74_binary_search",
    "CC.IAlgo.C74_copy",
    "CC.IAlgo.C74_copy_reverse",
    "CC.IAlgo.C74_merge",
    "CC.IAlgo.C74_union",
    "CC.IAlgo.C74_intersection",
    "CC.IAlgo.C74_symmetric_difference"
   ],
   "note": "elements are plain values as everywhere in the iterator model; destinations are lists, forward lists, vectors and deques"
  },
  {
   "property": "C75",
   "status": "partial",
   "theorems": [
    "CC.IAlgo.C75_copy_partial",
    "CC.IAlgo.C75_copy_if_partial",
    "CC.IAlgo.C75_copy_backward_partial",
    "CC.IAlgo.C75_fill_partial",
    "CC.IAlgo.C75_fill_n_partial",
    "CC.IAlgo.C75_transform_partial",
    "CC.IAlgo.C75_generate_partial",
    "CC.IAlgo.C75_generate_n_partial",
    "CC.IAlgo.C75_remove_partial",
    "CC.IAlgo.C75_remove_if_partial",
    "CC.IAlgo.C75_remove_copy_partial",
    "CC.IAlgo.C75_replace_partial",
    "CC.IAlgo.C75_replace_if_partial",
    "CC.IAlgo.C75_replace_copy_partial",
    "CC.IAlgo.C75_replace_copy_if_partial",
    "CC.IAlgo.C75_swap_range_partial",
    "CC.IAlgo.C75_swap_range2_partial",
    "CC.IAlgo.C75_iter_swap_partial",
    "CC.IAlgo.C75_iter_swap2_partial",
    "CC.IAlgo.C75_reverse_partial",
    "CC.IAlgo.C75_reverse_copy_partial",
    "CC.IAlgo.C75_rotate_partial",
    "CC.IAlgo.C75_rotate_copy_partial",
    "CC.IAlgo.C75_random_shuffle_partial",
    "CC.IAlgo.C75_unique_partial",
    "CC.IAlgo.C75_unique_copy_partial",
    "CC.IAlgo.C75_partition_partial",
    "CC.IAlgo.C75_partition_copy_partial",
    "CC.IAlgo.C75_partition_copy2_partial",
    "CC.IAlgo.C75_merge_partial",
    "CC.IAlgo.C75_set_union_partial",
    "CC.IAlgo.C75_set_intersection_partial",
    "CC.IAlgo.C75_set_difference_partial",
    "CC.IAlgo.C75_set_symmetric_difference_partial",
    "CC.IAlgo.C75_partial_sort_partial",
    "CC.IAlgo.C75_partial_sort_copy_partial",
    "CC.IAlgo.C75_sort_partial",
    "CC.IAlgo.C75_push_heap_partial",
    "CC.IAlgo.C75_pop_heap_partial",
    "CC.IAlgo.C75_make_heap_partial",
    "CC.IAlgo.C75_sort_heap_partial",
    "CC.IAlgo.C75_remove_copy_if_violated"
   ],
   "note": "every writing algorithm except algo_remove_copy_if rejects iterators of sets and maps; algo_remove_copy_if lacks the check and destroys the order of the elements (C75_remove_copy_if_violated)"
  },
  {
   "property": "C76",
   "status": "partial",
   "theorems": [
    "CC.CSelf.C76_list_assign_swap",
    "CC.CSelf.C76_forward_list_assign_swap",
    "CC.CSelf.C76_vector_assign_swap",
    "CC.CSelf.C76_deque_assign_swap",
    "CC.CSelf.C76_tree_swap",
    "CC.CSelf.C76_stack_queue_swap",
    "CC.CSelf.C76_priority_queue_swap",
    "CC.CSelf.C76_list_merge_partial",
    "CC.CSelf.C76_list_merge_violated",
    "CC.CSelf.C76_forward_list_merge_violated",
    "CC.CSelf.C76_forward_list_merge_lost_violated",
    "CC.CSelf.C76_forward_list_merge_partial",
    "CC.CSelf.C76_insert_unique_range",
    "CC.CSelf.C76_insert_equal_range_violated"
   ],
   "note": "assign and swap hold for every container; violated by the code for merge: c_list_merge(l, l) never returns if a repeated element is not the greatest one (C76_list_merge_partial: it changes nothing otherwise), c_slist_merge(l, l) never returns or loses all elements; inserting the own range into a multiset or multimap never returns, into a set or map changes nothing"
  },
  {
   "property": "C77",
   "status": "partial",
   "theorems": [
    "CC.Tree.C77_history_partial",
    "CC.Tree.C77_present",
    "CC.Tree.C77_insert_unique_violated",
    "CC.Tree.C77_insert_equal_violated",
    "CC.Tree.C77_set_violated"
   ],
   "note": "with any allocator a history does what it does with enough memory or ends with a failed assertion (C77_history_partial); violated: an insertion that cannot allocate aborts the program instead of reporting failure"
  },
  {
   "property": "C78",
   "status": "partial",
   "theorems": [
    "CC.Props.C78_all_of",
    "CC.Props.C78_any_of",
    "CC.Props.C78_none_of",
    "CC.Props.C78_for_each",
    "CC.Props.C78_for_each_n",
    "CC.Props.C78_count",
    "CC.Props.C78_count_if",
    "CC.Props.C78_mismatch",
    "CC.Props.C78_equal",
    "CC.Props.C78_find",
    "CC.Props.C78_find_if",
    "CC.Props.C78_find_if_not",
    "CC.Props.C78_find_first_of",
    "CC.Props.C78_find_last_of",
    "CC.Props.C78_adjacent_find",
    "CC.Props.C78_search",
    "CC.Props.C78_search_last",
    "CC.Props.C78_search_n",
    "CC.Props.C78_search_last_n",
    "CC.Props.C78_lower_bound",
    "CC.Props.C78_upper_bound",
    "CC.Props.C78_binary_search",
    "CC.Props.C78_equal_range",
    "CC.Props.C78_max_element",
    "CC.Props.C78_min_element",
    "CC.Props.C78_minmax_element",
    "CC.Props.C78_lexicographical_compare",
    "CC.Props.C78_is_partitioned",
    "CC.Props.C78_partition",
    "CC.Props.C78_partition_copy",
    "CC.Props.C78_partition_point",
    "CC.Props.C78_copy",
    "CC.Props.C78_copy_if",
    "CC.Props.C78_copy_backward",
    "CC.Props.C78_fill",
    "CC.Props.C78_fill_n",
    "CC.Props.C78_transform",
    "CC.Props.C78_generate",
    "CC.Props.C78_generate_n",
    "CC.Props.C78_remove",
    "CC.Props.C78_remove_if",
    "CC.Props.C78_remove_copy",
    "CC.Props.C78_remove_copy_if",
    "CC.Props.C78_replace",
    "CC.Props.C78_replace_if",
    "CC.Props.C78_replace_copy",
    "CC.Props.C78_replace_copy_if",
    "CC.Props.C78_swap_range",
    "CC.Props.C78_reverse",
    "CC.Props.C78_reverse_copy",
    "CC.Props.C78_rotate",
    "CC.Props.C78_rotate_copy",
    "CC.Props.C78_random_shuffle",
    "CC.Props.C78_unique",
    "CC.Props.C78_unique_copy",
    "CC.Props.C78_merge",
    "CC.Props.C78_set_difference",
    "CC.Props.C78_set_intersection",
    "CC.Props.C78_set_symmetric_difference",
    "CC.Props.C78_set_union",
    "CC.Props.C78_includes",
    "CC.Props.C78_is_heap_until",
    "CC.Props.C78_is_heap",
    "CC.Props.C78_push_heap",
    "CC.Props.C78_pop_heap",
    "CC.Props.C78_make_heap",
    "CC.Props.C78_sort_heap",
    "CC.Props.C78_partial_sort",
    "CC.Props.C78_partial_sort_copy",
    "CC.Props.C78_sort",
    "CC.Props.C78_is_sorted_until",
    "CC.Props.C78_is_sorted",
    "CC.Props.C78_forms_violated"
   ],
   "note": "holds for all seventy-two functions; violated by the comparison-free macros, which dereference the first iterator before the function can check it (C78_forms_violated); NULL function pointers are not modelled here"
  },
  {
   "property": "C79",
   "status": "partial",
   "theorems": [
    "CC.IAlgo.C79_mismatch",
    "CC.IAlgo.C79_equal",
    "CC.IAlgo.C79_find",
    "CC.IAlgo.C79_find_first_of",
    "CC.IAlgo.C79_find_last_of",
    "CC.IAlgo.C79_adjacent_find",
    "CC.IAlgo.C79_search",
    "CC.IAlgo.C79_search_last",
    "CC.IAlgo.C79_search_n",
    "CC.IAlgo.C79_search_last_n",
    "CC.IAlgo.C79_unique",
    "CC.IAlgo.C79_unique_copy",
    "CC.IAlgo.C79_is_sorted",
    "CC.IAlgo.C79_is_sorted_until_partial",
    "CC.IAlgo.C79_sort_partial",
    "CC.IAlgo.C79_partial_sort_partial",
    "CC.IAlgo.C79_partial_sort_copy_partial",
    "CC.IAlgo.C79_lower_bound",
    "CC.IAlgo.C79_upper_bound",
    "CC.IAlgo.C79_binary_search",
    "CC.IAlgo.C79_equal_range",
    "CC.IAlgo.C79_merge",
    "CC.IAlgo.C79_includes",
    "CC.IAlgo.C79_set_difference",
    "CC.IAlgo.C79_set_intersection",
    "CC.IAlgo.C79_set_symmetric_difference",
    "CC.IAlgo.C79_set_union",
    "CC.IAlgo.C79_is_heap",
    "CC.IAlgo.C79_is_heap_until_partial",
    "CC.IAlgo.C79_make_heap_partial",
    "CC.IAlgo.C79_push_heap",
    "CC.IAlgo.C79_pop_heap",
    "CC.IAlgo.C79_sort_heap",
    "CC.IAlgo.C79_max_element",
    "CC.IAlgo.C79_min_element",
    "CC.IAlgo.C79_minmax_element",
    "CC.IAlgo.C79_lexicographical_compare",
    "CC.IAlgo.C79_sort_whole_partial"
   ],
   "note": "every form proved to be the _by form with the type's own function, with its full meaning where C41-C64 give it; _partial where the underlying algorithm is (sort of more than 512 elements, partial_sort, make_heap, is_sorted_until, is_heap_until)"
  },
  {
   "property": "C80",
   "status": "proved",
   "theorems": [
    "CC.Algo.C80_permutes",
    "CC.Algo.C80_every_arrangement",
    "CC.Algo.C80_few_numbers",
    "CC.IAlgo.C80_permutes_iterators"
   ],
   "note": "the generator's floating point is taken as exact rational arithmetic; every arrangement for ranges of up to 1048576 elements (C80_few_numbers shows why not beyond: the generator distinguishes only 2^20 numbers)"
  },
  {
   "property": "C81",
   "status": "partial",
   "theorems": [
    "CC.Prime.C81_create",
    "CC.Prime.C81_range",
    "CC.Prime.C81_copy",
    "CC.Prime.C81_assign",
    "CC.Prime.C81_assign_self",
    "CC.Prime.C81_less",
    "CC.Prime.C81_less_self",
    "CC.Prime.C81_equal",
    "CC.Prime.C81_lifecycle",
    "CC.Prime.C81_integer_order",
    "CC.Prime.C81_order_partial",
    "CC.Prime.C81_integers_real",
    "CC.Prime.C81_float_violated",
    "CC.Prime.C81_null_partial",
    "CC.Prime.C81_null_source_violated",
    "CC.Prime.C81_vector",
    "CC.Prime.C81_vector_elements"
   ],
   "note": "all fourteen types; violated for the floating types (not-a-number: equal is not reflexive and less is not a strict weak order on all values; the laws are proved for all other values) and for a NULL source of copy and assign (the assertion tests the destination twice: undefined behaviour)"
  },
  {
   "property": "C82",
   "status": "partial",
   "theorems": [
    "CC.Info.C82_refused",
    "CC.Info.C82_tree_refused",
    "CC.Info.C82_list",
    "CC.Info.C82_slist",
    "CC.Info.C82_vector",
    "CC.Info.C82_deque",
    "CC.Info.C82_adapter",
    "CC.Info.C82_priority_queue",
    "CC.Info.C82_tree",
    "CC.Info.C82_list_merge",
    "CC.Info.C82_list_merge_without",
    "CC.Info.C82_list_sort",
    "CC.Info.C82_list_sort_without",
    "CC.Info.C82_list_unique",
    "CC.Info.C82_list_unique_without",
    "CC.Info.C82_list_remove_partial",
    "CC.Info.C82_list_remove_violated",
    "CC.Info.C82_slist_merge",
    "CC.Info.C82_slist_merge_without",
    "CC.Info.C82_slist_sort",
    "CC.Info.C82_slist_sort_without",
    "CC.Info.C82_slist_unique",
    "CC.Info.C82_slist_unique_without",
    "CC.Info.C82_slist_remove_partial",
    "CC.Info.C82_slist_remove_violated",
    "CC.Info.C82_priority_queue_violated"
   ],
   "note": "all constructors, all subsets of entries; merge, sort and unique without their function proved to do nothing; violated by remove (calls the missing equal: undefined behaviour on every non-empty list) and by priority queues (accepted without any order; top is then the first element pushed)"
  },
  {
   "property": "C83",
   "status": "partial",
   "theorems": [
    "CC.Adapter.C83_priority_queue_partial",
    "CC.Adapter.C83_pop_violated",
    "CC.Adapter.C83_push_exhausted_partial"
   ],
   "note": "with enough memory proved for whole client lives with the code's own iterator objects; violated when the allocator is exhausted: pop removes the last element of the backend instead of the top, push appends without restoring the order"
  },
  {
   "property": "C84",
   "status": "partial",
   "theorems": [
    "CC.Vec.C84_vector_copy_partial",
    "CC.Vec.C84_vector_copy_violated",
    "CC.Vec.C84_vector_create_from_array_partial",
    "CC.Vec.C84_vector_create_from_array_violated",
    "CC.Vec.C84_vector_create_n",
    "CC.Vec.C84_vector_assign_partial",
    "CC.Vec.C84_vector_assign_violated",
    "CC.Deq.C84_deque_copy_partial",
    "CC.Deq.C84_deque_copy_violated",
    "CC.Deq.C84_deque_create_from_partial",
    "CC.Deq.C84_deque_create_from_violated",
    "CC.Deq.C84_deque_assign_partial",
    "CC.Deq.C84_deque_assign_violated"
   ],
   "note": "create_n proved for every allocator; copy, create_from_array, create_from and assign violated: the failure of the request for the elements is not noticed and they are copied to the NULL pointer or behind the storage (undefined behaviour); the parts that hold are the refused request for the object and assignments that fit"
  },
  {
   "property": "C85",
   "status": "partial",
   "theorems": [
    "CC.Vec.C85_vector_resize_partial",
    "CC.Vec.C85_vector_reserve_partial",
    "CC.Vec.C85_vector_create_n_partial",
    "CC.Vec.C85_vector_create_from_array_partial",
    "CC.Vec.C85_vector_insert_n_partial",
    "CC.Vec.C85_vector_push_back",
    "CC.Vec.C85_vector_resize_violated",
    "CC.Vec.C85_vector_create_n_violated",
    "CC.Vec.C85_vector_create_from_array_violated",
    "CC.Vec.C85_max_size_partial",
    "CC.Vec.C85_max_size_violated",
    "CC.Vec.C85_vector_push_back_contract",
    "CC.Deq.C85_deque_resize_partial",
    "CC.Deq.C85_deque_create_from_partial",
    "CC.Deq.C85_deque_insert_n_partial",
    "CC.Deq.C85_deque_push_back",
    "CC.Deq.C85_deque_push_front",
    "CC.Deq.C85_deque_resize_violated",
    "CC.Deq.C85_deque_create_from_violated"
   ],
   "note": "below the limit the functions in size_t arithmetic are proved to behave exactly as the unbounded ones (so that every other theorem applies to them); violated at the limit: products wrap, a block that is too small is requested and granted, and the elements are written behind it"
  },
  {
   "property": "C86",
   "status": "proved",
   "theorems": [
    "CC.CList.C86_list_size",
    "CC.CList.C86_list_clear",
    "CC.CList.C86_list_destroy",
    "CC.CList.C86_list_erase_range",
    "CC.CList.C86_list_resize",
    "CC.CList.C86_list_copy",
    "CC.CList.C86_list_assign",
    "CC.CList.C86_list_create_from",
    "CC.CList.C86_list_merge_by",
    "CC.CList.C86_list_merge",
    "CC.CList.C86_list_remove_if",
    "CC.CList.C86_list_remove",
    "CC.CList.C86_list_reverse",
    "CC.CList.C86_list_unique_if",
    "CC.CList.C86_list_unique",
    "CC.CList.C86_list_sort_by",
    "CC.CList.C86_list_sort",
    "CC.SList.C86_slist_clear",
    "CC.SList.C86_slist_destroy",
    "CC.SList.C86_slist_erase_after_range",
    "CC.SList.C86_slist_resize",
    "CC.SList.C86_slist_copy",
    "CC.SList.C86_slist_assign",
    "CC.SList.C86_slist_create_from",
    "CC.SList.C86_slist_merge_by",
    "CC.SList.C86_slist_merge",
    "CC.SList.C86_slist_splice_after_range",
    "CC.SList.C86_slist_splice_after",
    "CC.SList.C86_slist_splice_after_from",
    "CC.SList.C86_slist_remove_if",
    "CC.SList.C86_slist_remove",
    "CC.SList.C86_slist_reverse",
    "CC.SList.C86_slist_unique_if",
    "CC.SList.C86_slist_unique",
    "CC.SList.C86_slist_sort_by",
    "CC.SList.C86_slist_sort"
   ],
   "note": "every function that goes through a list, with explicit constants; comparison functions are pure in the model, their own cost is not counted"
  },
  {
   "property": "C87",
   "status": "proved",
   "theorems": [
    "CC.Vec.C87_vector",
    "CC.Deq.C87_deque"
   ],
   "note": "for plain element types (moving owned elements on reallocation is undefined behaviour, see C22 and C73) and allocators that do not fail; constants 26 + 3t (vector) and 43 + 11t (deque), t the cost of one element operation.  The proof is with a potential over the free slots, although the storage of a deque used as a queue grows without bound (C69)."
  },
  {
   "property": "C88",
   "status": "proved",
   "theorems": [
    "CC.Vec.C88_vector_push_back",
    "CC.Vec.C88_vector_pop_back",
    "CC.Vec.C88_vector_clear",
    "CC.Vec.C88_vector_destroy",
    "CC.Vec.C88_vector_erase",
    "CC.Vec.C88_vector_erase_invalid",
    "CC.Vec.C88_vector_erase_range",
    "CC.Vec.C88_vector_resize_with_value",
    "CC.Vec.C88_vector_resize",
    "CC.Vec.C88_vector_reserve",
    "CC.Vec.C88_vector_insert_n",
    "CC.Vec.C88_vector_insert_n_invalid",
    "CC.Vec.C88_vector_shrink_to_fit",
    "CC.Vec.C88_vector_copy",
    "CC.Vec.C88_vector_assign",
    "CC.Vec.C88_vector_create_n",
    "CC.Vec.C88_vector_create_from_array",
    "CC.Deq.C88_deque_push_back",
    "CC.Deq.C88_deque_push_front",
    "CC.Deq.C88_deque_pop_back",
    "CC.Deq.C88_deque_pop_front",
    "CC.Deq.C88_deque_clear",
    "CC.Deq.C88_deque_destroy",
    "CC.Deq.C88_deque_erase",
    "CC.Deq.C88_deque_erase_invalid",
    "CC.Deq.C88_deque_erase_range",
    "CC.Deq.C88_deque_erase_range_invalid",
    "CC.Deq.C88_deque_insert_n",
    "CC.Deq.C88_deque_insert_n_invalid",
    "CC.Deq.C88_deque_resize_grow",
    "CC.Deq.C88_deque_resize_shrink",
    "CC.Deq.C88_deque_shrink_to_fit",
    "CC.Deq.C88_deque_copy",
    "CC.Deq.C88_deque_create_from",
    "CC.Deq.C88_deque_assign_grow",
    "CC.Deq.C88_deque_assign_lost"
   ],
   "note": "every single operation with explicit constants, under the hypotheses under which the operation works at all (plain elements if the storage is reallocated: C22, C73; enough room computed by insert_n: C18; for deque assign into fewer slots, that the copy fits: C25)"
  },
  {
   "property": "C89",
   "status": "proved",
   "theorems": [
    "CC.Adapter.C89_stack",
    "CC.Adapter.C89_queue",
    "CC.Adapter.C89_priority_queue",
    "CC.Adapter.C89_priority_queue_log"
   ],
   "note": "whole lives with explicit constants for plain element types and an allocator that does not fail; size of a queue with a list backend counts the elements and is excluded; the calls of begin and end of a priority queue are positions (the iterator objects they allocate are in C83)"
  },
  {
   "property": "C90",
   "status": "partial",
   "theorems": [
    "CC.Tree.C90_verify_exact",
    "CC.Tree.C90_null",
    "CC.Tree.C90_empty",
    "CC.Tree.C90_sound_partial",
    "CC.Tree.C90_order_violated",
    "CC.Tree.C90_black_violated"
   ],
   "note": "exact characterisation of the accepted trees (C90_verify_exact) for every shape, colors and values; for trees in which every node has no child or two acceptance implies the red-black rules (C90_sound_partial). The code accepts an unordered tree and an unbalanced tree: C90_order_violated, C90_black_violated."
  },
  {
   "property": "C91",
   "status": "partial",
   "theorems": [
    "CC.Algo.C91_fill",
    "CC.Algo.C91_fill_n",
    "CC.Algo.C91_replace_new",
    "CC.Algo.C91_replace_if_new",
    "CC.Algo.C91_replace_old_exact",
    "CC.Algo.C91_replace_old_partial",
    "CC.Algo.C91_replace_violated",
    "CC.Algo.C91_remove_partial",
    "CC.Algo.C91_remove_violated",
    "CC.Algo.C91_swap_self",
    "CC.Algo.C91_count",
    "CC.Algo.C91_find"
   ],
   "note": "fill, fill_n, count, find, the new value of replace and replace_if, swap hold for every element of the range; replace of an own element is described exactly (C91_replace_old_exact) and proved to be right if no equal element lies behind it (C91_replace_old_partial), remove if the kept elements do not reach the element (C91_remove_partial); violated otherwise: C91_replace_violated, C91_remove_violated."
  },
  {
   "property": "C92",
   "status": "partial",
   "theorems": [
    "CC.SList.C92_other_partial",
    "CC.SList.C92_own_last_partial",
    "CC.SList.C92_own_kept_partial",
    "CC.SList.C92_own_violated",
    "CC.SList.C92_front_violated"
   ],
   "note": "violated by the code: use after free for a reference to any own element that is equal to itself and not the last one; all other cases proved correct (complete case distinction)"
  },
  {
   "property": "C93",
   "status": "proved",
   "theorems": [
    "CC.Deq.C93_check_exact",
    "CC.Deq.C93_check",
    "CC.Deq.C93_reallocate",
    "CC.Deq.C93_insert",
    "CC.Deq.C93_history"
   ],
   "note": "the check is modelled as compiled with ENABLE_CHECK_DEQUE_STATE; histories on plain data or without reallocation of owned elements, as in C24"
  },
  {
   "property": "C94",
   "status": "proved",
   "theorems": [
    "CC.Vec.C94_vector",
    "CC.Deq.C94_deque"
   ],
   "note": "Keeps/keep give the operations meant, in terms of sizes, capacities and positions only; erasures move the elements behind, insertions those on the side with room (back first)"
  },
  {
   "property": "C95",
   "status": "proved",
   "theorems": [
    "CC.Algo.C95_copy",
    "CC.Algo.C95_copy_if",
    "CC.Algo.C95_remove_copy",
    "CC.Algo.C95_remove_copy_if",
    "CC.Algo.C95_replace_copy",
    "CC.Algo.C95_replace_copy_if",
    "CC.Algo.C95_transform",
    "CC.Algo.C95_unique_copy",
    "CC.Algo.C95_partition_copy",
    "CC.Algo.C95_set_intersection",
    "CC.Algo.C95_set_difference",
    "CC.Algo.C95_copy_right",
    "CC.IAlgo.C95_iter_copy",
    "CC.IAlgo.C95_iter_copy_if",
    "CC.IAlgo.C95_iter_remove_copy",
    "CC.IAlgo.C95_iter_remove_copy_if",
    "CC.IAlgo.C95_iter_replace_copy",
    "CC.IAlgo.C95_iter_replace_copy_if",
    "CC.IAlgo.C95_iter_transform",
    "CC.IAlgo.C95_iter_unique_copy",
    "CC.IAlgo.C95_iter_partition_copy",
    "CC.IAlgo.C95_iter_set_intersection",
    "CC.IAlgo.C95_iter_set_difference"
   ],
   "note": "for positions (layer 5) and for calls with iterator objects of any container (C95_iter_*); set_difference in place does exactly what C46 says of a separate destination; C95_copy_right is the exact effect of copy in the wrong direction"
  },
  {
   "property": "C96",
   "status": "proved",
   "theorems": [
    "CC.C96_walk",
    "CC.C96_full_rounds",
    "CC.C96_distance",
    "CC.C96_distance_reaches"
   ],
   "note": "doubly linked lists only; incrementing the end of a tree or a forward list, and distances in the wrong order there, are not claimed"
  },
  {
   "property": "C97",
   "status": "proved",
   "theorems": [
    "CC.Info.L.C97_history",
    "CC.Info.L.C97_life",
    "CC.Info.L.C97_values",
    "CC.Info.L.C97_copy",
    "CC.Info.L.C97_assign",
    "CC.Info.L.C97_assign_other",
    "CC.Info.L.C97_copied_life"
   ],
   "note": "doubly linked lists (the functions that create or destroy elements; the others only relink nodes); forward lists in C98; tree nodes, pairs and algorithm temporaries, which call __c_allocate too, are modelled with malloc storage only; vectors and deques take all storage from malloc"
  },
  {
   "property": "C98",
   "status": "proved",
   "theorems": [
    "CC.Info.S.C98_history",
    "CC.Info.S.C98_copy",
    "CC.Info.S.C98_assign",
    "CC.Info.S.C98_assign_other",
    "CC.Info.S.C98_life",
    "CC.Info.S.C98_values"
   ],
   "note": "forward lists (the functions that create or destroy elements; the others only relink nodes)"
  },
  {
   "property": "C99",
   "status": "proved",
   "theorems": [
    "CC.Info.C99_list_remove_if",
    "CC.Info.C99_slist_remove_if",
    "CC.Info.C99_list_unique_if",
    "CC.Info.C99_slist_unique_if",
    "CC.Info.C99_list_remove",
    "CC.Info.C99_slist_remove",
    "CC.Info.C99_list_unique",
    "CC.Info.C99_slist_unique",
    "CC.Info.C99_list_none",
    "CC.Info.C99_slist_none"
   ],
   "note": "remove_if, remove, unique_if and unique of both lists, the predicate or equal function being an arbitrary program over owning elements"
  },
  {
   "property": "C100",
   "status": "proved",
   "theorems": [
    "CC.Info.C100_list_merge_by",
    "CC.Info.C100_list_merge",
    "CC.Info.C100_list_sort_by",
    "CC.Info.C100_list_sort_by_oom",
    "CC.Info.C100_list_sort",
    "CC.Info.C100_list_sort_oom",
    "CC.Info.C100_list_none",
    "CC.Info.C100_slist_none",
    "CC.Info.C100_slist_merge_by",
    "CC.Info.C100_slist_merge",
    "CC.Info.C100_slist_sort_by",
    "CC.Info.C100_slist_sort_by_oom",
    "CC.Info.C100_slist_sort",
    "CC.Info.C100_slist_sort_oom"
   ],
   "note": "merge_by, merge, sort_by and sort of both lists, the comparator being an arbitrary program over owning elements; with and without allocation failures"
  },
  {
   "property": "C101",
   "status": "proved",
   "theorems": [
    "CC.Info.C101_list_splice",
    "CC.Info.C101_list_splice_from",
    "CC.Info.C101_list_splice_range",
    "CC.Info.C101_list_other_type",
    "CC.Info.C101_list_swap",
    "CC.Info.C101_list_swap_types",
    "CC.Info.C101_list_reverse",
    "CC.Info.C101_slist_splice_after",
    "CC.Info.C101_slist_splice_after_from",
    "CC.Info.C101_slist_splice_after_range",
    "CC.Info.C101_slist_other_type",
    "CC.Info.C101_slist_swap",
    "CC.Info.C101_slist_swap_types",
    "CC.Info.C101_slist_reverse"
   ],
   "note": "the three splices, swap and reverse of both lists over owning elements, and splices between lists of different types doing nothing"
  }
 ]
}