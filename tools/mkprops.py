#!/usr/bin/env python3
"""Generates /verif/properties.jsonl (one JSON object per line)."""
import json
P=[]
def p(title, statement, quant, why, anchors):
    P.append(dict(id="C%02d"%(len(P)+1), title=title, statement=statement, quantifier=quant, why_tests_cant=why, anchors=anchors))
L="container/c_list.c"; S="container/c_forward_list.c"; V="container/c_vector.c"; D="container/c_deque.c"; T="container/c_tree.c"
ALG="algorithm/"
# ---------------- list
p("c_list edits behave like a sequence",
  "On a c_list holding x0..xn-1, push_back/push_front/insert/pop_back/pop_front/erase/erase_range/clear/resize/resize_with_value leave exactly the sequence the same edit gives on a mathematical list (copying the argument value), insert returns the position of the new element, erase the position after the removed one; front/back/empty/size report that sequence; pops on an empty list and erase(end) do nothing.",
  "every list contents, every valid position, every value (including a value that lives inside the list), every allocator behaviour",
  "tests run a few short lists; the claim is about every contents, every position and every heap layout",
  [L+":c_list_push_back,c_list_push_front,c_list_insert,c_list_erase,c_list_erase_range,c_list_pop_back,c_list_pop_front,c_list_clear,c_list_resize_with_value,c_list_size,c_list_front,c_list_back"])
p("c_list walks the same backwards and forwards",
  "After any public list operation, walking from begin with increment visits the elements in order and ends at end, and walking from end with decrement (or rbegin with reverse increment) visits exactly the same elements in the opposite order.",
  "every list state reachable through the public operations",
  "a broken prev link is invisible to forward-only checks and depends on the exact history of relinking",
  [L+":iter_increment,iter_decrement,reverse_iter_increment,__transfer,c_list_reverse"])
p("c_list survives allocation failure",
  "If malloc fails during push_back/push_front/insert/resize/sort/create, the call returns normally, no memory is leaked and the list is left as it was before the failed element insertion (sort leaves it untouched or fully sorted).",
  "every allocator behaviour (any pattern of failures and address reuse), every list",
  "tests cannot enumerate failure points of the allocator",
  [L+":__create_node,c_list_create,c_list_push_back,c_list_sort_by"])
p("c_list never leaks and never touches foreign memory",
  "Every list operation only reads and writes memory owned by the lists passed to it; destroy releases exactly the blocks the list owns: the heap afterwards is the heap from before creation, and pop/erase/clear release exactly the removed elements.",
  "every list, every surrounding heap contents",
  "leaks and stray writes depend on what else lives in the heap, which tests do not vary",
  [L+":c_list_destroy,__pop_node,c_list_clear"])
p("c_list splice moves elements without copying",
  "splice, splice_from and splice_range move the selected elements of one list in front of pos in another list: the values keep their addresses (no copy, no allocation), order is kept, the source list keeps exactly the remaining elements.",
  "every pair of distinct lists, every position, every sub-range; also a range moved within one list to a position outside it",
  "depends on all combinations of positions and lengths (empty prefix/suffix, whole list)",
  [L+":c_list_splice,c_list_splice_from,c_list_splice_range,__transfer"])
p("c_list merge is a stable merge",
  "merge_by of two lists sorted by a strict weak order gives one sorted list containing all elements, with equivalent elements of the first list before those of the second and the order inside each list kept; the other list becomes empty; nothing is copied or allocated. For unsorted input it still keeps every element exactly once.",
  "every pair of lists of the same type and every comparison",
  "interleavings grow exponentially with length",
  [L+":c_list_merge_by"])
p("c_list sort is a stable sort",
  "sort_by with a strict weak order leaves a sorted permutation of the list where equivalent elements keep their original relative order (stable), or, when an auxiliary list cannot be allocated, the unchanged list.",
  "every list (of fewer than 2^64 elements), every strict weak order, every allocator behaviour",
  "n! orders; the bottom-up merge has a binary-counter structure whose cases depend on the length",
  [L+":c_list_sort_by"])
p("c_list remove_if / remove keep exactly the non-matching elements",
  "remove_if(pred) keeps exactly the elements for which pred is false, in order, and releases the others; remove(value) does the same for equality with value provided value is not an element of the list.",
  "every list and predicate / value",
  "depends on the pattern of matches (runs, first, last)",
  [L+":c_list_remove,c_list_remove_if"])
p("c_list remove with a reference into the list is safe",
  "remove(list, value) removes all elements equal to the value value had at the call, also when value is a reference to one of the list's own elements (e.g. c_list_front(list)).",
  "every list and every reference, including references into the list",
  "the use after free is silent in most runs",
  [L+":c_list_remove"])
p("c_list reverse and unique",
  "reverse gives the reversed sequence (and reverse twice is the identity); unique_if(pred) keeps the first element of each maximal run in which every element matches the run's first element.",
  "every list, every binary predicate (not only equivalences)",
  "run patterns are unbounded",
  [L+":c_list_reverse,c_list_unique_if"])
p("c_list copy/assign give an independent equal list",
  "copy returns a fresh list with equal contents (when memory suffices) that shares no memory with the source, source unchanged; assign(self, other) makes self's contents equal to other's, assign(self,self) changes nothing; swap exchanges the contents.",
  "every pair of lists, every allocator behaviour",
  "sharing bugs show up only under later mutation histories",
  [L+":c_list_copy,c_list_assign,c_list_swap,c_list_create_from"])
p("c_list references stay valid",
  "An element's address (and so every iterator or reference to it) is unchanged by any operation that does not remove that element: insert, push, pop/erase of others, splice, merge, sort, reverse, swap.",
  "every history of list operations",
  "tests re-read iterators after few operations only",
  [L+":__create_node,__transfer,c_list_sort_by,c_list_reverse"])
# ---------------- slist
p("c_slist edits behave like a sequence",
  "On a c_slist, push_front/pop_front/insert_after/erase_after/erase_after_range/clear/resize behave like the same edit on a mathematical list, front/empty report it, and before_begin/begin/end delimit it.",
  "every contents, every position, every value, every allocator behaviour",
  "tests run a few short lists",
  [S+":c_slist_push_front,c_slist_insert_after,c_slist_erase_after,c_slist_erase_after_range,c_slist_resize_with_value"])
p("c_slist merge/sort stable, splice/reverse/unique/remove exact",
  "merge_by and sort_by are stable and keep all elements; splice_after moves without copying; reverse, unique_if, remove_if have their list meaning.",
  "every list, comparison, predicate",
  "unbounded lengths and orders",
  [S+":c_slist_merge_by,c_slist_sort_by,c_slist_splice_after,c_slist_reverse,c_slist_unique_if,c_slist_remove_if"])
p("c_slist never leaks",
  "slist operations stay inside the lists' own memory and destroy releases every block the list owns (nodes, element storage, both sentinels and the header).",
  "every list and surrounding heap, every allocator behaviour",
  "leaks depend on history and heap contents",
  [S+":c_slist_destroy,__pop_node"])
# ---------------- vector
p("c_vector edits behave like a sequence",
  "push_back, pop_back, insert (one), erase, erase_range, clear, resize, resize_with_value on a c_vector give the same contents as the same edit on a mathematical list, at/front/back/data/size/empty report it, for values that are not inside the vector.",
  "every contents, capacity, valid position, value, allocator behaviour",
  "reallocation boundaries depend on history of size and capacity",
  [V+":c_vector_push_back,c_vector_insert,c_vector_erase,c_vector_erase_range,c_vector_resize_with_value,c_vector_pop_back"])
p("c_vector size never exceeds capacity and growth is amortised",
  "size <= capacity always; push_back changes capacity only when full and then at least doubles it, so n push_backs to an empty vector reallocate at most logarithmically often and copy O(n) elements.",
  "every number of push_backs, every initial state",
  "a cost statement over all histories",
  [V+":__reallocate_and_move,c_vector_push_back"])
p("c_vector insert_n inserts n copies",
  "insert_n(pos, n, v) inserts n copies of v before pos without writing outside the vector's storage.",
  "every size, capacity, position, count",
  "overflows only for particular combinations of size, capacity and count",
  [V+":c_vector_insert_n,__reallocate_and_move"])
p("c_vector reserve changes capacity only",
  "reserve(n) makes capacity at least n and changes neither size nor elements.",
  "every vector and n",
  "tests check capacity only",
  [V+":c_vector_reserve"])
p("c_vector copy and assign reproduce the contents",
  "copy(other) has exactly other's elements; assign(self, other) makes self's elements exactly other's, leaving other unchanged.",
  "every pair of vectors, including those with spare capacity",
  "only visible when size < capacity",
  [V+":c_vector_copy,c_vector_assign"])
p("c_vector accepts references into itself",
  "push_back/insert with a value that is an element of the same vector stores a copy of that element's value.",
  "every vector, including full ones",
  "use after free only when the call reallocates",
  [V+":c_vector_push_back,__reallocate_and_move"])
p("c_vector destroys every element exactly once",
  "Over the life of a vector the value type's destroy is called exactly once for each element that was created or copied into it.",
  "every history",
  "double destroy is invisible for built-in types used in tests",
  [V+":__reallocate_and_move,c_vector_shrink_to_fit,c_vector_clear"])
p("c_vector allocation failure is safe",
  "If malloc fails, push_back/insert/resize leave the vector unchanged and usable; shrink_to_fit never changes the contents.",
  "every allocator behaviour",
  "failure points cannot be enumerated by tests",
  [V+":__reallocate_and_move,c_vector_shrink_to_fit"])
# ---------------- deque
p("c_deque edits behave like a sequence",
  "push_back, push_front, pop_back, pop_front, insert, insert_n, erase, erase_range, clear, resize on a c_deque give the same contents as the same edit on a mathematical list and never write outside the deque's storage.",
  "every contents, every split of free space before/after the elements, every position and count, every allocator behaviour",
  "insertion has three shifting strategies selected by free space at both ends",
  [D+":c_deque_push_back,c_deque_push_front,c_deque_insert_n,__insert_aux,__reallocate_and_move,c_deque_erase_range"])
p("c_deque copy and assign reproduce the contents",
  "copy(other) has exactly other's elements; assign(self, other) makes self's elements exactly other's.",
  "every pair of deques",
  "only visible when size < capacity",
  [D+":c_deque_copy,c_deque_assign"])
# ---------------- adapters
p("c_stack is LIFO",
  "Any sequence of push/pop/top on a c_stack behaves as a LIFO stack: top is the last pushed value not yet popped, empty says whether there is one, pop on empty does nothing.",
  "every history of operations, every backend (deque, list, vector)",
  "histories are unbounded",
  ["container/c_stack.c:c_stack_push,c_stack_pop,c_stack_top"])
p("c_queue is FIFO",
  "Any sequence of push/pop/front/back on a c_queue behaves as a FIFO queue on every backend the library offers.",
  "every history, every backend (deque, list, vector)",
  "histories are unbounded; one backend lacks an operation",
  ["container/c_queue.c:c_queue_push,c_queue_pop", V+":c_vector_create_backend"])
p("c_priority_queue always yields a maximum",
  "top is always an element no other element is greater than, pop removes exactly that element, push adds exactly one; so popping everything yields the elements in descending order.",
  "every history, every strict weak order, every random access backend (vector, deque)",
  "heap shape depends on the whole history",
  ["container/c_priority_queue.c:c_priority_queue_push,c_priority_queue_pop,c_priority_queue_top", ALG+"c_heap.c:algo_push_heap_by,algo_pop_heap_by"])
p("c_priority_queue swap exchanges the queues",
  "After swap each queue behaves exactly as the other did before (also when their comparisons differ).",
  "every pair of queues",
  "needs two queues with different comparisons and later operations",
  ["container/c_priority_queue.c:c_priority_queue_swap"])
# ---------------- tree
p("ordered containers stay sorted and keep exactly the inserted elements",
  "Iterating a c_set/c_multiset/c_map/c_multimap tree from begin to end visits the elements in key order; insert adds exactly the new element, erase removes exactly the designated one.",
  "every history of insertions and erasures, every strict weak order",
  "tree shapes depend on the whole history",
  [T+":c_tree_insert_unique,c_tree_insert_equal,c_tree_erase,__insert,__rebalance,__rebalance_for_erase"])
p("unique insertion never stores two equivalent keys",
  "insert_unique adds the element iff no element with an equivalent key is present, otherwise returns the existing element unmodified; the result iterator designates the element with that key.",
  "every tree, every value",
  "depends on where the equivalent key sits in the tree",
  [T+":c_tree_insert_unique,c_tree_insert_unique_value"])
p("equal insertion keeps insertion order among equivalents",
  "insert_equal adds the element after all elements with an equivalent key.",
  "every tree, every value",
  "depends on shape and rotations",
  [T+":c_tree_insert_equal,c_tree_insert_equal_value"])
p("the tree stays balanced",
  "After every history of insertions and erasures the tree satisfies the red-black rules, so its height is at most 2*log2(n+1) and every lookup/insert/erase takes O(log n) steps.",
  "every history",
  "a rare rebalancing case can hide from tests; height is a worst-case claim",
  [T+":__rebalance,__rebalance_for_erase"])
p("lookup is exact",
  "find returns an element with an equivalent key iff one exists (else end); lower_bound / upper_bound return the first element not less / greater than the key; count is the number of elements with an equivalent key; equal_range is [lower_bound, upper_bound).",
  "every tree satisfying the order, every key",
  "all shapes and key placements",
  [T+":c_tree_find,c_tree_lower_bound,c_tree_upper_bound,c_tree_count,c_tree_equal_range"])
p("erasing by key removes exactly the equivalent elements",
  "erase_key(key) removes all elements with an equivalent key and nothing else, and returns how many were removed.",
  "every tree and key",
  "duplicates spread over the tree",
  [T+":c_tree_erase_key,c_tree_erase_range"])
p("tree iteration is reversible and complete",
  "increment visits each element once in order ending at end; decrement from end visits them in reverse; begin/end/size/empty agree.",
  "every tree shape",
  "successor through ancestors depends on the shape; the header special case only appears for small trees",
  [T+":__tree_node_increment,__tree_node_decrement,iter_increment,iter_decrement"])
p("hinted insertion is equivalent to plain insertion",
  "insert_unique/insert_equal with a hint add the element at a correct place whatever hint is given (good, bad, begin, end).",
  "every tree, hint, value",
  "many hint cases",
  [T+":c_tree_insert_unique_with_hint,c_tree_insert_equal_with_hint"])
p("tree references stay valid",
  "An element's address is unchanged by insertion or erasure of other elements (nodes are relinked, never copied).",
  "every history",
  "two-children erase relinks the successor, tests compare values only",
  [T+":__rebalance_for_erase"])
p("tree destroy releases all memory",
  "c_tree_destroy (c_set_destroy, c_map_destroy) releases every block the container owns; clear releases every element.",
  "every tree",
  "leaks are invisible to assertions",
  [T+":c_tree_destroy,c_tree_clear"])
p("c_map pairs are created from the given key and value",
  "Inserting a pair into a map stores copies of key and mapped value, whatever bytes malloc returned.",
  "every pair, every allocator behaviour (contents of fresh memory)",
  "depends on uninitialised memory",
  ["container/c_pair.c:c_pair_copy", "container/c_map.c"])
# ---------------- algorithms
p("sort sorts and permutes",
  "algo_sort_by leaves the range a permutation of its former contents, ordered by comp; nothing outside the range changes and nothing outside is read.",
  "every range length, every contents, every strict weak order",
  "introsort has depth, threshold and pivot cases; ranges longer than 512 take a different path",
  [ALG+"c_sorting.c:algo_sort_by,__introspective_sort_by,__partition_by,__final_insertion_sort_by,__unguarded_linear_sort_by"])
p("partial_sort and partial_sort_copy",
  "partial_sort_by puts the smallest middle-first elements sorted in front and permutes the rest; partial_sort_copy_by writes the smallest min(n,m) elements sorted into the destination, source unchanged.",
  "every range, middle, order",
  "heap shapes",
  [ALG+"c_sorting.c:algo_partial_sort_by,algo_partial_sort_copy_by"])
p("heap operations maintain the heap",
  "make_heap yields a heap permutation; push_heap/pop_heap maintain the heap and multiset, pop_heap moves a maximum to the end; sort_heap yields a sorted permutation; is_heap decides the heap property.",
  "every range and strict weak order",
  "all shapes",
  [ALG+"c_heap.c"])
p("is_heap_until / is_sorted_until return the longest valid prefix",
  "is_sorted_until (is_heap_until) sets until to the last iterator it such that [first,it) is sorted (a heap), as documented.",
  "every range",
  "off-by-one visible only on particular inputs",
  [ALG+"c_sorting.c:algo_is_sorted_until_by", ALG+"c_heap.c:algo_is_heap_until_by", "include/c_algorithm.h"])
p("binary searches find the partition point",
  "lower_bound/upper_bound/binary_search/equal_range on a range partitioned with respect to the value return the exact partition points / membership.",
  "every range length and value",
  "halving arithmetic boundary cases",
  [ALG+"c_bsearch.c"])
p("set operations on sorted ranges compute multiset operations",
  "merge, includes, set_difference, set_intersection, set_symmetric_difference, set_union on sorted ranges write the sorted multiset result and report its length.",
  "every pair of sorted ranges, every strict weak order",
  "interleavings and multiplicities",
  [ALG+"c_set_op.c"])
p("non-modifying searches are exact",
  "all_of/any_of/none_of/count/count_if/find*/adjacent_find/mismatch/equal/search/search_last/search_n/find_first_of/find_last_of return the first (last) position with the specified property or report absence, and never change the ranges.",
  "every range, predicate, needle",
  "overlapping partial matches",
  [ALG+"c_non_modifying.c"])
p("modifying algorithms compute their list function",
  "copy, copy_if, copy_backward, fill, transform, remove(_copy)(_if), replace(_copy)(_if), swap_range, reverse(_copy), rotate(_copy), unique(_copy) write exactly the specified elements to the specified positions and nothing else.",
  "every range, predicate, destination",
  "positions and lengths unbounded",
  [ALG+"c_modifying.c"])
p("partitioning",
  "partition moves all elements satisfying pred before the others (a permutation), returns the boundary; is_partitioned, partition_copy and partition_point are exact.",
  "every range and predicate",
  "patterns unbounded",
  [ALG+"c_partitioning.c"])
p("min/max/clamp/lexicographic comparison",
  "max_element/min_element/minmax_element return the first extreme element, clamp bounds a value, lexicographical_compare is dictionary order.",
  "every range and strict weak order",
  "ties and lengths",
  [ALG+"c_min_max.c"])
p("random_shuffle permutes",
  "random_shuffle_by leaves a permutation of the range for every random generator.",
  "every range, every generator result sequence",
  "randomness",
  [ALG+"c_modifying.c:algo_random_shuffle_by"])
p("generate assigns the generated values",
  "generate(first,last,gen) assigns the results of successive calls of gen to the elements of the range in order and does nothing on an empty range; generate_n likewise for n elements.",
  "every range including the empty one, every generator",
  "the empty range destroys a temporary that was never constructed: visible only for element types whose destroy dereferences something",
  [ALG+"c_modifying.c:algo_generate", ALG+"c_modifying.c:algo_generate_n"])
# ---------------- pairs
p("pairs are a proper element type",
  "c_pair's less is the dictionary order of the component orders (a strict weak order if they are), equal compares both components, assign overwrites both with the source's values, create default-constructs both, destroy releases both.",
  "every two pairs of every component types",
  "holds for all values and orders",
  ["container/c_pair.c:c_pair_less,c_pair_equal,c_pair_assign,c_pair_create,c_pair_destroy"])
p("a map insertion that runs out of memory has no effect",
  "If any allocation needed to store a new pair fails, the insertion reports failure (no element), leaks nothing and leaves no half-built pair reachable.",
  "every pair, every pattern of allocation failures",
  "needs fault injection at each allocation",
  ["container/c_pair.c:c_pair_copy", "container/c_tree.c:__create_node"])
p("NULL arguments are never dereferenced",
  "A call with a NULL container, value, array or type argument either returns at once with a neutral result (nothing inserted, size 0, empty, the given position, NULL) and leaves all memory alone, or stops at an assertion; it always returns or stops.",
  "every public function of the containers and adapters, every value of the other arguments, every memory",
  "hundreds of argument combinations; one of them hangs",
  ["container/c_list.c", "container/c_forward_list.c", "container/c_vector.c", "container/c_deque.c", "container/c_tree.c", "container/c_stack.c", "container/c_queue.c", "container/c_priority_queue.c"])
p("swap exchanges adapters whatever their backends",
  "After c_stack_swap/c_queue_swap each adapter holds exactly what the other held, for every combination of backends.",
  "every pair of adapters, every history before the swap",
  "needs two adapters with different backends",
  ["container/c_stack.c:c_stack_swap", "container/c_queue.c:c_queue_swap", "container/c_list.c:backend_swap"])
p("sets and multisets are ordered sets and multisets",
  "Every history of creating two sets (or multisets), inserting (single, hinted, arrays, ranges of the other container), erasing (position, range, key), clearing, looking up (find, count, lower_bound, upper_bound), reading in both directions, swapping and destroying observes exactly what the abstract ordered set (multiset) would: returned positions, elements, counts; elements always ascending, a set holds no equivalent elements, equivalent elements of a multiset stay in insertion order; the client's own objects are never changed.",
  "every history of operations on two containers, every strict weak order, every element type",
  "unbounded histories and interactions of two containers",
  ["container/c_set.c", "container/c_tree.c"])
p("maps and multimaps are finite maps",
  "The same for maps and multimaps: the contents is a list of (key, value) pairs ordered by key; lookups take bare keys; inserting a pair whose key is present changes nothing and returns the existing pair; erase_key unbinds exactly that key.",
  "every history of operations on two maps, every strict weak order of keys, every key and value type",
  "unbounded histories",
  ["container/c_map.c", "container/c_tree.c"])
p("iterators are positions",
  "For any number of containers of any kinds, forward and reverse iterators of all of them, and any sequence of iterator operations that stay in range (begin/end, copy, assign, increment, decrement, post-increment, post-decrement, dereference, equality, less, advance, distance, freeing copies): dereferencing yields the element at the position, two iterators are equal exactly if they are at the same position of the same container and direction, distance and advance agree with the number of steps, a copy is independent of its original, assignment between iterators of different kinds changes nothing, containers are never modified, and nothing is leaked (a copy that cannot be allocated is NULL).",
  "every collection of containers in every state, every sequence of operations, every pattern of allocation failures",
  "unbounded sequences over any number of aliasing iterator objects",
  ["include/c_def.h:c_iterator_t,C_ITER_COPY,C_ITER_ASSIGN,C_ITER_INC,C_ITER_DEREF,C_ITER_EQ,C_ITER_ADVANCE,C_ITER_DISTANCE", "include/c_internal.h:__c_iter_copy_or_assign", "container/c_list.c:iter_increment,reverse_iter_increment", "container/c_forward_list.c:iter_increment", "container/c_vector.c:iter_advance,iter_distance", "container/c_deque.c:iter_advance,iter_distance", "container/c_tree.c:iter_increment,reverse_iter_increment"])
p("distance of random access iterators is signed",
  "C_ITER_DISTANCE(first, last) of two iterators of one vector or deque is the difference of their positions, negative if last is before first, so that advancing first by it always reaches last.",
  "every pair of positions, every element size, every vector",
  "the result depends on sizes and signs; only forward distances are usually tried",
  ["container/c_vector.c:iter_distance,reverse_iter_distance", "container/c_deque.c:iter_distance,reverse_iter_distance"])
p("Erasing an array of keys from a map erases all of them",
  "erase_from(map, first, last) over an array of keys removes from a map or multimap every element whose key is equivalent to one of the keys in the array, removes no other element, and reads nothing beyond the array, whatever the sizes of keys and elements.",
  "all maps, all arrays of keys, all sizes of key and element types",
  "whether the keys are found at the right offsets depends on the ratio of two sizes and on the array length; tests with equal sizes see no difference",
  ["container/c_tree.c:c_tree_erase_from", "container/c_map.c:c_map_erase_from,c_multimap_erase_from"])
p("Searching algorithms work through iterator objects of any container",
  "Called with iterator objects of a list, forward list, vector or deque (forward or reverse), the searching algorithms (all_of, any_of, none_of, count, equal, lexicographical_compare, find family, search family, mismatch, for_each, lower/upper_bound, binary_search, equal_range, min/max_element, is_partitioned, partition_point) return what their definition says about the elements the range delimits; a result is delivered through the caller's variable whether it held NULL (a fresh iterator is allocated) or an iterator (assigned in place) and not at all if the argument is NULL; the caller's own iterators and the container are not changed, and every working copy the algorithm allocated has been freed.",
  "every container contents and kind, every range, every result variable, every predicate",
  "the code works on heap-allocated copies of iterator objects with dynamically dispatched operations; a leak or an aliased iterator is not visible in a returned value",
  ["algorithm/c_non_modifying.c", "algorithm/c_bsearch.c", "algorithm/c_min_max.c", "algorithm/c_partitioning.c", "include/c_internal.h:__c_iter_copy_or_assign,__c_iter_copy_and_move"])
p("Modifying algorithms work through iterator objects of any container",
  "The same for the algorithms that write: copy, copy_if, copy_backward, fill, transform, remove, replace, swap_range, reverse, rotate, unique, generate, random_shuffle, partition and their copying variants, merge and the set operations: only the elements of the destination range change, to what the definition of the algorithm says; the returned iterator stands just after the last element written; sources, other iterators and the structure of all containers are unchanged and no working copy is left.",
  "every pair of containers of any kinds, every range, overlapping ranges where the algorithm allows them",
  "the interplay of source and destination containers of different kinds and of several temporary iterators is unbounded",
  ["algorithm/c_modifying.c", "algorithm/c_partitioning.c", "algorithm/c_set_op.c"])
p("Sorting and heap algorithms work through iterator objects",
  "Called with random access iterator objects of a vector or deque, sort, partial_sort, partial_sort_copy, make_heap, push_heap, pop_heap, sort_heap permute exactly the elements of the given range as their definition says, is_sorted, is_heap and the _until variants report what their definition says; everything outside of the range, the caller's iterators and the structure of the container are unchanged, positions are delivered through the caller's result variable, and every working copy of an iterator or an element has been freed.",
  "every vector and deque, every range of them, every strict weak order, forward and reverse iterators",
  "recursive algorithms with temporary iterators and element copies over unbounded ranges",
  ["algorithm/c_sorting.c", "algorithm/c_heap.c"])
p("An algorithm without memory for its working copies is harmless",
  "An algorithm whose internal allocations fail reports failure or stops at an assertion; it never follows a NULL pointer, and elements stay intact.",
  "every algorithm, range and container, every pattern of allocation failures",
  "needs fault injection inside every algorithm",
  ["include/c_def.h:C_ITER_COPY", "algorithm/c_non_modifying.c", "algorithm/c_modifying.c", "algorithm/c_bsearch.c", "algorithm/c_sorting.c", "algorithm/c_min_max.c:algo_max_by,algo_min_by"])
p("A result position is delivered or the call is rejected",
  "An algorithm called with a result variable that holds an iterator object either moves that object to the resulting position or rejects the call by an assertion; an object of the right kind is never rejected.",
  "every algorithm with a result variable, every kind of iterator in it, every address",
  "depends on addresses of heap objects and on combinations of iterator kinds",
  ["include/c_internal.h:__c_iter_copy_or_assign", "algorithm/c_non_modifying.c:algo_find_if", "algorithm/c_modifying.c:algo_copy"])
p("Algorithms neither leak, share nor destroy twice elements that own memory",
  "For elements that own memory and are handled only through the callbacks of their type, every algorithm leaves as many objects as there were, each owning its own memory, with the values the definition of the algorithm says; every temporary object an algorithm constructs is destroyed and freed, and no object is used after being destroyed or before being constructed.",
  "every algorithm, every element type with arbitrary callbacks that copy, assign, compare and destroy properly, every range",
  "ownership is not visible in values; leaks and sharing need instrumented allocators and cannot be seen from results; the number of temporaries depends on the data",
  ["algorithm/c_modifying.c", "algorithm/c_sorting.c", "algorithm/c_heap.c:algo_push_heap_by", "algorithm/c_partitioning.c", "algorithm/c_set_op.c", "algorithm/c_min_max.c", "include/c_internal.h:__c_allocate,__c_deallocate"])
p("Elementary operations take a bounded number of steps",
  "Pushing, popping, inserting, erasing and splicing at a given position of a list (push_back, push_front, insert, pop_back, pop_front, erase, splice of whole lists, single elements and ranges, swap; for singly linked lists push_front, insert_after, pop_front, erase_after, swap), and empty, front, back, at, data, size, capacity and swap of vectors and deques make a number of memory accesses that is bounded by a constant, whatever the number of elements.",
  "every list, vector and deque of any length, every position",
  "a timing test samples a few lengths and cannot exclude growth",
  ["container/c_list.c:c_list_insert,c_list_erase,c_list_splice,c_list_splice_range", "container/c_slist.c:c_slist_insert_after,c_slist_erase_after", "container/c_vector.c:c_vector_at,c_vector_swap", "container/c_deque.c:c_deque_at,c_deque_swap"])
p("Storage is bounded by what a container has held",
  "However long a client uses a vector or a deque, its capacity stays within a constant factor of the largest number of elements it ever held at one time (or its initial capacity).",
  "every history of operations of any length",
  "a leak-like growth shows only in the limit of arbitrarily long histories",
  ["container/c_vector.c:__reallocate_and_move", "container/c_deque.c:__reallocate_and_move,c_deque_push_back,c_deque_push_front"])
p("The algorithms make as few accesses to elements as their kind promises",
  "On ranges of n elements the searching, copying, rearranging and set algorithms make at most a fixed multiple of n accesses to elements (of n times m for find_first_of, find_last_of, search and search_last with a second range of m elements, of n squared for search_last_n); lower_bound, upper_bound, equal_range and binary_search make at most a multiple of log n; push_heap and pop_heap at most a multiple of the depth of the heap; make_heap at most 10 n; sort_heap, partial_sort, partial_sort_copy and sort at most a multiple of n log n, whatever the order of the elements.",
  "every range, position, predicate and comparison, every content of the elements",
  "A test measures the running time of some inputs; the bound is about the worst order of the elements for every length, e.g. the adversarial orders for the partitioning of sort.",
  ["algorithm/c_sorting.c: algo_sort_by", "algorithm/c_heap.c: algo_make_heap_by", "algorithm/c_bsearch.c: algo_lower_bound_by", "algorithm/c_modifying.c: algo_rotate", "algorithm/c_set_op.c: algo_merge_by", "algorithm/c_non_modifying.c: algo_search_by"])
p("Inserting a range of iterators into a vector or deque",
  "insert_range puts copies of the elements of the range [first, last), in their order, in front of the given position of a vector or deque, whatever container the iterators belong to, and does nothing for NULL or a position that is not one of the container.",
  "every vector and deque, every position, every pair of iterators of every kind",
  "the iterators are passed by value as the base struct, so what the call reads depends on memory outside its parameters; a test may accidentally find the right bits there",
  ["container/c_vector.c:c_vector_insert_range", "container/c_deque.c:c_deque_insert_range", "include/c_iterator.h:c_iterator_t"])
p("References to a deque's own elements",
  "push_back, push_front and insert of a deque accept a reference to one of the deque's own elements and add a copy of the value it had before the call.",
  "every deque, every element of it, every position, every distribution of the unused slots",
  "whether the reference still refers to the element depends on the storage left at either end; tests sample a few layouts",
  ["container/c_deque.c:c_deque_push_back,c_deque_push_front,c_deque_insert,__reallocate_and_move,__insert_n_aux"])
p("Deque elements that own resources are destroyed exactly once",
  "Whatever operations a client applies to a deque whose elements own resources, every element created by the deque is destroyed exactly once, at the latest when the deque is destroyed.",
  "every element type with its own create/copy/destroy, every history of operations",
  "a double destruction needs a reallocation with live elements and is invisible without memory instrumentation",
  ["container/c_deque.c:__reallocate_and_move,c_deque_shrink_to_fit,c_deque_destroy"])
p("The generic algorithms work on sets and maps",
  "On the ranges [begin, end) and [rbegin, rend) of a set, multiset, map or multimap the searching algorithms find what they find in a sequence of the elements in (reverse) key order, algo_lower_bound agrees with the container's own lower_bound, copying delivers the elements in (reverse) key order, and merge and the set operations of two sets deliver the merged sequence, union, intersection and symmetric difference, while the sets stay as they were.",
  "every set and map, every strict weak order of keys, every predicate, every destination container",
  "the traversal of the tree, the dispatch on the iterator kind and the algorithm must agree for every shape of the tree",
  ["container/c_tree.c:iter_increment,iter_decrement,c_tree_lower_bound", "algorithm/c_non_modifying.c:algo_find_if", "algorithm/c_bsearch.c:algo_lower_bound_by,algo_binary_search_by", "algorithm/c_set_op.c:algo_set_union_by,algo_merge_by", "algorithm/c_modifying.c:algo_copy"])
p("Algorithms do not write through the iterators of sets and maps",
  "An algorithm that writes to a range rejects (by a failed assertion, before anything is written) an iterator of a set or map as the destination, so that no algorithm can destroy the order of the elements.",
  "every algorithm that writes, every set and map iterator (forward and reverse), every other argument",
  "the check must be present in each of some forty functions; a test that passes such an iterator aborts and is therefore never written",
  ["include/c_def.h:C_ITER_MUTABLE", "algorithm/c_modifying.c:algo_remove_copy_if,algo_copy,algo_fill", "algorithm/c_set_op.c:algo_merge_by", "algorithm/c_partitioning.c:algo_partition", "algorithm/c_sorting.c:algo_sort_by"])
p("A container passed as both arguments",
  "assign(x, x) and swap(x, x) return and leave x as it was, for every kind of container and adapter; merge(l, l) of a sorted list returns and leaves the list as it was; inserting the range of all elements of a set, multiset, map or multimap into itself returns.",
  "every container, every content, every strict weak order",
  "non-termination is not an output a test can observe, and which contents trigger it depends on the order of all elements",
  ["container/c_list.c:c_list_assign,c_list_swap,c_list_merge_by", "container/c_forward_list.c:c_slist_merge_by,c_slist_swap", "container/c_vector.c:c_vector_assign,c_vector_swap", "container/c_deque.c:c_deque_assign,c_deque_swap", "container/c_tree.c:c_tree_swap,c_tree_insert_unique_range,c_tree_insert_equal_range", "container/c_stack.c:c_stack_swap", "container/c_queue.c:c_queue_swap", "container/c_priority_queue.c:c_priority_queue_swap"])
p("Sets and multisets when memory runs out",
  "If an insertion into a set or multiset cannot allocate memory, it reports this to the caller and leaves the container as it was; all other operations, and the insertion of a key that is already in a set, do not need memory. Whatever the allocator does, no history of operations leads to undefined behaviour.",
  "every history of operations, every pattern of allocation failures",
  "the allocation that fails can be any one of a history of any length",
  ["container/c_tree.c:__create_node,__insert,__create_iterator,c_tree_insert_unique_value,c_tree_insert_unique,c_tree_insert_equal_value,c_tree_insert_equal", "container/c_set.c:c_set_insert_value,c_multiset_insert_value"])
p("NULL arguments of the algorithms",
  "Every algorithm called with NULL for an iterator, a value or a result variable it needs returns at once its neutral result (0, false, NULL) and changes nothing, in the comparison-free form too.",
  "every algorithm of the library, every combination of other arguments, every state of memory",
  "some seventy functions with up to six arguments each; every combination with at least one NULL has to be safe",
  ["algorithm/c_non_modifying.c:algo_find_by", "algorithm/c_modifying.c:algo_copy", "algorithm/c_sorting.c:algo_sort_by", "algorithm/c_heap.c:algo_push_heap_by", "algorithm/c_set_op.c:algo_merge_by", "algorithm/c_bsearch.c:algo_lower_bound_by", "algorithm/c_partitioning.c:algo_partition", "algorithm/c_min_max.c:algo_minmax_element_by", "include/c_algorithm.h:c_algo_sort"])
p("The comparison-free forms of the algorithms",
  "c_algo_x(...) does what algo_x_by(...) does with the less (or equal) function that belongs to the element type of the range: c_algo_sort sorts, c_algo_find finds the first equal element, c_algo_lower_bound finds the first element not less than the value, and so on for all thirty-seven forms.",
  "every range of every kind of container, every element type with a less and an equal function",
  "each macro picks one of two functions of one of its arguments and a position for it; a swapped pick is only visible for types where the functions differ on the inputs",
  ["include/c_algorithm.h:c_algo_sort,c_algo_find,c_algo_lower_bound,c_algo_merge", "include/c_def.h:__c_get_less,__c_get_equal"])
p("Random shuffling",
  "algo_random_shuffle rearranges the range (every element stays in it exactly as often as before) whatever numbers the generator produces, and every arrangement of the range can be produced by some sequence of random numbers.",
  "every range, every sequence of random numbers, every arrangement",
  "the outcome is random: a test sees one arrangement of n!, and cannot show that none is lost or impossible",
  ["algorithm/c_modifying.c:algo_random_shuffle,algo_random_shuffle_by,__algo_random"])
p("The built-in element types",
  "For each of the fourteen built-in number types (c_get_int_type_info() and so on): create makes a zero, copy and assign make the destination equal to the source (assign to itself changes nothing), less and equal are < and == of the numbers and less is a strict weak order whose equivalence is equal, destroy leaves storage that can be used again, and NULL arguments are refused by a failed assertion. With these types the containers therefore meet the assumptions of all other properties.",
  "all fourteen types, all values of the type (including infinities and not-a-number), all locations and NULL",
  "the order laws range over all triples of values of fourteen types",
  ["prime/c_primes.c", "prime/c_prime_internal.h:C_PRIMES_DECLARE", "include/c_prime.h"])
p("Incomplete element types are refused, optional entries are optional",
  "Creating any container for an element type that lacks a required function (size, create, copy, destroy, assign; for the keys of sets and maps also less and equal) stops at an assertion before anything else happens; a type with all required functions is accepted and its table is not changed. The optional functions less and equal may be missing: a function that needs the missing one does nothing, and a priority queue is refused if neither the type nor the caller supplies an order.",
  "every table of functions (every subset of missing entries), every kind of container, every content",
  "there are 512 subsets of entries for nine constructors, and the functions that use an optional entry must cope on every content",
  ["container/c_util.c:validate_type_info,validate_type_info_ex", "container/c_list.c:c_list_create,c_list_merge,c_list_sort,c_list_unique,c_list_remove", "container/c_forward_list.c:c_slist_create,c_slist_remove", "container/c_vector.c:c_vector_create", "container/c_deque.c:c_deque_create", "container/c_stack.c:c_stack_create", "container/c_queue.c:c_queue_create", "container/c_priority_queue.c:c_priority_queue_create", "container/c_tree.c:c_tree_create"])
p("Priority queues and the memory they need for iterators",
  "push and pop of a priority queue need memory for iterators besides that of the elements. They release all of it, and if it cannot be had the queue is still a priority queue: pop removes the top element (or nothing), push adds the element (or nothing).",
  "every history of operations, every backend, every strict weak order, every pattern of allocation failures",
  "the failing allocation can be any one of a history of any length, and the queue must be right for every content",
  ["container/c_priority_queue.c:c_priority_queue_push,c_priority_queue_pop", "container/c_vector.c:backend_begin,backend_end", "container/c_deque.c:backend_begin,backend_end", "algorithm/c_heap.c:algo_push_heap_by,algo_pop_heap_by"])
p("Creating, copying and assigning vectors and deques when memory runs out",
  "When a request for memory is refused, the functions that create or copy a vector or deque return NULL or the container they were asked for (create_n: or an empty one), assigning leaves two usable containers, and the source is never changed.",
  "every content and capacity of the containers, every element type, every pattern of granted and refused requests of the call",
  "the calls make two requests; a test must make exactly the second one fail, and the effect must be right for every content and capacity",
  ["container/c_vector.c:c_vector_create_from_array,c_vector_create_n,c_vector_copy,c_vector_assign,c_vector_reserve", "container/c_deque.c:c_deque_create_from,c_deque_copy,c_deque_assign,__reserve"])
p("Sizes at the limit of size_t",
  "A request for more elements than the address space can hold is refused like any other request that cannot be met: the container stays as it is. Requests below that limit behave as if sizes were unbounded numbers. max_size bounds every count, and a request for at most max_size elements is met or refused.",
  "every count a size_t can hold, every element size, every content and capacity, every position of an insertion, every width of size_t",
  "the counts at which a product wraps depend on the element size and the capacity; a test can neither try them all nor allocate the sizes on the good side of the limit",
  ["container/c_vector.c:c_vector_max_size,__reallocate_and_move,c_vector_resize_with_value,c_vector_create_n,c_vector_create_from_array,c_vector_insert_n,c_vector_push_back", "container/c_deque.c:__reallocate_and_move,__insert_aux,c_deque_resize_with_value,c_deque_create_from,c_deque_insert_n,c_deque_push_back,c_deque_push_front"])

p("Operations on whole lists take linear time, sorting n log n",
  "size, clear, destroy, resize, copy, assign, create_from, erase_range, merge, remove, remove_if, reverse, unique and unique_if of a doubly linked or forward list, and splice_after of forward lists, access memory a number of times that is at most linear in the lengths of the lists involved (for erase_range and splicing: in the length of the range), and sort and sort_by at most n log n, with the stated constants; the calls always terminate.",
  "every list and pair of lists of every length, every content, comparison function (also an inconsistent one), placement in memory and allocator",
  "a worst case over all contents and comparison functions of every length cannot be measured",
  ["container/c_list.c:c_list_size,c_list_clear,c_list_destroy,c_list_resize_with_value,c_list_copy,c_list_assign,c_list_create_from,c_list_erase_range,c_list_merge_by,c_list_remove,c_list_remove_if,c_list_reverse,c_list_unique_if,c_list_sort_by", "container/c_forward_list.c:c_slist_clear,c_slist_destroy,c_slist_resize_with_value,c_slist_copy,c_slist_assign,c_slist_create_from,c_slist_erase_after_range,c_slist_merge_by,c_slist_remove,c_slist_remove_if,c_slist_reverse,c_slist_unique_if,c_slist_sort_by,c_slist_splice_after,c_slist_splice_after_range"])

p("Pushing and popping at the ends of vectors and deques take amortised constant time",
  "A sequence of n operations push_back and pop_back on a vector, or push and pop at both ends of a deque, in any order, accesses memory at most c * n + d times, where c depends on the cost of copying and destroying one element only and d on the container at the beginning only, although single operations reallocate the storage.",
  "every sequence of operations of every length, every content, capacity and position of the elements in the storage at the beginning, every cost of an element operation, every placement of the new storage",
  "amortised bounds speak about all sequences of operations; the expensive ones depend on how pushes and pops at both ends alternate",
  ["container/c_vector.c:c_vector_push_back,c_vector_pop_back,__reallocate_and_move", "container/c_deque.c:c_deque_push_back,c_deque_push_front,c_deque_pop_back,c_deque_pop_front,__reallocate_and_move"])
p("The other operations of vectors and deques take linear time",
  "Each single operation of a vector or deque accesses memory a number of times that is at most linear: clear, destroy and shrink_to_fit in the size, erase in the number of elements behind the position, erase_range in the length of the range and the number behind it, insert_n and resize in the number of new elements plus the size, copy, assign and the creation from arrays in the sizes and capacities involved, pop in nothing at all; a call with a wrong position is refused in constant time. The calls always terminate.",
  "every content, capacity, position, count and element cost, every placement of the storage",
  "a worst case over all contents, positions and counts cannot be measured",
  ["container/c_vector.c:c_vector_push_back,c_vector_pop_back,c_vector_clear,c_vector_destroy,c_vector_erase,c_vector_erase_range,c_vector_resize_with_value,c_vector_resize,c_vector_reserve,c_vector_insert_n,c_vector_shrink_to_fit,c_vector_copy,c_vector_assign,c_vector_create_n,c_vector_create_from_array", "container/c_deque.c:c_deque_push_back,c_deque_push_front,c_deque_pop_back,c_deque_pop_front,c_deque_clear,c_deque_destroy,c_deque_erase,c_deque_erase_range,c_deque_insert_n,c_deque_resize_with_value,c_deque_shrink_to_fit,c_deque_copy,c_deque_create_from,c_deque_assign"])

p("Stacks and queues take amortised constant time, priority queues logarithmic time",
  "The whole life of a stack (any backend) or queue (list or deque backend), from creation over n operations to destruction, accesses memory at most c * n + d times for fixed c and d; the life of a priority queue with a vector or deque backend at most (c + c' * log2 n) * n + d times. The bounds hold together with the specified results of the operations.",
  "every history of operations of every length, every backend, every pushed value, comparison function that is a strict weak order, placement in memory",
  "the costs of an operation depend on the history (reallocations of the backend, the shape of the heap); the bound is about all histories",
  ["container/c_stack.c:c_stack_create,c_stack_destroy,c_stack_push,c_stack_pop,c_stack_top,c_stack_empty", "container/c_queue.c:c_queue_create,c_queue_destroy,c_queue_push,c_queue_pop,c_queue_front,c_queue_back,c_queue_empty,c_queue_size", "container/c_priority_queue.c:c_priority_queue_create,c_priority_queue_destroy,c_priority_queue_push,c_priority_queue_pop,c_priority_queue_top,c_priority_queue_empty,c_priority_queue_size", "container/c_vector.c:c_vector_create_backend", "container/c_deque.c:c_deque_create_backend", "container/c_list.c:c_list_create_backend"])

p("c_tree_rb_verify accepts exactly the valid trees",
  "Called on any linked tree, whatever its colors and values (a tree damaged by a client or by a bug), c_tree_rb_verify terminates, changes nothing and returns true if and only if the tree is valid: black root, no red node with a red child, equal black counts on all paths, elements in key order.  (The code compares nodes only with their own children and counts black nodes only above nodes without children, so it also accepts some unordered and some unbalanced trees; what it accepts is characterised exactly.)",
  "all shapes, colors, values and key orders of linked trees, all headers that claim emptiness", "the damaged trees a check must reject, and those it wrongly accepts, cannot be enumerated",
  ["container/c_tree.c:c_tree_rb_verify", "container/c_tree.c:__black_count"])

p("The algorithms accept an element of the range as their value argument",
  "fill, fill_n, count, find, remove, replace and replace_if, called with a reference to an element of the very range they work on, behave as if called with a copy of that element; swapping an element with itself changes nothing.  (remove and replace re-read the reference after the element has been overwritten: of two equal elements only one is replaced, of a b a only one a is removed.)",
  "all ranges of all lengths, all positions of the referenced element, all values, equalities and predicates", "which elements survive depends on the positions of equal elements relative to the referenced one; the claim is about all of them",
  ["algorithm/c_modifying.c:algo_fill,algo_fill_n,algo_remove,algo_replace,algo_replace_if,algo_swap", "algorithm/c_non_modifying.c:algo_count,algo_find_by"])

p("c_slist remove with a reference into the list is safe",
  "c_slist_remove(list, value) removes all elements equal to the value value had at the call, also when value is a reference to one of the list's own elements (e.g. c_slist_front(list)).",
  "every forward list, every position of the referenced element, every equality function",
  "the use after free is silent in most runs and depends on the position of the referenced element",
  ["container/c_forward_list.c:c_slist_remove"])

p("The optional state check of deques never fails",
  "Compiled with ENABLE_CHECK_DEQUE_STATE, the assertion behind every change of a deque (start_of_storage <= start <= finish <= end_of_storage) holds in every history of valid operations, and inside insertions and reallocations, so the checked library behaves as the unchecked one.",
  "every valid history of every length, every content, position and capacity, every placement and failure of allocations",
  "the check must hold after every operation of every history; a test run only visits some",
  ["container/c_deque.c:__check_deque_state,__insert_aux,__reallocate_and_move,c_deque_push_back,c_deque_push_front,c_deque_pop_back,c_deque_pop_front,c_deque_erase,c_deque_erase_range,c_deque_clear,c_deque_shrink_to_fit,c_deque_resize_with_value"])

p("References into vectors and deques stay valid while the storage suffices",
  "A reference or iterator to an element of a vector stays valid, and denotes the same element, through every history of operations that find enough capacity and act behind that element.  In a deque the same holds for operations at either end that find free slots on their side, for insertions and erasures on the far side of the element from the side whose elements are moved, and for resizing within the free slots behind; the index of the element changes accordingly.",
  "every history of every length, every content, position and capacity, element types that own memory included, every allocator",
  "which references survive depends on the sizes and free slots reached by the whole history; reading a dangling reference usually goes unnoticed",
  ["container/c_vector.c:c_vector_push_back,c_vector_insert,c_vector_insert_n,c_vector_erase,c_vector_resize", "container/c_deque.c:__insert_aux,c_deque_push_back,c_deque_push_front,c_deque_pop_back,c_deque_pop_front,c_deque_erase,c_deque_resize"])

p("Copying algorithms work within one container",
  "copy, copy_if, remove_copy, remove_copy_if, replace_copy, replace_copy_if, transform, unique_copy, partition_copy (for the elements that satisfy the predicate), set_intersection and set_difference (on the first range) may write to the container they read from, if the destination begins at or before the source (in particular in place): the destination receives what a separate one would receive.  (With a destination inside the source copy repeats its first elements; copy_backward must be used there.)",
  "all contents and lengths, all distances between destination and source, overlapping or not, all predicates, operations, orders and value arguments",
  "every step must read an element before the destination reaches it; this depends on the distance, the lengths and how many elements have been kept so far",
  ["algorithm/c_modifying.c:algo_copy,algo_copy_if,algo_remove_copy,algo_remove_copy_if,algo_replace_copy,algo_replace_copy_if,algo_transform,algo_unique_copy_by", "algorithm/c_partitioning.c:algo_partition_copy", "algorithm/c_set_op.c:algo_set_intersection_by,algo_set_difference_by"])

p("The iterators of a list go round",
  "The places of a doubly linked list (its elements and the end) form a ring of size + 1 places: incrementing the end leads to the begin, decrementing the begin leads to the end, advancing by any integer leads to the place counted around the ring, and the distance of any two iterators of one list, in any order, is the number of steps from the first to the second (between 0 and size), so that advancing the first by it always reaches the second.  The same holds for reverse iterators.  No such move is undefined behaviour.",
  "all lists of all lengths, all pairs of places, all integers, all sequences of moves",
  "it depends on the length, the place and the number of steps together; a few sampled moves do not determine the rest",
  ["container/c_list.c:iter_increment,iter_decrement,iter_advance,iter_distance,reverse_iter_increment,reverse_iter_decrement,reverse_iter_advance,reverse_iter_distance"])

p("Lists of elements with callbacks and storage of their own",
  "With an element type whose create, copy and destroy are arbitrary functions (so that objects may own memory), and which may bring its own allocate and deallocate, a list constructs every element in storage from the type's allocator (malloc if there is none), destroys it exactly once with the type's destroy and returns its storage to the type's deallocate (free if there is none). Whatever sequence of insertions, removals and resizes a client makes, the list holds what the calls say, and once the list is destroyed the memory, the allocator's own data and the argument objects are as before - also if storage runs out in between. A copy of a list has elements and storage of its own and outlives the original; assigning a list to another one destroys the elements of the destination as elements of its old type and gives it copies of the source's elements and the source's type.",
  "every complete type descriptor, every element type with matching create/copy/destroy, every matching pair of allocation functions (or none), every sequence of push, pop, insert, erase, clear, resize with valid positions and argument objects, every copy and assignment, every behaviour of the allocators",
  "Leaks, double releases and storage given back to the wrong allocator show no effect in the values a test looks at; the tests use built-in types without allocation functions.",
  ["include/c_internal.h:__c_allocate,__c_deallocate", "include/c_def.h:c_type_info_t", "container/c_list.c:__create_node,__pop_node,c_list_create,c_list_destroy,c_list_insert,c_list_erase,c_list_push_back,c_list_push_front,c_list_pop_back,c_list_pop_front,c_list_clear,c_list_resize,c_list_resize_with_value,c_list_copy,c_list_assign"])

p("Forward lists of elements with callbacks and storage of their own",
  "With an element type whose create, copy and destroy are arbitrary functions (so that objects may own memory), and which may bring its own allocate and deallocate, a forward list constructs every element in storage from the type's allocator (malloc if there is none), destroys it exactly once with the type's destroy and returns its storage to the type's deallocate (free if there is none). Whatever sequence of insertions, removals and resizes a client makes, the list holds what the calls say; a copy has elements and storage of its own and outlives the original; assigning a list to another one destroys the elements of the destination as elements of its old type. Once the lists are destroyed the memory, the allocator's own data and the argument objects are as before - also if storage runs out in between.",
  "every complete type descriptor, every element type with matching create/copy/destroy, every matching pair of allocation functions (or none), every sequence of push_front, pop_front, insert_after, erase_after, erase_after_range, clear, resize with valid positions and argument objects, every copy and assignment, every behaviour of the allocators",
  "Leaks, double releases and storage given back to the wrong allocator show no effect in the values a test looks at; the tests use built-in types without allocation functions.",
  ["include/c_internal.h:__c_allocate,__c_deallocate", "include/c_def.h:c_type_info_t", "container/c_forward_list.c:__create_node,__pop_node_after,c_slist_create,c_slist_copy,c_slist_assign,c_slist_destroy,c_slist_clear,c_slist_insert_after,c_slist_erase_after,c_slist_erase_after_range,c_slist_push_front,c_slist_pop_front,c_slist_resize,c_slist_resize_with_value"])

p("Removing elements that own something from lists and forward lists",
  "If elements own resources (their type's descriptor has its own create, copy, destroy, allocate and deallocate functions), then remove_if of a list or a forward list with any predicate function that answers a question about an element's value - reading whatever the element owns, and keeping data of its own - removes exactly the elements it is true of: each of these is destroyed once, after the predicate has been asked, and its storage goes back to the allocator it came from; all other elements stay where they are and in order. unique_if with any such function of two elements keeps the first element of every run of elements related to its first one and destroys the others likewise. With no predicate nothing happens. remove(value) and unique do the same with the type's equal function, and the given value, which may own something too, is left as it is.",
  "every list and forward list of any length, every element type with consistent callbacks and storage functions, every predicate that answers a function of the values, and every state of its data",
  "the number, positions and owned resources of the elements, and the predicate's behaviour, are unbounded",
  [("container/c_list.c", "c_list_remove_if, c_list_remove, c_list_unique_if, c_list_unique, __pop_node"), ("container/c_forward_list.c", "c_slist_remove_if, c_slist_remove, c_slist_unique_if, c_slist_unique, __pop_node_after")])

p("Merging and sorting lists and forward lists of elements that own something",
  "If elements own resources (their type's descriptor has its own create, copy, destroy, allocate and deallocate functions), then merging another list of the same type into a list (or a forward list into a forward list), with a comparator function or with the type's less function, moves all its elements over and leaves it empty: the result holds the same elements - none is created, copied or destroyed - and is sorted and stable if both lists were sorted by a strict weak order. Sorting a list or a forward list with a comparator or with the type's less function yields the same elements, sorted and stable if the comparator is a strict weak order; if memory for the auxiliary lists runs out, the list is as before. The comparator may be any function that answers a question about the values of two elements, reading whatever they own and keeping data of its own. With no comparator nothing happens.",
  "every two lists or forward lists of any length (sorting: below 2^64), every element type with consistent callbacks and storage functions, every comparator that answers a function of the values, and every pattern of allocation failures",
  "the number and owned resources of the elements, the comparator's behaviour and the allocation failures are unbounded",
  [("container/c_list.c", "c_list_merge, c_list_merge_by, c_list_sort, c_list_sort_by"), ("container/c_forward_list.c", "c_slist_merge, c_slist_merge_by, c_slist_sort, c_slist_sort_by")])

p("Splicing, swapping and reversing lists and forward lists of elements that own something",
  "If elements own resources (their type's descriptor has its own create, copy, destroy, allocate and deallocate functions), then splicing all elements, the elements from a position on, or a range of elements of one list into another list of the same type moves exactly those elements to the given position, in their order; swapping exchanges the contents of two lists; reversing reverses the order. No element is copied, created, destroyed or moved in memory: pointers to elements stay valid and each element keeps what it owns. Splicing between lists of different element types changes nothing. The same holds for forward lists with their after-positions.",
  "every two lists or forward lists of any length, every position and range in them, every element type with consistent callbacks and storage functions",
  "the number, positions and owned resources of the elements are unbounded",
  [("container/c_list.c", "c_list_splice, c_list_splice_from, c_list_splice_range, c_list_swap, c_list_reverse"), ("container/c_forward_list.c", "c_slist_splice_after, c_slist_splice_after_from, c_slist_splice_after_range, c_slist_swap, c_slist_reverse")])

with open("/verif/properties.jsonl","w") as f:
    for o in P: f.write(json.dumps(o)+"\n")
print(len(P))
