C01 proved: every edit, and every history of edits, with arguments that may alias the list's own elements
C02 proved: both walks and the iterator advance, after every history
C03 proved: Triple False ranges over every allocator behaviour (including failure of any allocation)
C04 proved: whole-memory equality after create; history; destroy
C05 proved: two lists and one list, all three splice functions, and mismatched types
C06 proved: sorted stable merge
C07 proved: stable sort for fewer than 2^64 elements (the code has 64 counters), any allocator
C08 proved: remove with a value outside the list, remove_if with any predicate
C09 partial: violated by the code: use after free for a reference to any own element that is equal to itself and not the last one; correct for values outside the list, for the last element and for elements unequal to themselves (complete case distinction)
C10 proved: reverse and unique
C11 proved: copy, assign, swap, create_from, self-assignment, self-swap
C12 proved: addresses and stored values of all surviving elements after every history
C13 proved: every edit and every history of edits, arguments may alias the list's own elements, any allocator
C14 proved: merge, sort, all splice functions, remove, reverse, unique, copy, assign, swap
C15 proved: whole-memory equality after create; history; destroy, any allocator
C16 proved: every edit and every history of edits, element callbacks are arbitrary programs; for elements that own resources the histories must not reallocate (defect C22)
C17 proved: exact doubling, logarithmic number of reallocations, linear number of relocated elements
C18 partial: violated by the code: characterised exactly; where the code asks for enough memory insert_n is correct, everywhere else it writes outside its storage
C19 partial: violated by the code: reserve changes the size whenever it has anything to do; capacity and old elements are right
C20 partial: violated by the code: characterised exactly for copy and assign of plain data
C21 partial: violated by the code: push_back of an own element is correct with room and a use after free without; insert copies the wrong element if it is behind the position
C22 partial: violated by the code on relocation of elements that own resources; proved for all histories without such a relocation
C23 proved: push_back, insert_n, resize, shrink_to_fit, create with any allocator
C24 proved: every edit and every history of edits with any allocator; element callbacks are arbitrary programs; for elements that own resources the histories must not reallocate
C25 partial: violated by the code: characterised exactly for copy and assign of plain data (padded copy, lost elements, overflow)
C47 proved: every function of c_non_modifying.c, over overlapping ranges too; predicates are pure functions; for_each callbacks are arbitrary programs
C45 proved: every function of c_bsearch.c on ranges partitioned with respect to the value; sorted ranges are such ranges
C48 proved: every function of c_modifying.c except generate and shuffle, including overlapping copies; predicates and operations are pure functions, values passed by reference lie outside of the modified range
C49 proved: every function of c_partitioning.c
C50 proved: every function of c_min_max.c
C51 proved: for every sequence of results of the generator within its documented range; the library's own generator stays in that range (floating point rounding not modelled)
C52 partial: violated by the code on empty ranges (destroys an object that was never constructed); non-empty ranges and generate_n are correct
C41 partial: violated by the code: up to 512 elements a sorted permutation; beyond, exactly characterised (C41_sort_exact_partial): sorted, in bounds, smallest first, largest last, a range in order stays so, but elements out of order behind the first 512 after partitioning are overwritten by larger ones (witness with 513 numbers)
C42 proved: partial_sort_by and partial_sort_copy_by, every range and middle
C43 proved: every function of c_heap.c except is_heap_until (C44)
C44 partial: violated by the code: is_sorted_until and is_heap_until are wrong on every range that is not sorted / not a heap; is_sorted and is_heap are right
C46 partial: violated by the code for set_difference: its exact effect on any ranges is proved (C46_difference_exact_partial) and that it is the difference if the elements of the second range are included in the first one, apart from those behind the whole first range; merge, includes, union, intersection and symmetric difference are proved
C26 proved: whole client lives (create, any history, destroy) with list, vector and deque backends; swap of two stacks of the same backend kind
C27 partial: violated by the code for the vector backend (pop calls a NULL function pointer); proved for list and deque backends
C28 proved: whole client lives with vector and deque backends (a list backend has no random access iterators, as the heap algorithms demand by assertion), memory not running out; see C83 for the iterator objects and for failing allocations
C29 partial: violated by the code when the comparisons differ: swap exchanges the contents but not the comparisons
C30 proved: every edit and every history of edits (arguments may alias the tree's own elements); one tree shape covers set, multiset, map and multimap, whose functions are thin wrappers
C31 proved: unique insertion, with a key present or absent, histories of unique insertions, insert_from
C32 proved: insert_equal adds behind all equivalents; insert_from
C33 proved: red-black rules, height bound and the verifier's verdict after every history; *_steps bound the number of memory accesses of each lookup, insertion (with and without hint), erasure and iterator step by c*log2(n+1)+d with explicit constants
C34 proved: find, lower_bound, upper_bound, count and equal_range (iterators supplied by the caller)
C35 proved: erase_key and erase_from for keys of the size of elements (sets)
C36 proved: increment, decrement, whole walks in both directions, begin, end, size, empty, distance
C37 proved: every hint, for unique and equal insertion
C38 proved: addresses and stored values after every history of insertions, and of the survivors of erase
C39 partial: violated by the code: clear and destroy release every element, but the header node is leaked by every create/destroy
C40 partial: violated by the code: c_pair_copy asserts on uninitialised memory; proved that insertion aborts whenever malloc's memory is not zero there, and that it is correct when it is zero
C53 proved: components of less/equal/assign are plain values; create/destroy with arbitrary component callbacks
C54 partial: violated by the code: the second half of the allocations (the components of the pair) can fail silently, leaving a dangling key pointer in the node; failures of the node or pair allocation are handled
C55 partial: harmless or assertion for every modelled function, for all memories and all other arguments; c_list_erase_range(NULL, first, last) never returns (C55_list_erase_range_violated).
C56 partial: proved for two adapters with the same kind of backend after any histories; different kinds are undefined behaviour (C56_swap_violated).
C57 proved: for allocators that do not fail (an insertion without memory stops at an assertion, C54/C39); one definition per function of c_set.c, generated from the C text; max_size and erase_from (see C35) not in the histories.
C58 proved: at the level of element values: copying a pair is one step (the code's own pair copying is C40, C53, C54); max_size and erase_from (wrong stride for maps, see C35) not in the histories.
C59 proved: for lists, forward lists, vectors, deques and trees (sets, maps), all nine tables of iterator operations; moving out of range, decrementing forward-list iterators, C_ITER_LESS on non-random iterators are excluded (undefined: NULL function pointers).
C60 partial: violated by the code: for iterators and reverse iterators of vectors and deques distances are right forward (C60_random_partial, C59) and in all directions for types of size 1, but every backward distance of larger elements is a non-negative number (C60_random_violated)
C61 partial: violated by the code: the loop steps through the key array by the size of elements (C61_erase_from_violated; C61_erase_from_strided says exactly which keys are erased); proved where keys are as large as elements
C62 proved: for lists, forward lists, vectors, deques and their reverse iterators (IAlgo/Views); malloc does not fail (for failures see C65); predicates are pure.
C63 proved: for lists, forward lists, vectors, deques and their reverse iterators; malloc does not fail; the functions of c_modifying.c that deliver a position check the address bits of the result variable's content instead of its category (C66), the theorems assume that check succeeds (hlow).
C64 partial: missing: sort of more than 512 elements loses elements (violated, C41; what remains true is C64_sort_any_partial), is_sorted_until/is_heap_until on ranges that are not sorted/heaps (violated, C44), make_heap/partial_sort through reverse iterators (the code computes positions before the buffer: hypothesis Far).
C65 partial: violated by the code: the algorithms do not check whether C_ITER_COPY could allocate (C65_*_violated: with no memory they dereference NULL); what holds: algo_max_by/algo_min_by return NULL (C65_max_partial, C65_min_partial).
C66 partial: violated by the code: an iterator of another kind passes the category check and is silently not moved (C66_find_if_violated, C66_copy_violated); c_modifying.c rejects valid iterators depending on their address (C66_copy_rejected_violated); delivered for iterators of the same kind (C66_find_if_partial, C62, C63).
C67 partial: proved for all algorithms with arbitrary element callbacks (malloc does not fail), except those that violate it: algo_push_heap_by frees its temporary object without destroying it (C67_push_heap_violated, C67_push_heap_boxes_violated), hence also partial_sort and partial_sort_copy may leave such remains (C67_partial_sort_partial, C67_partial_sort_copy_partial); algo_generate(_n) overwrites all but the last generated object (C67_generate_violated) and on an empty range destroys raw memory (C67_generate_empty_violated)
C68 proved: memory accesses (loads, stores, malloc, free) are counted by the model; all operations listed in the statement have a constant bound, next to their functional specification
C69 partial: vectors: proved for every valid history (capacity at most twice the largest size). Deques: violated, n rounds of push_back and pop_front (one or two elements at any time) leave a capacity of at least n, C69_deque_fifo_violated, C69_deque_program_violated; proved: clients that only push (at either end) or use one end only keep at most four times the elements (plus two); for every valid history, with insert, erase, resize, clear and shrink, the storage is linear in the number of elements ever added (C69_deque_history_partial)
C70 proved: element accesses only (iterators are positions in this model; each iterator operation of a vector, deque or list is constant time, C68); user callbacks of for_each have a given cost.  sort is n log n although it may lose elements of ranges longer than 512 (C41).
C71 partial: violated by the code: the parameters are c_iterator_t by value, every call with a valid position reads memory behind its parameters (C71_vector_violated, C71_deque_violated); NULL and invalid positions behave as documented
C72 partial: violated by the code: without room at the end (front) push_back (push_front) of an own element reads freed memory, insert copies a neighbour of the element or reads freed memory; the _partial theorems give the layouts where it works
C73 partial: proved for every history that does not relocate elements owning something; violated otherwise: the storage is copied bit by bit and the old elements are destroyed (C73_violated)
C74 proved: elements are plain values as everywhere in the iterator model; destinations are lists, forward lists, vectors and deques
C75 partial: every writing algorithm except algo_remove_copy_if rejects iterators of sets and maps; algo_remove_copy_if lacks the check and destroys the order of the elements (C75_remove_copy_if_violated)
C76 partial: assign and swap hold for every container; violated by the code for merge: c_list_merge(l, l) never returns if a repeated element is not the greatest one (C76_list_merge_partial: it changes nothing otherwise), c_slist_merge(l, l) never returns or loses all elements; inserting the own range into a multiset or multimap never returns, into a set or map changes nothing
C77 partial: with any allocator a history does what it does with enough memory or ends with a failed assertion (C77_history_partial); violated: an insertion that cannot allocate aborts the program instead of reporting failure
C78 partial: holds for all seventy-two functions; violated by the comparison-free macros, which dereference the first iterator before the function can check it (C78_forms_violated); NULL function pointers are not modelled here
C79 partial: every form proved to be the _by form with the type's own function, with its full meaning where C41-C64 give it; _partial where the underlying algorithm is (sort of more than 512 elements, partial_sort, make_heap, is_sorted_until, is_heap_until)
C80 proved: the generator's floating point is taken as exact rational arithmetic; every arrangement for ranges of up to 1048576 elements (C80_few_numbers shows why not beyond: the generator distinguishes only 2^20 numbers)
C81 partial: all fourteen types; violated for the floating types (not-a-number: equal is not reflexive and less is not a strict weak order on all values; the laws are proved for all other values) and for a NULL source of copy and assign (the assertion tests the destination twice: undefined behaviour)
C82 partial: all constructors, all subsets of entries; merge, sort and unique without their function proved to do nothing; violated by remove (calls the missing equal: undefined behaviour on every non-empty list) and by priority queues (accepted without any order; top is then the first element pushed)
C83 partial: with enough memory proved for whole client lives with the code's own iterator objects; violated when the allocator is exhausted: pop removes the last element of the backend instead of the top, push appends without restoring the order
C84 partial: create_n proved for every allocator; copy, create_from_array, create_from and assign violated: the failure of the request for the elements is not noticed and they are copied to the NULL pointer or behind the storage (undefined behaviour); the parts that hold are the refused request for the object and assignments that fit
C85 partial: below the limit the functions in size_t arithmetic are proved to behave exactly as the unbounded ones (so that every other theorem applies to them); violated at the limit: products wrap, a block that is too small is requested and granted, and the elements are written behind it
C86 proved: every function that goes through a list, with explicit constants; comparison functions are pure in the model, their own cost is not counted
C87 proved: for plain element types (moving owned elements on reallocation is undefined behaviour, see C22 and C73) and allocators that do not fail; constants 26 + 3t (vector) and 43 + 11t (deque), t the cost of one element operation.  The proof is with a potential over the free slots, although the storage of a deque used as a queue grows without bound (C69).
C88 proved: every single operation with explicit constants, under the hypotheses under which the operation works at all (plain elements if the storage is reallocated: C22, C73; enough room computed by insert_n: C18; for deque assign into fewer slots, that the copy fits: C25)
C89 proved: whole lives with explicit constants for plain element types and an allocator that does not fail; size of a queue with a list backend counts the elements and is excluded; the calls of begin and end of a priority queue are positions (the iterator objects they allocate are in C83)
C90 partial: exact characterisation of the accepted trees (C90_verify_exact) for every shape, colors and values; for trees in which every node has no child or two acceptance implies the red-black rules (C90_sound_partial). The code accepts an unordered tree and an unbalanced tree: C90_order_violated, C90_black_violated.
C91 partial: fill, fill_n, count, find, the new value of replace and replace_if, swap hold for every element of the range; replace of an own element is described exactly (C91_replace_old_exact) and proved to be right if no equal element lies behind it (C91_replace_old_partial), remove if the kept elements do not reach the element (C91_remove_partial); violated otherwise: C91_replace_violated, C91_remove_violated.
C92 partial: violated by the code: use after free for a reference to any own element that is equal to itself and not the last one; all other cases proved correct (complete case distinction)
C93 proved: the check is modelled as compiled with ENABLE_CHECK_DEQUE_STATE; histories on plain data or without reallocation of owned elements, as in C24
C94 proved: Keeps/keep give the operations meant, in terms of sizes, capacities and positions only; erasures move the elements behind, insertions those on the side with room (back first)
C95 proved: for positions (layer 5) and for calls with iterator objects of any container (C95_iter_*); set_difference in place does exactly what C46 says of a separate destination; C95_copy_right is the exact effect of copy in the wrong direction
C96 proved: doubly linked lists only; incrementing the end of a tree or a forward list, and distances in the wrong order there, are not claimed
C97 proved: doubly linked lists (the functions that create or destroy elements; the others only relink nodes); forward lists in C98; tree nodes, pairs and algorithm temporaries, which call __c_allocate too, are modelled with malloc storage only; vectors and deques take all storage from malloc
C98 proved: forward lists (the functions that create or destroy elements; the others only relink nodes)
C99 proved: remove_if, remove, unique_if and unique of both lists, the predicate or equal function being an arbitrary program over owning elements
C100 proved: merge_by, merge, sort_by and sort of both lists, the comparator being an arbitrary program over owning elements; with and without allocation failures
C101 proved: the three splices, swap and reverse of both lists over owning elements, and splices between lists of different types doing nothing
