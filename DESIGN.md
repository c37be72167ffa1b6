# Design of the formal model of matrixjoeq/c_container

The Lean 4 project is `/verif/lean`. Everything is proved about a *model* of the C code; the model is a function-by-function transcription of `/repo` and every definition that
models code cites `file:lines`.  `properties.jsonl` lists the properties, `MANIFEST.json` maps each of them to the theorems (`theorem Cnn_*` in `Verif/Props/*.lean`), `tools/notes.txt` holds the
one-line verdicts that go into the manifest, `seeded/LOG.jsonl` the attempts to falsify the theorems by editing the model.

## Layers

1. `Verif/Core` – the execution monad, the heap, separation logic.
   * `C σ α = StateT σ (ExceptT Fault Option) α`. `Option.none` is divergence, `Fault.ub` undefined behaviour (access to memory that is not allocated, reading or destroying raw element storage,
     constructing over a live object, double free, freeing storage that still holds a constructed object where the model uses `freeV`, calling a NULL function pointer, ...), `Fault.abort` a failed `assert`.
     C loops are `partial_fixpoint` functions, so divergence is a possible outcome and "the call returns" is a termination proof.
   * `Mem V`: slots `(block, index)`; slot 0 of a block is the allocator's size record. Slots hold integers, pointers, or element storage, raw or constructed. An *allocator oracle* `orc` decides for
     each malloc whether it fails and which unused address it returns; `junk` is the content of fresh memory. Theorems quantify over both: every pattern of failures, every reuse of addresses.
     `clk` counts memory accesses (cost theorems, `Core/Cost`). Nothing is ever allocated at NULL (`hnul`).
   * `Triple nf P m Q`: from every memory that satisfies `P ∗ F` (`F` arbitrary), `m` terminates without fault and ends in `Q a ∗ F`. So a triple says: terminates, no UB, no assertion fails, nothing
     outside the footprint is touched, and – as assertions are exact – nothing is leaked. `Triple True` assumes that malloc does not fail, `Triple False` holds for every allocator.
     `Bad P m`: from every such memory `m` ends in undefined behaviour.
   * Element types (`Core/Elem`): `Ops` are arbitrary programs for create/copy/destroy; `ElemSpec` says they treat objects properly (each object owns what it owns). `plainSpec`, `boxSpec` are instances.
2. Pointer-level containers: `List` (c_list.c), `SList` (c_forward_list.c), `Tree` (c_tree.c, red-black tree with header), `Pair` (c_pair.c).
3. Block-level containers: `Vec` (c_vector.c), `Deq` (c_deque.c): pointers are (block, index), one slot per element (bytes are not modelled); elements are handled by arbitrary callback programs.
4. `Adapter` (stack, queue, priority queue over the containers, dispatch through the backend kind), `Tree/SetMap`, `Tree/Assoc` (c_set.c, c_map.c: one definition per function).
5. `Algo`: all of `algorithm/*.c` over memory slots: a container is a map from positions to slots (`Slots`), so that lists, vectors and deques are instances (`Algo/Link`) and aliasing of ranges is visible.
6. `Iter`: the nine tables of iterator operations and iterator objects on the heap (`c_iterator_t` structs with a kind tag), `IAlgo`: the algorithms again, at the level of iterator *objects*:
   copies of iterators are allocated and freed, operations dispatch on the kind, results are delivered through the caller's variable. A refinement (`IAlgo/Refine`) relates them to layer 5.
7. `Own`: the algorithms again, with elements that are objects owning memory and callbacks that are arbitrary programs (temporaries are allocated, copied, destroyed). A simulation relates them to layer 5.

Specifications are in `Verif/Spec/*` (orders, searching, rearranging, heaps, set operations, abstract adapters, abstract sets and maps, iterators as positions); they do not mention the code.
Property theorems are in `Verif/Props/*.lean`, each with an example that a concrete, non-trivial memory meets the hypotheses.

## What is simplified everywhere

* User predicates and comparisons are pure total functions of the element values, except: element callbacks of vectors and deques (layer 3), `for_each` callbacks, and layer 7.
* `size_t`/`ptrdiff_t` are unbounded naturals/integers, except where the width matters (the 64 counters of list sort; C60; C85 proves the vector and deque functions equal to their `size_t` versions below the limit); `sizeof` arithmetic is replaced by slots, except where sizes matter (C60, C61).
* A type-info table is a parameter of the model rather than a struct in memory (layer `Info` puts it into memory for the constructors and the functions using an optional entry, C82); calls through NULL entries are modelled as UB where the code makes them. Entries `allocate`/`deallocate` are only looked at in `Info/Own`, `Info/OwnS` (C97–C101); elsewhere element storage comes from `malloc`.
* In layers 2–5 iterators are passed by value and their kind checks succeed; layer 6 removes this.
* Concurrency: the code has none. Floating point: only in the random generator (`__algo_random`; `Algo/Shuffle` models it with exact rational arithmetic over an arbitrary stream of raw numbers, elsewhere any result in the documented range is allowed).

## Not modelled

`*_max_size` (constants), the private helpers `__is_root`, `__sibling`, `__color`, `__value`, `__get_parent/left/right` (inlined in the callers' models),
printing/testing code.

## Plan per property

Where the code violates a property, the full statement stays in `properties.jsonl`, `Cnn_*_partial` is the part that holds and `Cnn_*_violated` a theorem that exhibits the violation (usually for all inputs of
some class), with an example that the API reaches such a state.

| id | model | proof |
|----|-------|-------|
| C01–C04, C08, C10–C12 | pointer-level list | triples over `isList l xs` (addresses and values), induction over histories |
| C05, C06, C07 | same | two lists; counter array of sort; list-level merge theory (stability) |
| C09 | same | violated: use after free for a reference to any own element but the last; correct in all other cases (List/OwnRemove) |
| C13–C15 | pointer-level forward list | as for list |
| C16, C17, C23 | block-level vector | triples, histories over (capacity, contents), growth arithmetic |
| C18–C22 | block-level vector | violated: exact characterisation of the bad cases |
| C24, C25 | block-level deque | as vector; C25 violated |
| C26–C29, C56 | adapters | refinement of the abstract adapter over whole client lives; C27 (vector queue), C29, C56 (mixed backends) violated |
| C30–C38 | pointer-level tree | zipper representation, functional red-black layer, histories; C33 also with access counts |
| C39 | same | violated: header leak |
| C40, C53, C54 | pairs on the heap with arbitrary initial bytes | C40, C54 violated |
| C41–C51 | algorithms over slots | loop invariants; C41 (> 512 elements; exact effect proved: InBlocks, raised in Spec/Raised), C44, C46 (set_difference) violated |
| C52, C67 | algorithms with object temporaries | C67: simulation from layer 5; generate, push_heap, partial_sort violated |
| C55 | every modelled function on NULL | case by case; c_list_erase_range violated |
| C57, C58 | sets, maps | refinement of abstract sets/maps over whole client lives |
| C59, C60 | iterator objects | positions; C60 backward distances violated |
| C61 | erase_from with sizes | violated for maps |
| C62–C64 | algorithms on iterator objects | refinement to layer 5 for every kind of container |
| C65, C66 | same | violated: unchecked allocation; results of another kind |
| C68 | step counts of list, slist, vector and deque operations | `Mem.clk` counts accesses; `Cost` of the straight-line programs next to the specification (`TripleC`) |
| C69 | capacity of vectors and deques over histories | invariant of the history semantics; deque FIFO use violated |
| C70 | accesses of the algorithms to elements | `Cost` by induction on the range, time credits (`Pays`) for amortised bounds; for sort, copies of the unguarded loops with a bound on the rounds, related by `Le` |
| C71 | c_vector/c_deque_insert_range with by-value iterator parameters (4 of 5 slots) | `Bad`: slot 5 is outside the parameters; triples for the guarded cases |
| C72 | deque operations with the address of an own element | triples with `CanCopy` from the moved elements; `Bad` after reallocation |
| C73 | deque lifecycles with arbitrary element specifications | history triple; `Bad` for shrink + destroy of boxes |
| C74 | client programs that pass begin/end of a tree to the algorithms on iterator objects | tree memory split into structure and element cells (`tree_view`), then the theorems of C62/C63 |
| C75 | the argument checks of all writing algorithms of the iterator model | `Aborts`: run through the checks; `_violated` for `algo_remove_copy_if` |
| C76 | the list, forward-list, vector, deque, tree and adapter models with both arguments equal | separation-logic triples; for the cases that hang `Never` (`Core/Never`: the run is `none` from every such memory), by fixpoint induction over the loop |
| C77 | the tree model with an arbitrary allocator; the insertion functions split before `__insert` (`Tree/Plan`, the split program is proved equal to the function) | `Safe` (`Core/Safe`: returns as specified, or a failed assertion and a failing request); `_violated` with an exhausted allocator |
| C78 | the iterator-object algorithms of layer 6 and the macros of `IAlgo/Forms` | each function unfolded: with one NULL argument it is `pure` of the neutral result (`Harmless`: no access, no allocation); the macros: `Bad` at the first load |
| C79 | `IAlgo/Forms`: every macro loads the element type of its first iterator and passes that type's less/equal | the load returns the range's type, then the theorem about the `_by` function (C62–C64) |
| C80 | `Algo/Shuffle`: `algo_random_shuffle` with the library's generator over an arbitrary stream of raw numbers | permutation: invariant of the swaps; every arrangement: induction from the end, choosing the raw number that swaps the wanted element in |
| C81 | `Prime`: the macros of prime/ once, with the C type as parameter; numbers as integers in range or floats (not-a-number or ordered) | triples per callback; order laws on values; instance of the vector's element interface; violated for not-a-number and for NULL sources |
| C82 | `Info`: the table of callbacks in memory, validation, constructors, the functions that read `less`/`equal` | triples and failing assertions over all tables; then the theorems about the `_by` functions; violated for remove and for priority queues without an order |
| C83 | `Adapter/PqIter`: push and pop with the backend's heap-allocated iterators and the heap algorithms on iterator objects (layer 6) | the layer-6 theorems (C64) for the backend's range, induction over histories; violated when the allocator is exhausted |
| C84 | the vector and deque models under allocation schedules (`Core/Sched`: which of the next requests are granted) | `On`/`BadOn` by stepping through the call; the failing `memcpy` goes to the NULL pointer or behind the block; `Exhausted`/`Ruined` for assign |
| C85 | the vector and deque functions that compute sizes again, with the computations modulo the number of values of `size_t` and elements of `z` bytes (`Vec/Wide`, `Deq/Wide`) | `SameOn`: equal outcomes from every memory with the container when the sizes fit; `Bad`: the loop that fills the new elements reaches a slot behind the block when they do not |
| C86 | the list models with the access counter of C68 (`clk`) | `within k m` (Core/Within): `m` with an alarm after `k` accesses; the specs of the list functions are proved again for `within`, paying for each statement; for sort a potential over the 64 counters (`List/Time3`): a counter with index `i` holds 0 or 2^i elements |
| C87 | the vector and deque models with the access counter | `Vec/Amort`, `Deq/Amort`: potential `(t + 2) * (2 * size - capacity)` for vectors, a similar one over the free slots of both ends for deques (`pot`), induction over the sequence of operations |
| C88 | the vector and deque models with the access counter | the specs proved again for `within` (`Vec/Time`, `Vec/Time2`, `Deq/Time`, `Deq/Time2`); `Takes o t`: each element operation makes at most `t` accesses |
| C89 | the adapter models (`Adapter/Model`, client programs `life`) with the access counter | a program logic with credits (`PT`, Adapter/Time): the backend holds the credits its potential requires (`tRep`, Adapter/Time2), lives by induction over the history (Time3; heaps Time4); combined with the functional theorems C26–C28 |
| C90 | `rbVerify` (Tree/Model) on any tree-shaped memory (`isShape`, no red-black or order invariant) | the loop computes the conjunction of the local tests of all nodes (`flags`, Tree/Verify2), read as conditions on the tree (Spec/RbCheck); two explicit trees show what the check misses |
| C91 | the algorithm models (`Algo/Modify`, `Algo/NonMod`) with a value location inside the range | loop invariants over the whole range as a list with `List.set` (Algo/Alias); exact result for replace; explicit counterexamples |
| C92 | `c_slist_remove` with a value location inside the list | rounds up to the referenced element as for any value; then the freed box is not in the list any more (SList/OwnRemove) |
| C93 | `__check_deque_state` compiled in, as a program behind the operations | exact meaning of the check, then the history theorem of C24 with the assertion after every step (Props/CCheck) |
| C94 | client programs that take a reference, run a history and take the reference again (Vec/Stay, Deq/Stay) | per operation: unchanged storage block and position; induction over the history (Props/CStay) |
| C95 | the loops of layer 5 with the same container as source and destination | invariant: the part already read, the rest of the source and the destination form one list (Algo/InPlace, Props/CInPlace); lifted to iterator objects by the refinements of layer 6 (Props/CInPlaceIter) |
| C96 | the iterator objects of layer 6 on lists | every place of the ring has a successor and a predecessor (Iter/Ring); sums of moves modulo size + 1; the distance loop by induction on the distance around the ring (Props/CRing) |
| C97 | `Info/Own`: `__c_allocate`, `__c_deallocate`, and the functions of lists that create or destroy elements, looking up the descriptor's entries in memory and calling the client's programs | triples over lists whose elements carry their storage and resources (`Info/OwnList`), for every allocator with data of its own; induction over histories, whole lives, copies and assignments (also to a list of another type) |
| C98 | `Info/OwnS`: the functions of forward lists that create or destroy elements, likewise | as C97, over `isL` (`Info/OwnSList`), with positions counted from the before-begin node |
| C99 | `Info/Own`, `Info/OwnS`: `remove_if`, `remove`, `unique_if`, `unique` with the client's predicate or `equal` function as an arbitrary program on locations | loop inductions (`Info/OwnRemove`, `Info/OwnSRemove`) over the representations of C97/C98; `Asks`, `Asks2` say what a predicate is; results by `List.filter` and `uniqBy` |
| C100 | `Info/OwnSort`, `Info/OwnSSort`: `merge_by`, `merge`, `sort_by`, `sort` of lists and forward lists with the comparator as an arbitrary program on locations, the auxiliary lists created and destroyed through the table in memory | as C06/C07: merge loop invariant, counters as a bag of lists (`Ent`, `GoodFrom`), now over the representations of C97/C98; results by `Perm`, `Sorted`, `StableOf` on the same elements |
| C101 | `Info/OwnMove`: splice (three forms), swap and reverse of lists and forward lists of owning elements: the model functions of C05/C08 unchanged, over the representations of C97/C98 | the nodes of a segment are relinked while the elements and what they own (`Elem`, i.e. address and value, and the separate resource next to it) stay; results name the same elements in the new order |

## Trusted base

* Lean 4.33.0 kernel; axioms `propext`, `Classical.choice`, `Quot.sound` at most (checked with `#print axioms`, no own axioms, no compiled evaluation).
* The reading of the C code in the model (no code is run): the correspondence is by the cited lines.
* The execution model in `Core/Mem` as a semantics for the C constructs used: typed slots instead of bytes, no strict-aliasing or alignment issues, pointers compare by address, evaluation order as written.
