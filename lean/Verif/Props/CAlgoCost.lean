import Verif.Algo.Cost
import Verif.Algo.SortCost
import Verif.Props.CSearch
import Verif.Props.CModify
import Verif.Props.CSort
/-!
# C70: how many accesses to elements the algorithms make

`Cost m k` (Core/Cost.lean): every run of `m` that ends without an error makes at most `k` accesses to memory; that the runs do end without an
error, and with which result, are C41–C52, and the last section puts the two together for one algorithm of each kind.  In the model of the
algorithms iterators are positions, so that all accesses are to elements (or to the temporary object of `algo_generate`): a comparison makes two,
a test of a predicate one, an assignment three, since it looks at the old value of its target, a swap six.  With iterators of vectors, deques and
lists an iterator operation takes constant time (C68), and the number of iterator operations is proportional to that of element accesses.
-/
namespace CC.Algo
open CC
variable {V : Type} {c c' d e : Slots} {first last first1 last1 first2 last2 j n k : Nat} {pred : V → Bool} {comp : V → V → Bool} {v w : Loc}

/-! ## searching: one pass -/

theorem C70_all_of (h : first ≤ last) : Cost (allOf c first last pred) (last - first) := by
  unfold allOf
  exact (Cost.bind (scan_cost (k := 1) (fun i => by cost) h) fun _ => Cost.pure _).mono (by omega)
theorem C70_any_of (h : first ≤ last) : Cost (anyOf c first last pred) (last - first) := by
  unfold anyOf
  exact (Cost.bind (scan_cost (k := 1) (fun i => by cost) h) fun _ => Cost.pure _).mono (by omega)
theorem C70_none_of (h : first ≤ last) : Cost (noneOf c first last pred) (last - first) := by
  unfold noneOf
  exact (Cost.bind (scan_cost (k := 1) (fun i => by cost) h) fun _ => Cost.pure _).mono (by omega)
theorem C70_find_if (h : first ≤ last) : Cost (findIf c first last pred) (last - first) := (findIf_pays h (Nat.le_refl _)).cost
theorem C70_find_if_not (h : first ≤ last) : Cost (findIfNot c first last pred) (last - first) := (findIfNot_pays h (Nat.le_refl _)).cost
theorem C70_find (h : first ≤ last) : Cost (findBy c first last v comp) (2 * (last - first)) := (findBy_pays h (Nat.le_refl _)).cost
theorem C70_count (h : first ≤ last) : Cost (count c first last v comp) (2 * (last - first)) := by
  unfold count
  exact countLoop_cost (fun i => cost_cmp _ _ _) (by omega)
theorem C70_count_if (h : first ≤ last) : Cost (countIf c first last pred) (last - first) := by
  unfold countIf
  exact (countLoop_cost (k := 1) (n := last - first) (fun i => cost_test _ _) (by omega)).mono (by omega)
theorem C70_for_each {op : Loc → M V Unit} (ho : ∀ l, Cost (op l) k) (h : first ≤ last) : Cost (forEach c first last op) (k * (last - first)) := by
  unfold forEach
  exact forEachLoop_cost ho (by omega)
theorem C70_for_each_n {op : Loc → M V Unit} (ho : ∀ l, Cost (op l) k) : Cost (forEachN c first n op) (k * n) := forEachN_cost ho
theorem C70_mismatch (h : first1 ≤ last1) : Cost (mismatch c first1 last1 d first2 comp) (2 * (last1 - first1)) := by
  unfold mismatch
  exact (Cost.bind (mismatchLoop_cost (n := last1 - first1) (by omega)) fun _ => Cost.pure _).mono (by omega)
theorem C70_equal (h : first1 ≤ last1) : Cost (equal c first1 last1 d first2 comp) (2 * (last1 - first1)) := by
  unfold equal
  exact (Cost.bind (mismatchLoop_cost (n := last1 - first1) (by omega)) fun _ => Cost.pure _).mono (by omega)
theorem C70_adjacent_find (h : first ≤ last) : Cost (adjacentFind c first last comp) (2 * (last - first)) := by
  unfold adjacentFind
  split
  · exact (Cost.pure _).mono (by omega)
  · exact (Cost.bind (adjacentLoop_cost (n := last - (first + 1)) (by omega)) fun _ => Cost.pure _).mono (by omega)
theorem C70_search_n (h : first ≤ last) : Cost (searchN c first last n v comp) (4 * (last - first)) := by
  unfold searchN
  split
  · exact (Cost.pure _).mono (by omega)
  · exact (searchNLoop_pays h (Nat.le_refl _)).cost

/-! ## searching: for each element of one range the elements of another -/

theorem C70_find_first_of (h : first ≤ last) (hs : first2 ≤ last2) :
    Cost (findFirstOf c first last d first2 last2 comp) (2 * (last2 - first2) * (last - first)) :=
  (findFirstOfLoop_pays hs h (Nat.le_refl _)).cost
theorem C70_find_last_of (h : first ≤ last) (hs : first2 ≤ last2) :
    Cost (findLastOf c first last d first2 last2 comp) (2 * (last2 - first2) * (last - first)) :=
  lastLoop_cost (fun _ _ hf hb => findFirstOfLoop_pays hs hf hb) h
theorem C70_search (h : first ≤ last) (hs : first2 ≤ last2) :
    Cost (search c first last d first2 last2 comp) (2 * (last2 - first2) * (last - first)) :=
  (searchLoop_pays hs h (Nat.le_refl _)).cost
theorem C70_search_last (h : first ≤ last) (hs : first2 ≤ last2) :
    Cost (searchLast c first last d first2 last2 comp) (2 * (last2 - first2) * (last - first)) :=
  lastLoop_cost (fun _ _ hf hb => searchLoop_pays hs hf hb) h
/-- quadratic: the function looks for the next run behind the start, not behind the end, of the run it has found -/
theorem C70_search_last_n (h : first ≤ last) : Cost (searchLastN c first last n v comp) (4 * (last - first) * (last - first + 1)) := by
  unfold searchLastN
  split
  · exact (Cost.pure _).mono (by omega)
  · obtain ⟨m, rfl⟩ := Nat.exists_eq_add_of_le h
    rename_i hn
    suffices hp : ∀ r f acc, r ≤ m → f + r = first + m →
        Cost (lastLoop (fun f => searchN c f (first + m) n v comp) f acc) (4 * m * (r + 1)) by
      simpa using hp m first (false, first + m) (Nat.le_refl _) rfl
    intro r
    induction r using Nat.strongRecOn with
    | _ r ih =>
      intro f acc hr hf
      rw [lastLoop]
      refine Pays.cost (Q := fun _ _ => True) ?_
      refine Pays.bind (R := fun q b => (q.1 = true → f ≤ q.2 ∧ q.2 < first + m) ∧ 4 * m * r ≤ b) ?_ fun q b hq => ?_
      · unfold searchN
        rw [if_neg hn]
        intro s a s' e
        obtain ⟨t, h1, h2⟩ := searchNLoop_pays (by omega) (Nat.le_refl (4 * (first + m - f))) s a s' e
        refine ⟨4 * m * r, ?_, h2, Nat.le_refl _⟩
        rw [Nat.mul_succ]
        have : 4 * (first + m - f) ≤ 4 * m := Nat.mul_le_mul_left _ (by omega)
        omega
      · by_cases h1 : q.1 = true
        · rw [if_pos h1]
          obtain ⟨h2, h3⟩ := hq.1 h1
          have h4 := ih (f + r - (q.2 + 1)) (by omega) (q.2 + 1) (true, q.2) (by omega) (by omega)
          have h5 : 4 * m * (f + r - (q.2 + 1) + 1) ≤ 4 * m * r := Nat.mul_le_mul_left _ (by omega)
          exact Pays.of h4 (by omega) fun _ => trivial
        · rw [if_neg h1]
          exact Pays.ret trivial

/-! ## searching: halving -/

theorem C70_lower_bound (h : last - first < 2 ^ k) : Cost (lowerBound c first last v comp) (2 * k) := boundLoop_cost (fun _ => cost_cmp _ _ _) h
theorem C70_upper_bound (h : last - first < 2 ^ k) : Cost (upperBound c first last v comp) (2 * k) := by
  unfold upperBound
  exact boundLoop_cost (fun _ => by cost) h
theorem C70_equal_range (h : last - first < 2 ^ k) : Cost (equalRange c first last v comp) (4 * k) := by
  unfold equalRange
  exact (Cost.bind (C70_lower_bound h) fun _ => Cost.bind (C70_upper_bound h) fun _ => Cost.pure _).mono (by omega)
theorem C70_binary_search (h : last - first < 2 ^ k) : Cost (binarySearch c first last v comp) (2 * k + 2) := by
  unfold binarySearch
  apply Cost.mono
  · exact Cost.bind (C70_lower_bound h) fun _ => Cost.ite (Cost.bind (cost_cmp _ _ _) fun _ => Cost.pure _) (Cost.pure _)
  · omega

/-! ## extremes -/

theorem C70_max_element (h : first ≤ last) : Cost (maxElement c first last comp) (2 * (last - first - 1)) := by
  unfold maxElement
  rcases Nat.eq_or_lt_of_le h with rfl | h
  · rw [extLoop, if_neg (by omega)]; exact (Cost.pure _).mono (by omega)
  · exact extLoop_cost (fun _ _ => cost_cmp _ _ _) (by omega)
theorem C70_min_element (h : first ≤ last) : Cost (minElement c first last comp) (2 * (last - first - 1)) := by
  unfold minElement
  rcases Nat.eq_or_lt_of_le h with rfl | h
  · rw [extLoop, if_neg (by omega)]; exact (Cost.pure _).mono (by omega)
  · exact extLoop_cost (fun _ _ => cost_cmp _ _ _) (by omega)
theorem C70_minmax_element (h : first ≤ last) : Cost (minmaxElement c first last comp) (4 * (last - first - 1)) := by
  unfold minmaxElement
  rcases Nat.eq_or_lt_of_le h with rfl | h
  · rw [minmaxLoop, if_neg (by omega)]; exact (Cost.pure _).mono (by omega)
  · exact minmaxLoop_cost (by omega)
theorem C70_lexicographical_compare (h : first1 ≤ last1) : Cost (lexCompare c first1 last1 d first2 last2 comp) (4 * (last1 - first1)) := by
  unfold lexCompare
  apply Cost.mono
  · refine Cost.bind (d := 0) (lexLoop_cost (n := last1 - first1) (by omega)) fun r => ?_
    split <;> exact Cost.pure _
  · omega

/-! ## copying and overwriting: one pass -/

theorem C70_copy (h : first ≤ last) : Cost (copy c first last d j : M V _) (3 * (last - first)) := copyLoop_cost (by omega)
theorem C70_copy_if (h : first ≤ last) : Cost (copyIf c first last d j pred) (4 * (last - first)) :=
  copyIfLoop_cost (k := 1) (fun _ => cost_test _ _) (by omega)
theorem C70_copy_backward (h : first ≤ last) : Cost (copyBackward c first last d j : M V _) (3 * (last - first)) := copyBackwardLoop_cost (by omega)
theorem C70_fill (h : first ≤ last) : Cost (fill c first last v : M V _) (3 * (last - first)) := fillLoop_cost (by omega)
theorem C70_fill_n : Cost (fillN c first n v : M V _) (3 * n) := fillN_cost
theorem C70_transform {op : V → V} (h : first ≤ last) : Cost (transform c first last d j op) (3 * (last - first)) := transformLoop_cost (by omega)
theorem C70_remove_copy (h : first ≤ last) : Cost (removeCopy c first last d j v comp) (5 * (last - first)) :=
  copyIfLoop_cost (k := 2) (fun _ => by cost) (by omega)
theorem C70_remove_copy_if (h : first ≤ last) : Cost (removeCopyIf c first last d j pred) (4 * (last - first)) :=
  copyIfLoop_cost (k := 1) (fun _ => by cost) (by omega)
theorem C70_replace_copy (h : first ≤ last) : Cost (replaceCopy c first last d j v w comp) (5 * (last - first)) :=
  replaceCopyLoop_cost (k := 2) (fun _ => cost_cmp _ _ _) (by omega)
theorem C70_replace_copy_if (h : first ≤ last) : Cost (replaceCopyIf c first last d j pred w) (4 * (last - first)) :=
  replaceCopyLoop_cost (k := 1) (fun _ => cost_test _ _) (by omega)
theorem C70_reverse_copy (h : first ≤ last) : Cost (reverseCopy c first last d j : M V _) (3 * (last - first)) := reverseCopyLoop_cost (by omega)
theorem C70_unique_copy (h : first ≤ last) : Cost (uniqueCopy c first last d j comp) (5 * (last - first)) := by
  unfold uniqueCopy
  split
  · exact (Cost.pure _).mono (by omega)
  · exact (Cost.bind (cost_asg _ _) fun _ => uniqueCopyLoop_cost (n := last - (first + 1)) (by omega)).mono (by omega)
theorem C70_rotate_copy (h1 : first ≤ n) (h2 : n ≤ last) : Cost (rotateCopy c first n last d j : M V _) (3 * (last - first)) := by
  unfold rotateCopy
  exact (Cost.bind (C70_copy h2) fun _ => Cost.bind (C70_copy h1) fun _ => Cost.pure _).mono (by omega)
theorem C70_partition_copy (h : first ≤ last) : Cost (partitionCopy c first last d j e n pred) (4 * (last - first)) := partitionCopyLoop_cost (by omega)
/-- with the temporary object: one malloc, one free -/
theorem C70_generate {gen : Nat → V} (h : first ≤ last) : Cost (generate c first last gen) (6 * (last - first) + 6) := by
  unfold generate
  apply Cost.mono
  · exact Cost.bind (Cost.mallocO _) fun t => Cost.ite Cost.ub
      (Cost.bind (generateLoop_cost (n := last - first) (by omega)) fun _ => Cost.bind (Cost.destroyV _) fun _ => Cost.bind (Cost.freeV _) fun _ => Cost.pure _)
  · omega

theorem C70_generate_n {gen : Nat → V} : Cost (generateN c first n gen) (6 * n + 6) := by
  unfold generateN
  split
  · exact (Cost.pure _).mono (by omega)
  · apply Cost.mono
    · exact Cost.bind (Cost.mallocO _) fun t => Cost.ite Cost.ub
        (Cost.bind generateNLoop_cost fun _ => Cost.bind (Cost.destroyV _) fun _ => Cost.bind (Cost.freeV _) fun _ => Cost.pure _)
    · omega

/-! ## rearranging: one pass -/

theorem C70_remove (h : first ≤ last) : Cost (remove c first last v comp) (5 * (last - first)) := by
  unfold remove
  refine Pays.cost (Q := fun _ _ => True) ?_
  refine Pays.bind (findBy_pays h (by omega)) fun r b ⟨h1, h2, h3, h4⟩ => ?_
  by_cases h0 : r.2 ≠ last
  · rw [if_pos h0]
    rw [if_neg h0] at h4
    exact Pays.of (removeLoop_cost (k := 2) (n := last - (r.2 + 1)) (fun _ => cost_cmp _ _ _) (by omega)) (by omega) fun _ => trivial
  · rw [if_neg h0]
    exact Pays.ret trivial
theorem C70_remove_if (h : first ≤ last) : Cost (removeIf c first last pred) (4 * (last - first)) := by
  unfold removeIf
  refine Pays.cost (Q := fun _ _ => True) ?_
  refine Pays.bind (findIf_pays h (by omega)) fun r b ⟨h1, h2, h4⟩ => ?_
  by_cases h0 : r.2 ≠ last
  · rw [if_pos h0]
    rw [if_neg h0] at h4
    exact Pays.of (removeLoop_cost (k := 1) (n := last - (r.2 + 1)) (fun _ => cost_test _ _) (by omega)) (by omega) fun _ => trivial
  · rw [if_neg h0]
    exact Pays.ret trivial
/-- the first element to be replaced is compared twice -/
theorem C70_replace (h : first ≤ last) : Cost (replace c first last v w comp) (5 * (last - first) + 2) := by
  unfold replace
  refine Pays.cost (Q := fun _ _ => True) ?_
  refine Pays.bind (findBy_pays h (by omega)) fun r b ⟨h1, h2, h3, h4⟩ => ?_
  exact Pays.of (replaceLoop_cost (k := 2) (n := last - r.2) (fun _ => cost_cmp _ _ _) (by omega)) (by split at h4 <;> omega) fun _ => trivial
theorem C70_replace_if (h : first ≤ last) : Cost (replaceIf c first last pred w) (4 * (last - first) + 1) := by
  unfold replaceIf
  refine Pays.cost (Q := fun _ _ => True) ?_
  refine Pays.bind (findIf_pays h (by omega)) fun r b ⟨h1, h2, h4⟩ => ?_
  exact Pays.of (replaceLoop_cost (k := 1) (n := last - r.2) (fun _ => cost_test _ _) (by omega)) (by split at h4 <;> omega) fun _ => trivial
theorem C70_unique (h : first ≤ last) : Cost (unique c first last comp) (5 * (last - first)) := by
  unfold unique
  split
  · exact (Cost.pure _).mono (by omega)
  · exact (uniqueLoop_cost (n := last - (first + 1)) (by omega)).mono (by omega)
theorem C70_swap_range (h : first1 ≤ last1) : Cost (swapRange c first1 last1 d first2 : M V _) (6 * (last1 - first1)) := swapRangeLoop_cost (by omega)
theorem C70_reverse (h : first ≤ last) : Cost (reverse c first last : M V _) (3 * (last - first)) := reverseLoop_cost (by omega)
theorem C70_rotate (h1 : first ≤ n) (h2 : n ≤ last) : Cost (rotate c first n last : M V _) (6 * (last - first)) := by
  unfold rotate
  split
  · exact (Cost.pure _).mono (by omega)
  · split
    · exact (Cost.pure _).mono (by omega)
    · refine Pays.cost (Q := fun _ _ => True) ?_
      refine Pays.bind (rotateLoop1_pays (by omega) (Nat.le_refl _) (by omega) (Nat.le_refl _)) fun r b ⟨h3, h4, h5⟩ => ?_
      exact Pays.step (rotateLoop2_cost (n := last - r.1) h3 (Nat.le_refl _) h4 (by omega)) h5 fun _ => Pays.ret trivial
theorem C70_random_shuffle {r : Nat → Nat} : Cost (shuffle c first last r : M V _) (6 * (last - first - 1)) := shuffleLoop_cost
theorem C70_partition (h : first ≤ last) : Cost (partition c first last pred) (7 * (last - first)) := by
  unfold partition
  refine Pays.cost (Q := fun _ _ => True) ?_
  refine Pays.bind (findIfNot_pays h (by omega)) fun r b ⟨h1, h2, h4⟩ => ?_
  by_cases h0 : r.2 ≠ last
  · rw [if_pos h0]
    rw [if_neg h0] at h4
    exact Pays.of (partitionLoop_cost (n := last - (r.2 + 1)) (by omega)) (by omega) fun _ => trivial
  · rw [if_neg h0]
    exact Pays.ret trivial
theorem C70_is_partitioned (h : first ≤ last) : Cost (isPartitioned c first last pred) (last - first + 1) := by
  unfold isPartitioned
  split
  · exact (Cost.pure _).mono (by omega)
  · refine Pays.cost (Q := fun _ _ => True) ?_
    refine Pays.bind (skipTrue_pays h (by omega)) fun r b ⟨h1, h2, h4⟩ => ?_
    exact Pays.of (noneTrue_cost (n := last - r) (by omega)) (by split at h4 <;> omega) fun _ => trivial
/-- linear: the function does not bisect -/
theorem C70_partition_point (h : first ≤ last) : Cost (partitionPoint c first last pred) (last - first) := (skipTrue_pays h (Nat.le_refl _)).cost
theorem C70_is_sorted_until (h : first ≤ last) : Cost (isSortedUntil c first last comp) (2 * (last - first)) := by
  unfold isSortedUntil
  split
  · exact (Cost.pure _).mono (by omega)
  · exact (Cost.bind (sortedLoop_cost (n := last - (first + 1)) (by omega)) fun _ => Cost.pure _).mono (by omega)
theorem C70_is_sorted (h : first ≤ last) : Cost (isSorted c first last comp) (2 * (last - first)) := by
  unfold isSorted
  exact (Cost.bind (C70_is_sorted_until h) fun _ => Cost.pure _).mono (by omega)

/-! ## operations on sorted ranges: one pass over both -/

theorem C70_merge (h1 : first1 ≤ last1) (h2 : first2 ≤ last2) :
    Cost (merge c first1 last1 c' first2 last2 d j comp) (5 * ((last1 - first1) + (last2 - first2))) := by
  unfold merge
  refine Pays.cost (Q := fun _ _ => True) ?_
  refine Pays.bind (mergeLoop_pays h1 h2 (Nat.le_refl _)) fun r b ⟨a1, a2, a3, a4, a5⟩ => ?_
  refine Pays.bind (copy_pays (m := 3 * (last2 - r.2.1)) a2 (by omega)) fun _ b' hb => ?_
  exact Pays.bind (copy_pays (m := 0) a4 (by omega)) fun _ _ _ => Pays.ret trivial
theorem C70_includes (h1 : first1 ≤ last1) : Cost (includes c first1 last1 c' first2 last2 comp) (4 * (last1 - first1)) := by
  unfold includes
  split
  · exact (Cost.pure _).mono (by omega)
  · exact (Cost.bind (includesLoop_cost (n := last1 - first1) (by omega)) fun _ => Cost.pure _).mono (by omega)
theorem C70_set_difference (h1 : first1 ≤ last1) (h2 : first2 ≤ last2) :
    Cost (setDifference c first1 last1 c' first2 last2 d j comp) (5 * (last1 - first1)) := by
  unfold setDifference
  refine Pays.cost (Q := fun _ _ => True) ?_
  refine Pays.bind (differenceLoop_pays h1 h2 (Nat.le_refl _)) fun r b hr => ?_
  exact Pays.bind (copy_pays (m := 0) (by omega) (by omega)) fun _ _ _ => Pays.ret trivial
theorem C70_set_intersection (h1 : first1 ≤ last1) (h2 : first2 ≤ last2) :
    Cost (setIntersection c first1 last1 c' first2 last2 d j comp) (4 * ((last1 - first1) + (last2 - first2))) :=
  (intersectionLoop_pays h1 h2 (Nat.le_refl _)).cost
theorem C70_set_symmetric_difference (h1 : first1 ≤ last1) (h2 : first2 ≤ last2) :
    Cost (setSymDifference c first1 last1 c' first2 last2 d j comp) (7 * ((last1 - first1) + (last2 - first2))) := by
  unfold setSymDifference
  refine Pays.cost (Q := fun _ _ => True) ?_
  refine Pays.bind (symDifferenceLoop_pays h1 h2 (Nat.le_refl _)) fun r b ⟨a1, a2, a3, a4, a5⟩ => ?_
  refine Pays.bind (copy_pays (m := 3 * (last2 - r.2.1)) a2 (by omega)) fun _ b' hb => ?_
  exact Pays.bind (copy_pays (m := 0) a4 (by omega)) fun _ _ _ => Pays.ret trivial
theorem C70_set_union (h1 : first1 ≤ last1) (h2 : first2 ≤ last2) :
    Cost (setUnion c first1 last1 c' first2 last2 d j comp) (7 * ((last1 - first1) + (last2 - first2))) := by
  unfold setUnion
  refine Pays.cost (Q := fun _ _ => True) ?_
  refine Pays.bind (unionLoop_pays h1 h2 (Nat.le_refl _)) fun r b ⟨a1, a2, a3, a4, a5⟩ => ?_
  refine Pays.bind (copy_pays (m := 3 * (last2 - r.2.1)) a2 (by omega)) fun _ b' hb => ?_
  exact Pays.bind (copy_pays (m := 0) a4 (by omega)) fun _ _ _ => Pays.ret trivial

/-! ## heaps: `k` is the depth of the heap -/

theorem C70_push_heap (h : last - first < 2 ^ (k + 1)) : Cost (pushHeap c first last comp) (4 * k + 3) := pushHeap_cost h
theorem C70_pop_heap (h : last - first < 2 ^ (k + 1)) : Cost (popHeap c first last comp) (10 * k + 6) := popHeap_cost h
theorem C70_make_heap : Cost (makeHeap c first last comp) (10 * (last - first)) := makeHeap_cost
theorem C70_sort_heap (h : first ≤ last) (hk : last - first < 2 ^ (k + 1)) : Cost (sortHeap c first last comp) ((last - first) * (10 * k + 6)) := sortHeap_cost h hk
theorem C70_is_heap : Cost (isHeap c first last comp) (2 * (last - first)) := isHeap_cost
theorem C70_is_heap_until : Cost (isHeapUntil c first last comp) (2 * (last - first)) := isHeapUntil_cost
/-- `n` is the middle -/
theorem C70_partial_sort (h1 : first ≤ n) (h2 : n ≤ last) (hk : n - first < 2 ^ (k + 1)) :
    Cost (partialSort c first n last comp) ((last - first) * (14 * k + 17)) := partialSort_cost h1 h2 hk
theorem C70_partial_sort_copy (h1 : first1 ≤ last1) (h2 : first2 ≤ last2) (hk : last2 - first2 < 2 ^ (k + 1)) :
    Cost (partialSortCopy c first1 last1 d first2 last2 comp) ((last1 - first1) * (14 * k + 19)) := partialSortCopy_cost h1 h2 hk

/-! ## correctness and cost in one statement -/

section
variable {nf : Prop} {P : HProp V} {i : Nat} {vs us xs ys : List V} {value : Loc} {x : V}

theorem C70_find_correct (h : Rng P c i vs) (hw : Reads P value x) :
    TripleC nf P (findBy c i (i + vs.length) value comp)
      (fun r => ⌜FoundFirst (At vs fun v => comp v x = true) vs.length i r⌝ ∗ P) (2 * vs.length) := by
  refine TripleC.intro (C47_find comp h hw) ?_ (Le.refl _)
  simpa using C70_find (c := c) (comp := comp) (v := value) (Nat.le_add_right i vs.length)

theorem C70_lower_bound_correct (h : Rng P c i vs) (hw : Reads P value x) (hp : Parted (fun v => comp v x) vs) (hk : vs.length < 2 ^ k) :
    TripleC nf P (lowerBound c i (i + vs.length) value comp) (fun r => ⌜∃ m, r = i + m ∧ SplitAt (fun v => comp v x) vs m⌝ ∗ P) (2 * k) :=
  TripleC.intro (C45_lower_bound comp h hw hp) (C70_lower_bound (by simpa using hk)) (Le.refl _)

theorem C70_merge_correct (hsw : StrictWeak comp) (hR : Rng P c i xs) (hR' : Rng P c' j ys) (hx : Sorted comp xs) (hy : Sorted comp ys)
    (hl : xs.length + ys.length ≤ us.length) :
    TripleC nf (P ∗ seg d n us) (merge c i (i + xs.length) c' j (j + ys.length) d n comp)
      (fun r => ∃ₛ zs, ⌜zs.Perm (xs ++ ys) ∧ Sorted comp zs ∧ StableOf comp (ys ++ xs) zs ∧ r = (zs.length, n + zs.length)⌝ ∗ P ∗ seg d n (over us zs))
      (5 * (xs.length + ys.length)) := by
  refine TripleC.intro (C46_merge hsw hR hR' hx hy hl) ?_ (Le.refl _)
  simpa using C70_merge (c := c) (c' := c') (d := d) (j := n) (comp := comp) (Nat.le_add_right i xs.length) (Nat.le_add_right j ys.length)

theorem C70_push_heap_correct (hsw : StrictWeak comp) (v : V) (hh : IsHeap comp vs) (hk : vs.length + 1 < 2 ^ (k + 1)) :
    TripleC nf (seg c i (vs ++ [v])) (pushHeap c i (i + (vs ++ [v]).length) comp) (fun _ => ∃ₛ ws, ⌜ws.Perm (vs ++ [v]) ∧ IsHeap comp ws⌝ ∗ seg c i ws)
      (4 * k + 3) :=
  TripleC.intro (C43_push_heap hsw v hh) (C70_push_heap (by simpa using hk)) (Le.refl _)

theorem C70_partial_sort_correct (hsw : StrictWeak comp) (A B : List V) (hk : A.length < 2 ^ (k + 1)) :
    TripleC nf (seg c i (A ++ B)) (partialSort c i (i + A.length) (i + A.length + B.length) comp)
      (fun _ => ∃ₛ A', ∃ₛ B', ⌜(A' ++ B').Perm (A ++ B) ∧ A'.length = A.length ∧ Sorted comp A' ∧ (∀ a, a ∈ A' → ∀ b, b ∈ B' → comp b a = false)⌝ ∗
        seg c i (A' ++ B')) ((A.length + B.length) * (14 * k + 17)) := by
  refine TripleC.intro (C42_partial_sort hsw A B) ?_ (Le.refl _)
  have := C70_partial_sort (c := c) (comp := comp) (first := i) (n := i + A.length) (last := i + A.length + B.length) (k := k) (by omega) (by omega) (by omega)
  rwa [show i + A.length + B.length - i = A.length + B.length by omega] at this

/-- `algo_sort_by` on any range: `n log n`, whatever the order of the elements.  (That it loses elements of long ranges is C41.) -/
theorem C70_sort (hsw : StrictWeak comp) (hk : vs.length < 2 ^ (k + 1)) :
    TripleC nf (seg c i vs) (sort c i (i + vs.length) comp)
      (fun _ => ∃ₛ ws, ⌜ws.length = vs.length ∧ Sorted comp ws ∧ (∀ x, x ∈ ws → x ∈ vs)⌝ ∗ seg c i ws) (vs.length * (28 * k + 2065)) := sort_any_cost hsw hk

/-- `algo_sort_by` on at most 512 elements is an insertion sort. -/
theorem C70_sort_short (hsw : StrictWeak comp) (hn : vs.length ≤ 512) :
    TripleC nf (seg c i vs) (sort c i (i + vs.length) comp) (fun _ => ∃ₛ ws, ⌜ws.Perm vs ∧ Sorted comp ws⌝ ∗ seg c i ws) (4 * vs.length * vs.length) :=
  sort_small_cost hsw hn

/-- Non-vacuity: the hypotheses of `C70_lower_bound_correct` for a range of four elements, three comparisons being enough -/
example : ∃ (m : Mem Nat) (P : HProp Nat) (c : Slots) (l : Loc), P m.cells ∧ Rng P c 0 [1, 3, 3, 7] ∧ Reads P l 3 ∧
    Parted (fun v => decide (v < 3)) [1, 3, 3, 7] ∧ [1, 3, 3, 7].length < 2 ^ 3 := by
  obtain ⟨m, c, d, l, _, hm⟩ := exists_ranges [1, 3, 3, 7] [] 3
  exact ⟨m, _, c, l, hm, seg_rng.left, Reads.pts.right.right, by simp [Parted], by decide⟩
end

end CC.Algo
