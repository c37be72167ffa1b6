import Verif.Props.CNull
import Verif.IAlgo.Forms
import Verif.IAlgo.Partition
/-!
# C78: NULL arguments of the algorithms

Every algorithm that is passed NULL for an iterator or a value returns at once, with the neutral result (0, false), whatever its other arguments are, and without any access to the memory: `Harmless`
(Props/CNull.lean).  The comparison-free macros do not: they read the comparison through their first iterator before the check.  Generated by tools/gen_algonull.py.
-/
namespace CC.Props
open CC CC.Iter CC.IAlgo
variable {V : Type}

local macro "nul " h:term : tactic => `(tactic| (
  rw [if_pos (by
    first
    | exact $h
    | (have h' := $h; refine Classical.byContradiction fun hn => ?_; simp only [not_or] at hn; simp only [hn, or_self] at h'))]
  intro s
  rfl))

/-- `algo_all_of` -/
theorem C78_all_of (first : Addr) (last : Addr) (pred : V → Bool) (h : first = 0 ∨ last = 0) : Harmless (V := V) (IAlgo.allOf first last pred) false := by
  unfold IAlgo.allOf
  nul h

/-- `algo_any_of` -/
theorem C78_any_of (first : Addr) (last : Addr) (pred : V → Bool) (h : first = 0 ∨ last = 0) : Harmless (V := V) (IAlgo.anyOf first last pred) false := by
  unfold IAlgo.anyOf
  nul h

/-- `algo_none_of` -/
theorem C78_none_of (first : Addr) (last : Addr) (pred : V → Bool) (h : first = 0 ∨ last = 0) : Harmless (V := V) (IAlgo.noneOf first last pred) false := by
  unfold IAlgo.noneOf
  nul h

/-- `algo_for_each` -/
theorem C78_for_each (first : Addr) (last : Addr) (op : Loc → M V Unit) (h : first = 0 ∨ last = 0) : Harmless (V := V) (IAlgo.forEach first last op) 0 := by
  unfold IAlgo.forEach
  nul h

/-- `algo_for_each_n` -/
theorem C78_for_each_n (first : Addr) (n : Nat) (reached : Out) (op : Loc → M V Unit) (h : first = 0) : Harmless (V := V) (IAlgo.forEachN first n reached op) 0 := by
  unfold IAlgo.forEachN
  nul h

/-- `algo_count` -/
theorem C78_count (E : Nat → V → V → Bool) (first : Addr) (last : Addr) (value : Loc) (h : first = 0 ∨ last = 0 ∨ value.1 = 0) : Harmless (V := V) (IAlgo.count E first last value) 0 := by
  unfold IAlgo.count
  nul h

/-- `algo_count_if` -/
theorem C78_count_if (first : Addr) (last : Addr) (pred : V → Bool) (h : first = 0 ∨ last = 0) : Harmless (V := V) (IAlgo.countIf first last pred) 0 := by
  unfold IAlgo.countIf
  nul h

/-- `algo_mismatch_by` -/
theorem C78_mismatch (first1 : Addr) (last1 : Addr) (first2 : Addr) (mismatch1 : Out) (mismatch2 : Out) (pred : V → V → Bool) (h : first1 = 0 ∨ last1 = 0 ∨ first2 = 0) : Harmless (V := V) (IAlgo.mismatch first1 last1 first2 mismatch1 mismatch2 pred) (false, 0, 0) := by
  unfold IAlgo.mismatch
  nul h

/-- `algo_equal_by` -/
theorem C78_equal (first1 : Addr) (last1 : Addr) (first2 : Addr) (pred : V → V → Bool) (h : first1 = 0 ∨ last1 = 0 ∨ first2 = 0) : Harmless (V := V) (IAlgo.equal first1 last1 first2 pred) false := by
  unfold IAlgo.equal
  nul h

/-- `algo_find_by` -/
theorem C78_find (first : Addr) (last : Addr) (found : Out) (value : Loc) (pred : V → V → Bool) (h : first = 0 ∨ last = 0 ∨ value.1 = 0) : Harmless (V := V) (IAlgo.findBy first last found value pred) (false, 0) := by
  unfold IAlgo.findBy
  nul h

/-- `algo_find_if` -/
theorem C78_find_if (first : Addr) (last : Addr) (found : Out) (pred : V → Bool) (h : first = 0 ∨ last = 0) : Harmless (V := V) (IAlgo.findIf first last found pred) (false, 0) := by
  unfold IAlgo.findIf
  nul h

/-- `algo_find_if_not` -/
theorem C78_find_if_not (first : Addr) (last : Addr) (found : Out) (pred : V → Bool) (h : first = 0 ∨ last = 0) : Harmless (V := V) (IAlgo.findIfNot first last found pred) (false, 0) := by
  unfold IAlgo.findIfNot
  nul h

/-- `algo_find_first_of_by` -/
theorem C78_find_first_of (first : Addr) (last : Addr) (sFirst : Addr) (sLast : Addr) (found : Out) (pred : V → V → Bool) (h : first = 0 ∨ last = 0 ∨ sFirst = 0 ∨ sLast = 0) : Harmless (V := V) (IAlgo.findFirstOf first last sFirst sLast found pred) (false, 0) := by
  unfold IAlgo.findFirstOf
  nul h

/-- `algo_find_last_of_by` -/
theorem C78_find_last_of (first : Addr) (last : Addr) (sFirst : Addr) (sLast : Addr) (found : Out) (pred : V → V → Bool) (h : first = 0 ∨ last = 0 ∨ sFirst = 0 ∨ sLast = 0) : Harmless (V := V) (IAlgo.findLastOf first last sFirst sLast found pred) (false, 0) := by
  unfold IAlgo.findLastOf
  nul h

/-- `algo_adjacent_find_by` -/
theorem C78_adjacent_find (first : Addr) (last : Addr) (found : Out) (pred : V → V → Bool) (h : first = 0 ∨ last = 0) : Harmless (V := V) (IAlgo.adjacentFind first last found pred) (false, 0) := by
  unfold IAlgo.adjacentFind
  nul h

/-- `algo_search_by` -/
theorem C78_search (first : Addr) (last : Addr) (sFirst : Addr) (sLast : Addr) (found : Out) (pred : V → V → Bool) (h : first = 0 ∨ last = 0 ∨ sFirst = 0 ∨ sLast = 0) : Harmless (V := V) (IAlgo.search first last sFirst sLast found pred) (false, 0) := by
  unfold IAlgo.search
  nul h

/-- `algo_search_last_by` -/
theorem C78_search_last (first : Addr) (last : Addr) (sFirst : Addr) (sLast : Addr) (found : Out) (pred : V → V → Bool) (h : first = 0 ∨ last = 0 ∨ sFirst = 0 ∨ sLast = 0) : Harmless (V := V) (IAlgo.searchLast first last sFirst sLast found pred) (false, 0) := by
  unfold IAlgo.searchLast
  nul h

/-- `algo_search_n_by` -/
theorem C78_search_n (first : Addr) (last : Addr) (n : Nat) (value : Loc) (found : Out) (pred : V → V → Bool) (h : first = 0 ∨ last = 0 ∨ value.1 = 0) : Harmless (V := V) (IAlgo.searchN first last n value found pred) (false, 0) := by
  unfold IAlgo.searchN
  nul h

/-- `algo_search_last_n_by` -/
theorem C78_search_last_n (first : Addr) (last : Addr) (n : Nat) (value : Loc) (found : Out) (pred : V → V → Bool) (h : first = 0 ∨ last = 0 ∨ value.1 = 0) : Harmless (V := V) (IAlgo.searchLastN first last n value found pred) (false, 0) := by
  unfold IAlgo.searchLastN
  nul h

/-- `algo_lower_bound_by` -/
theorem C78_lower_bound (Z : Nat → Nat) (first : Addr) (last : Addr) (value : Loc) (bound : Out) (comp : V → V → Bool) (h : first = 0 ∨ last = 0 ∨ value.1 = 0 ∨ bound.isNull = true) : Harmless (V := V) (IAlgo.lowerBound Z first last value bound comp) 0 := by
  unfold IAlgo.lowerBound
  nul h

/-- `algo_upper_bound_by` -/
theorem C78_upper_bound (Z : Nat → Nat) (first : Addr) (last : Addr) (value : Loc) (bound : Out) (comp : V → V → Bool) (h : first = 0 ∨ last = 0 ∨ value.1 = 0 ∨ bound.isNull = true) : Harmless (V := V) (IAlgo.upperBound Z first last value bound comp) 0 := by
  unfold IAlgo.upperBound
  nul h

/-- `algo_binary_search_by` -/
theorem C78_binary_search (Z : Nat → Nat) (first : Addr) (last : Addr) (value : Loc) (comp : V → V → Bool) (h : first = 0 ∨ last = 0 ∨ value.1 = 0) : Harmless (V := V) (IAlgo.binarySearch Z first last value comp) false := by
  unfold IAlgo.binarySearch
  nul h

/-- `algo_equal_range_by` -/
theorem C78_equal_range (Z : Nat → Nat) (first : Addr) (last : Addr) (value : Loc) (lower : Out) (upper : Out) (comp : V → V → Bool) (h : first = 0 ∨ last = 0 ∨ value.1 = 0 ∨ lower.isNull = true ∨ upper.isNull = true) : Harmless (V := V) (IAlgo.equalRange Z first last value lower upper comp) (0, 0) := by
  unfold IAlgo.equalRange
  nul h

/-- `algo_max_element_by` -/
theorem C78_max_element (first : Addr) (last : Addr) (max : Out) (comp : V → V → Bool) (h : first = 0 ∨ last = 0 ∨ max.isNull = true) : Harmless (V := V) (IAlgo.maxElement first last max comp) 0 := by
  unfold IAlgo.maxElement
  nul h

/-- `algo_min_element_by` -/
theorem C78_min_element (first : Addr) (last : Addr) (min : Out) (comp : V → V → Bool) (h : first = 0 ∨ last = 0 ∨ min.isNull = true) : Harmless (V := V) (IAlgo.minElement first last min comp) 0 := by
  unfold IAlgo.minElement
  nul h

/-- `algo_minmax_element_by` -/
theorem C78_minmax_element (first : Addr) (last : Addr) (min : Out) (max : Out) (comp : V → V → Bool) (h : first = 0 ∨ last = 0 ∨ min.isNull = true ∨ max.isNull = true) : Harmless (V := V) (IAlgo.minmaxElement first last min max comp) (0, 0) := by
  unfold IAlgo.minmaxElement
  nul h

/-- `algo_lexicographical_compare_by` -/
theorem C78_lexicographical_compare (first1 : Addr) (last1 : Addr) (first2 : Addr) (last2 : Addr) (comp : V → V → Bool) (h : first1 = 0 ∨ last1 = 0 ∨ first2 = 0 ∨ last2 = 0) : Harmless (V := V) (IAlgo.lexCompare first1 last1 first2 last2 comp) false := by
  unfold IAlgo.lexCompare
  nul h

/-- `algo_is_partitioned` -/
theorem C78_is_partitioned (first : Addr) (last : Addr) (pred : V → Bool) (h : first = 0 ∨ last = 0) : Harmless (V := V) (IAlgo.isPartitioned first last pred) false := by
  unfold IAlgo.isPartitioned
  nul h

/-- `algo_partition` -/
theorem C78_partition (first : Addr) (last : Addr) (second : Out) (pred : V → Bool) (h : first = 0 ∨ last = 0) : Harmless (V := V) (IAlgo.partition first last second pred) 0 := by
  unfold IAlgo.partition
  nul h

/-- `algo_partition_copy` -/
theorem C78_partition_copy (first : Addr) (last : Addr) (dFirstTrue : Addr) (dFirstFalse : Addr) (dLastTrue : Out) (dLastFalse : Out) (pred : V → Bool) (h : first = 0 ∨ last = 0 ∨ dFirstTrue = 0 ∨ dFirstFalse = 0) : Harmless (V := V) (IAlgo.partitionCopy first last dFirstTrue dFirstFalse dLastTrue dLastFalse pred) (0, 0, 0) := by
  unfold IAlgo.partitionCopy
  nul h

/-- `algo_partition_point` -/
theorem C78_partition_point (first : Addr) (last : Addr) (point : Out) (pred : V → Bool) (h : first = 0 ∨ last = 0 ∨ point.isNull = true) : Harmless (V := V) (IAlgo.partitionPoint first last point pred) 0 := by
  unfold IAlgo.partitionPoint
  nul h

/-- `algo_copy` -/
theorem C78_copy (low : Addr → Nat) (first : Addr) (last : Addr) (dFirst : Addr) (dLast : Out) (h : first = 0 ∨ last = 0 ∨ dFirst = 0) : Harmless (V := V) (IAlgo.copy low first last dFirst dLast) (0, 0) := by
  unfold IAlgo.copy
  nul h

/-- `algo_copy_if` -/
theorem C78_copy_if (low : Addr → Nat) (first : Addr) (last : Addr) (dFirst : Addr) (dLast : Out) (pred : V → Bool) (h : first = 0 ∨ last = 0 ∨ dFirst = 0) : Harmless (V := V) (IAlgo.copyIf low first last dFirst dLast pred) (0, 0) := by
  unfold IAlgo.copyIf
  nul h

/-- `algo_copy_backward` -/
theorem C78_copy_backward (low : Addr → Nat) (first : Addr) (last : Addr) (dLast : Addr) (dLastCopied : Out) (h : first = 0 ∨ last = 0 ∨ dLast = 0) : Harmless (V := V) (IAlgo.copyBackward low first last dLast dLastCopied) (0, 0) := by
  unfold IAlgo.copyBackward
  nul h

/-- `algo_fill` -/
theorem C78_fill (first : Addr) (last : Addr) (value : Loc) (h : first = 0 ∨ last = 0 ∨ value.1 = 0) : Harmless (V := V) (IAlgo.fill first last value) 0 := by
  unfold IAlgo.fill
  nul h

/-- `algo_fill_n` -/
theorem C78_fill_n (low : Addr → Nat) (first : Addr) (n : Nat) (value : Loc) (last : Out) (h : first = 0 ∨ value.1 = 0) : Harmless (V := V) (IAlgo.fillN low first n value last) 0 := by
  unfold IAlgo.fillN
  nul h

/-- `algo_transform` -/
theorem C78_transform (D : Nat → V) (first : Addr) (last : Addr) (dFirst : Addr) (op : V → V) (h : first = 0 ∨ last = 0 ∨ dFirst = 0) : Harmless (V := V) (IAlgo.transform D first last dFirst op) 0 := by
  unfold IAlgo.transform
  nul h

/-- `algo_generate` -/
theorem C78_generate (first : Addr) (last : Addr) (gen : Nat → V) (h : first = 0 ∨ last = 0) : Harmless (V := V) (IAlgo.generate first last gen) 0 := by
  unfold IAlgo.generate
  nul h

/-- `algo_generate_n` -/
theorem C78_generate_n (low : Addr → Nat) (first : Addr) (n : Nat) (gen : Nat → V) (last : Out) (h : first = 0) : Harmless (V := V) (IAlgo.generateN low first n gen last) 0 := by
  unfold IAlgo.generateN
  nul h

/-- `algo_remove` -/
theorem C78_remove (low : Addr → Nat) (E : Nat → V → V → Bool) (first : Addr) (last : Addr) (value : Loc) (newLast : Out) (h : first = 0 ∨ last = 0 ∨ value.1 = 0) : Harmless (V := V) (IAlgo.remove low E first last value newLast) (0, 0) := by
  unfold IAlgo.remove
  nul h

/-- `algo_remove_if` -/
theorem C78_remove_if (low : Addr → Nat) (first : Addr) (last : Addr) (newLast : Out) (pred : V → Bool) (h : first = 0 ∨ last = 0) : Harmless (V := V) (IAlgo.removeIf low first last newLast pred) (0, 0) := by
  unfold IAlgo.removeIf
  nul h

/-- `algo_remove_copy` -/
theorem C78_remove_copy (low : Addr → Nat) (E : Nat → V → V → Bool) (first : Addr) (last : Addr) (dFirst : Addr) (value : Loc) (dLast : Out) (h : first = 0 ∨ last = 0 ∨ dFirst = 0 ∨ value.1 = 0) : Harmless (V := V) (IAlgo.removeCopy low E first last dFirst value dLast) (0, 0) := by
  unfold IAlgo.removeCopy
  nul h

/-- `algo_remove_copy_if` -/
theorem C78_remove_copy_if (low : Addr → Nat) (first : Addr) (last : Addr) (dFirst : Addr) (dLast : Out) (pred : V → Bool) (h : first = 0 ∨ last = 0 ∨ dFirst = 0) : Harmless (V := V) (IAlgo.removeCopyIf low first last dFirst dLast pred) (0, 0) := by
  unfold IAlgo.removeCopyIf
  nul h

/-- `algo_replace` -/
theorem C78_replace (E : Nat → V → V → Bool) (first : Addr) (last : Addr) (old : Loc) (new : Loc) (h : first = 0 ∨ last = 0 ∨ old.1 = 0 ∨ new.1 = 0) : Harmless (V := V) (IAlgo.replace E first last old new) 0 := by
  unfold IAlgo.replace
  nul h

/-- `algo_replace_if` -/
theorem C78_replace_if (first : Addr) (last : Addr) (pred : V → Bool) (new : Loc) (h : first = 0 ∨ last = 0 ∨ new.1 = 0) : Harmless (V := V) (IAlgo.replaceIf first last pred new) 0 := by
  unfold IAlgo.replaceIf
  nul h

/-- `algo_replace_copy` -/
theorem C78_replace_copy (low : Addr → Nat) (E : Nat → V → V → Bool) (first : Addr) (last : Addr) (dFirst : Addr) (old : Loc) (new : Loc) (dLast : Out) (h : first = 0 ∨ last = 0 ∨ dFirst = 0 ∨ old.1 = 0 ∨ new.1 = 0) : Harmless (V := V) (IAlgo.replaceCopy low E first last dFirst old new dLast) (0, 0) := by
  unfold IAlgo.replaceCopy
  nul h

/-- `algo_replace_copy_if` -/
theorem C78_replace_copy_if (low : Addr → Nat) (first : Addr) (last : Addr) (dFirst : Addr) (pred : V → Bool) (new : Loc) (dLast : Out) (h : first = 0 ∨ last = 0 ∨ dFirst = 0 ∨ new.1 = 0) : Harmless (V := V) (IAlgo.replaceCopyIf low first last dFirst pred new dLast) (0, 0) := by
  unfold IAlgo.replaceCopyIf
  nul h

/-- `algo_swap_range` -/
theorem C78_swap_range (first1 : Addr) (last1 : Addr) (first2 : Addr) (h : first1 = 0 ∨ last1 = 0 ∨ first2 = 0) : Harmless (V := V) (IAlgo.swapRange first1 last1 first2) 0 := by
  unfold IAlgo.swapRange
  nul h

/-- `algo_reverse` -/
theorem C78_reverse (first : Addr) (last : Addr) (h : first = 0 ∨ last = 0) : Harmless (V := V) (IAlgo.reverse first last) 0 := by
  unfold IAlgo.reverse
  nul h

/-- `algo_reverse_copy` -/
theorem C78_reverse_copy (low : Addr → Nat) (first : Addr) (last : Addr) (dFirst : Addr) (dLast : Out) (h : first = 0 ∨ last = 0 ∨ dFirst = 0) : Harmless (V := V) (IAlgo.reverseCopy low first last dFirst dLast) (0, 0) := by
  unfold IAlgo.reverseCopy
  nul h

/-- `algo_rotate` -/
theorem C78_rotate (low : Addr → Nat) (first : Addr) (nFirst : Addr) (last : Addr) (point : Out) (h : first = 0 ∨ nFirst = 0 ∨ last = 0) : Harmless (V := V) (IAlgo.rotate low first nFirst last point) 0 := by
  unfold IAlgo.rotate
  nul h

/-- `algo_rotate_copy` -/
theorem C78_rotate_copy (low : Addr → Nat) (first : Addr) (nFirst : Addr) (last : Addr) (dFirst : Addr) (dLast : Out) (h : first = 0 ∨ nFirst = 0 ∨ last = 0 ∨ dFirst = 0) : Harmless (V := V) (IAlgo.rotateCopy low first nFirst last dFirst dLast) (0, 0) := by
  unfold IAlgo.rotateCopy
  nul h

/-- `algo_random_shuffle_by` -/
theorem C78_random_shuffle (Z : Nat → Nat) (first : Addr) (last : Addr) (r : Nat → Nat) (h : first = 0 ∨ last = 0) : Harmless (V := V) (IAlgo.shuffle Z first last r) () := by
  unfold IAlgo.shuffle
  nul h

/-- `algo_unique_by` -/
theorem C78_unique (low : Addr → Nat) (first : Addr) (last : Addr) (newLast : Out) (pred : V → V → Bool) (h : first = 0 ∨ last = 0) : Harmless (V := V) (IAlgo.unique low first last newLast pred) (0, 0) := by
  unfold IAlgo.unique
  nul h

/-- `algo_unique_copy_by` -/
theorem C78_unique_copy (low : Addr → Nat) (first : Addr) (last : Addr) (dFirst : Addr) (dLast : Out) (pred : V → V → Bool) (h : first = 0 ∨ last = 0 ∨ dFirst = 0 ∨ dLast.isNull = true) : Harmless (V := V) (IAlgo.uniqueCopy low first last dFirst dLast pred) (0, 0) := by
  unfold IAlgo.uniqueCopy
  nul h

/-- `algo_merge_by` -/
theorem C78_merge (low : Addr → Nat) (first1 : Addr) (last1 : Addr) (first2 : Addr) (last2 : Addr) (dFirst : Addr) (dLast : Out) (comp : V → V → Bool) (h : first1 = 0 ∨ last1 = 0 ∨ first2 = 0 ∨ last2 = 0 ∨ dFirst = 0) : Harmless (V := V) (IAlgo.merge low first1 last1 first2 last2 dFirst dLast comp) (0, 0) := by
  unfold IAlgo.merge
  nul h

/-- `algo_set_difference_by` -/
theorem C78_set_difference (low : Addr → Nat) (first1 : Addr) (last1 : Addr) (first2 : Addr) (last2 : Addr) (dFirst : Addr) (dLast : Out) (comp : V → V → Bool) (h : first1 = 0 ∨ last1 = 0 ∨ first2 = 0 ∨ last2 = 0 ∨ dFirst = 0) : Harmless (V := V) (IAlgo.setDifference low first1 last1 first2 last2 dFirst dLast comp) (0, 0) := by
  unfold IAlgo.setDifference
  nul h

/-- `algo_set_intersection_by` -/
theorem C78_set_intersection (first1 : Addr) (last1 : Addr) (first2 : Addr) (last2 : Addr) (dFirst : Addr) (dLast : Out) (comp : V → V → Bool) (h : first1 = 0 ∨ last1 = 0 ∨ first2 = 0 ∨ last2 = 0 ∨ dFirst = 0) : Harmless (V := V) (IAlgo.setIntersection first1 last1 first2 last2 dFirst dLast comp) (0, 0) := by
  unfold IAlgo.setIntersection
  nul h

/-- `algo_set_symmetric_difference_by` -/
theorem C78_set_symmetric_difference (low : Addr → Nat) (first1 : Addr) (last1 : Addr) (first2 : Addr) (last2 : Addr) (dFirst : Addr) (dLast : Out) (comp : V → V → Bool) (h : first1 = 0 ∨ last1 = 0 ∨ first2 = 0 ∨ last2 = 0 ∨ dFirst = 0) : Harmless (V := V) (IAlgo.setSymDifference low first1 last1 first2 last2 dFirst dLast comp) (0, 0) := by
  unfold IAlgo.setSymDifference
  nul h

/-- `algo_set_union_by` -/
theorem C78_set_union (low : Addr → Nat) (first1 : Addr) (last1 : Addr) (first2 : Addr) (last2 : Addr) (dFirst : Addr) (dLast : Out) (comp : V → V → Bool) (h : first1 = 0 ∨ last1 = 0 ∨ first2 = 0 ∨ last2 = 0 ∨ dFirst = 0) : Harmless (V := V) (IAlgo.setUnion low first1 last1 first2 last2 dFirst dLast comp) (0, 0) := by
  unfold IAlgo.setUnion
  nul h

/-- `algo_includes_by` -/
theorem C78_includes (first1 : Addr) (last1 : Addr) (first2 : Addr) (last2 : Addr) (comp : V → V → Bool) (h : first1 = 0 ∨ last1 = 0 ∨ first2 = 0 ∨ last2 = 0) : Harmless (V := V) (IAlgo.includes first1 last1 first2 last2 comp) false := by
  unfold IAlgo.includes
  nul h

/-- `algo_is_heap_until_by` -/
theorem C78_is_heap_until (Z : Nat → Nat) (first : Addr) (last : Addr) (until_ : Out) (comp : V → V → Bool) (h : first = 0 ∨ last = 0 ∨ until_.isNull = true) : Harmless (V := V) (IAlgo.isHeapUntil Z first last until_ comp) 0 := by
  unfold IAlgo.isHeapUntil
  nul h

/-- `algo_is_heap_by` -/
theorem C78_is_heap (Z : Nat → Nat) (first : Addr) (last : Addr) (comp : V → V → Bool) (h : first = 0 ∨ last = 0) : Harmless (V := V) (IAlgo.isHeap Z first last comp) false := by
  unfold IAlgo.isHeap
  nul h

/-- `algo_push_heap_by` -/
theorem C78_push_heap (Z : Nat → Nat) (first : Addr) (last : Addr) (comp : V → V → Bool) (h : first = 0 ∨ last = 0) : Harmless (V := V) (IAlgo.pushHeap Z first last comp) () := by
  unfold IAlgo.pushHeap
  nul h

/-- `algo_pop_heap_by` -/
theorem C78_pop_heap (Z : Nat → Nat) (first : Addr) (last : Addr) (comp : V → V → Bool) (h : first = 0 ∨ last = 0) : Harmless (V := V) (IAlgo.popHeap Z first last comp) () := by
  unfold IAlgo.popHeap
  nul h

/-- `algo_make_heap_by` -/
theorem C78_make_heap (Z : Nat → Nat) (first : Addr) (last : Addr) (comp : V → V → Bool) (h : first = 0 ∨ last = 0) : Harmless (V := V) (IAlgo.makeHeap Z first last comp) () := by
  unfold IAlgo.makeHeap
  nul h

/-- `algo_sort_heap_by` -/
theorem C78_sort_heap (Z : Nat → Nat) (first : Addr) (last : Addr) (comp : V → V → Bool) (h : first = 0 ∨ last = 0) : Harmless (V := V) (IAlgo.sortHeap Z first last comp) () := by
  unfold IAlgo.sortHeap
  nul h

/-- `algo_partial_sort_by` -/
theorem C78_partial_sort (Z : Nat → Nat) (first : Addr) (middle : Addr) (last : Addr) (comp : V → V → Bool) (h : first = 0 ∨ middle = 0 ∨ last = 0) : Harmless (V := V) (IAlgo.partialSort Z first middle last comp) () := by
  unfold IAlgo.partialSort
  nul h

/-- `algo_partial_sort_copy_by` -/
theorem C78_partial_sort_copy (Z : Nat → Nat) (first : Addr) (last : Addr) (dFirst : Addr) (dLast : Addr) (dUpper : Out) (comp : V → V → Bool) (h : first = 0 ∨ last = 0 ∨ dFirst = 0 ∨ dLast = 0) : Harmless (V := V) (IAlgo.partialSortCopy Z first last dFirst dLast dUpper comp) (0, 0) := by
  unfold IAlgo.partialSortCopy
  nul h

/-- `algo_sort_by` -/
theorem C78_sort (Z : Nat → Nat) (low : Addr → Nat) (first : Addr) (last : Addr) (comp : V → V → Bool) (h : first = 0 ∨ last = 0) : Harmless (V := V) (IAlgo.sort Z low first last comp) () := by
  unfold IAlgo.sort
  nul h

/-- `algo_is_sorted_until_by` -/
theorem C78_is_sorted_until (first : Addr) (last : Addr) (until_ : Out) (comp : V → V → Bool) (h : first = 0 ∨ last = 0 ∨ until_.isNull = true) : Harmless (V := V) (IAlgo.isSortedUntil first last until_ comp) 0 := by
  unfold IAlgo.isSortedUntil
  nul h

/-- `algo_is_sorted_by` -/
theorem C78_is_sorted (first : Addr) (last : Addr) (comp : V → V → Bool) (h : first = 0 ∨ last = 0) : Harmless (V := V) (IAlgo.isSorted first last comp) false := by
  unfold IAlgo.isSorted
  nul h

/-! ## The macros -/

/-- `__c_get_less(NULL)` and `__c_get_equal(NULL)`, so every macro of Verif/IAlgo/Forms.lean with NULL for its first iterator, read through NULL -/
theorem C78_forms_violated (E : Types V) (last last2 middle d e : Addr) (value : Loc) (n : Nat) (o o2 : IAlgo.Out) (Z : Nat → Nat) (low : Addr → Nat) (s : Mem V) :
    Form.findBy E 0 last o value s = some (.error .ub) ∧ Form.equal E 0 last last2 s = some (.error .ub) ∧ Form.mismatch E 0 last last2 o o2 s = some (.error .ub) ∧
    Form.findFirstOf E 0 last last2 d o s = some (.error .ub) ∧ Form.findLastOf E 0 last last2 d o s = some (.error .ub) ∧ Form.adjacentFind E 0 last o s = some (.error .ub) ∧
    Form.search E 0 last last2 d o s = some (.error .ub) ∧ Form.searchLast E 0 last last2 d o s = some (.error .ub) ∧ Form.searchN E 0 last n value o s = some (.error .ub) ∧
    Form.searchLastN E 0 last n value o s = some (.error .ub) ∧ Form.unique E low 0 last o s = some (.error .ub) ∧ Form.uniqueCopy E low 0 last d o s = some (.error .ub) ∧
    Form.isSorted E 0 last s = some (.error .ub) ∧ Form.isSortedUntil E 0 last o s = some (.error .ub) ∧ Form.sort E Z low 0 last s = some (.error .ub) ∧
    Form.partialSort E Z 0 middle last s = some (.error .ub) ∧ Form.partialSortCopy E Z 0 last d e o s = some (.error .ub) ∧
    Form.lowerBound E Z 0 last value o s = some (.error .ub) ∧ Form.upperBound E Z 0 last value o s = some (.error .ub) ∧ Form.binarySearch E Z 0 last value s = some (.error .ub) ∧
    Form.equalRange E Z 0 last value o o2 s = some (.error .ub) ∧ Form.merge E low 0 last last2 d e o s = some (.error .ub) ∧ Form.includes E 0 last last2 d s = some (.error .ub) ∧
    Form.setDifference E low 0 last last2 d e o s = some (.error .ub) ∧ Form.setIntersection E 0 last last2 d e o s = some (.error .ub) ∧
    Form.setSymDifference E low 0 last last2 d e o s = some (.error .ub) ∧ Form.setUnion E low 0 last last2 d e o s = some (.error .ub) ∧
    Form.isHeap E Z 0 last s = some (.error .ub) ∧ Form.isHeapUntil E Z 0 last o s = some (.error .ub) ∧ Form.makeHeap E Z 0 last s = some (.error .ub) ∧
    Form.pushHeap E Z 0 last s = some (.error .ub) ∧ Form.popHeap E Z 0 last s = some (.error .ub) ∧ Form.sortHeap E Z 0 last s = some (.error .ub) ∧
    Form.maxElement E 0 last o s = some (.error .ub) ∧ Form.minElement E 0 last o s = some (.error .ub) ∧ Form.minmaxElement E 0 last o o2 s = some (.error .ub) ∧
    Form.lexCompare E 0 last last2 d s = some (.error .ub) := by
  refine ⟨rfl, rfl, rfl, rfl, rfl, rfl, rfl, rfl, rfl, rfl, rfl, rfl, rfl, rfl, rfl, rfl, rfl, rfl, rfl, rfl, rfl, rfl, rfl, rfl, rfl, rfl, rfl, rfl, rfl, rfl, rfl, rfl, rfl, rfl, rfl, rfl, rfl⟩

/-- an example: `algo_find_by(NULL, last, &found, &value, pred)` in any memory -/
example (last : Addr) (value : Loc) (p : V → V → Bool) (m : Mem V) (q : Loc) : IAlgo.findBy 0 last (.var q) value p m = some (.ok ((false, 0), m)) :=
  C78_find 0 last (.var q) value p (.inl rfl) m

end CC.Props
