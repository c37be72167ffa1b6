import Verif.IAlgo.NonMod
import Verif.IAlgo.BSearch
import Verif.IAlgo.MinMax
import Verif.IAlgo.Modify
import Verif.IAlgo.SetOp
import Verif.IAlgo.Heap
import Verif.IAlgo.Sort
import Verif.Core.Ty
/-!
# The comparison-free forms of the algorithms

The macros `c_algo_x(…)` of include/c_algorithm.h that call `algo_x_by(…)` with the comparison of the element type, which they read through the first iterator.
Generated by tools/gen_forms.py.
-/
namespace CC.IAlgo.Form
open CC CC.Iter CC.IAlgo
variable {V : Type}

/-- `__c_get_less(iter)`, include/c_def.h:328.  The table of the type is a parameter, see Verif/Core/Ty.lean -/
def getLess (E : Types V) (x : Addr) : M V (V → V → Bool) := do
  let t ← typeOf x
  pure (E t).less

/-- `__c_get_equal(iter)`, include/c_def.h:329 -/
def getEqual (E : Types V) (x : Addr) : M V (V → V → Bool) := do
  let t ← typeOf x
  pure (E t).equal

/-- `c_algo_mismatch`, include/c_algorithm.h:219 -/
def mismatch (E : Types V) (first1 : Addr) (last1 : Addr) (first2 : Addr) (mismatch1 : Out) (mismatch2 : Out) : M V (Bool × Addr × Addr) := do
  let p ← getEqual E first1
  IAlgo.mismatch first1 last1 first2 mismatch1 mismatch2 p

/-- `c_algo_equal`, include/c_algorithm.h:220 -/
def equal (E : Types V) (first1 : Addr) (last1 : Addr) (first2 : Addr) : M V Bool := do
  let p ← getEqual E first1
  IAlgo.equal first1 last1 first2 p

/-- `c_algo_find`, include/c_algorithm.h:221 -/
def findBy (E : Types V) (first : Addr) (last : Addr) (found : Out) (value : Loc) : M V (Bool × Addr) := do
  let p ← getEqual E first
  IAlgo.findBy first last found value p

/-- `c_algo_find_first_of`, include/c_algorithm.h:222 -/
def findFirstOf (E : Types V) (first : Addr) (last : Addr) (sFirst : Addr) (sLast : Addr) (found : Out) : M V (Bool × Addr) := do
  let p ← getEqual E first
  IAlgo.findFirstOf first last sFirst sLast found p

/-- `c_algo_find_last_of`, include/c_algorithm.h:223 -/
def findLastOf (E : Types V) (first : Addr) (last : Addr) (sFirst : Addr) (sLast : Addr) (found : Out) : M V (Bool × Addr) := do
  let p ← getEqual E first
  IAlgo.findLastOf first last sFirst sLast found p

/-- `c_algo_adjacent_find`, include/c_algorithm.h:224 -/
def adjacentFind (E : Types V) (first : Addr) (last : Addr) (found : Out) : M V (Bool × Addr) := do
  let p ← getEqual E first
  IAlgo.adjacentFind first last found p

/-- `c_algo_search`, include/c_algorithm.h:225 -/
def search (E : Types V) (first : Addr) (last : Addr) (sFirst : Addr) (sLast : Addr) (found : Out) : M V (Bool × Addr) := do
  let p ← getEqual E first
  IAlgo.search first last sFirst sLast found p

/-- `c_algo_search_last`, include/c_algorithm.h:226 -/
def searchLast (E : Types V) (first : Addr) (last : Addr) (sFirst : Addr) (sLast : Addr) (found : Out) : M V (Bool × Addr) := do
  let p ← getEqual E first
  IAlgo.searchLast first last sFirst sLast found p

/-- `c_algo_search_n`, include/c_algorithm.h:227 -/
def searchN (E : Types V) (first : Addr) (last : Addr) (n : Nat) (value : Loc) (found : Out) : M V (Bool × Addr) := do
  let p ← getEqual E first
  IAlgo.searchN first last n value found p

/-- `c_algo_search_last_n`, include/c_algorithm.h:228 -/
def searchLastN (E : Types V) (first : Addr) (last : Addr) (n : Nat) (value : Loc) (found : Out) : M V (Bool × Addr) := do
  let p ← getEqual E first
  IAlgo.searchLastN first last n value found p

/-- `c_algo_unique`, include/c_algorithm.h:504 -/
def unique (E : Types V) (low : Addr → Nat) (first : Addr) (last : Addr) (newLast : Out) : M V (Nat × Addr) := do
  let p ← getEqual E first
  IAlgo.unique low first last newLast p

/-- `c_algo_unique_copy`, include/c_algorithm.h:505 -/
def uniqueCopy (E : Types V) (low : Addr → Nat) (first : Addr) (last : Addr) (dFirst : Addr) (dLast : Out) : M V (Nat × Addr) := do
  let p ← getEqual E first
  IAlgo.uniqueCopy low first last dFirst dLast p

/-- `c_algo_is_sorted`, include/c_algorithm.h:612 -/
def isSorted (E : Types V) (first : Addr) (last : Addr) : M V Bool := do
  let p ← getLess E first
  IAlgo.isSorted first last p

/-- `c_algo_is_sorted_until`, include/c_algorithm.h:613 -/
def isSortedUntil (E : Types V) (first : Addr) (last : Addr) (until_ : Out) : M V Addr := do
  let p ← getLess E first
  IAlgo.isSortedUntil first last until_ p

/-- `c_algo_sort`, include/c_algorithm.h:614 -/
def sort (E : Types V) (Z : Nat → Nat) (low : Addr → Nat) (first : Addr) (last : Addr) : M V Unit := do
  let p ← getLess E first
  IAlgo.sort Z low first last p

/-- `c_algo_partial_sort`, include/c_algorithm.h:615 -/
def partialSort (E : Types V) (Z : Nat → Nat) (first : Addr) (middle : Addr) (last : Addr) : M V Unit := do
  let p ← getLess E first
  IAlgo.partialSort Z first middle last p

/-- `c_algo_partial_sort_copy`, include/c_algorithm.h:616-617 -/
def partialSortCopy (E : Types V) (Z : Nat → Nat) (first : Addr) (last : Addr) (dFirst : Addr) (dLast : Addr) (dUpper : Out) : M V (Nat × Addr) := do
  let p ← getLess E first
  IAlgo.partialSortCopy Z first last dFirst dLast dUpper p

/-- `c_algo_lower_bound`, include/c_algorithm.h:681 -/
def lowerBound (E : Types V) (Z : Nat → Nat) (first : Addr) (last : Addr) (value : Loc) (bound : Out) : M V Addr := do
  let p ← getLess E first
  IAlgo.lowerBound Z first last value bound p

/-- `c_algo_upper_bound`, include/c_algorithm.h:682 -/
def upperBound (E : Types V) (Z : Nat → Nat) (first : Addr) (last : Addr) (value : Loc) (bound : Out) : M V Addr := do
  let p ← getLess E first
  IAlgo.upperBound Z first last value bound p

/-- `c_algo_binary_search`, include/c_algorithm.h:683 -/
def binarySearch (E : Types V) (Z : Nat → Nat) (first : Addr) (last : Addr) (value : Loc) : M V Bool := do
  let p ← getLess E first
  IAlgo.binarySearch Z first last value p

/-- `c_algo_equal_range`, include/c_algorithm.h:684 -/
def equalRange (E : Types V) (Z : Nat → Nat) (first : Addr) (last : Addr) (value : Loc) (lower : Out) (upper : Out) : M V (Addr × Addr) := do
  let p ← getLess E first
  IAlgo.equalRange Z first last value lower upper p

/-- `c_algo_merge`, include/c_algorithm.h:788-789 -/
def merge (E : Types V) (low : Addr → Nat) (first1 : Addr) (last1 : Addr) (first2 : Addr) (last2 : Addr) (dFirst : Addr) (dLast : Out) : M V (Nat × Addr) := do
  let p ← getLess E first1
  IAlgo.merge low first1 last1 first2 last2 dFirst dLast p

/-- `c_algo_includes`, include/c_algorithm.h:790-791 -/
def includes (E : Types V) (first1 : Addr) (last1 : Addr) (first2 : Addr) (last2 : Addr) : M V Bool := do
  let p ← getLess E first1
  IAlgo.includes first1 last1 first2 last2 p

/-- `c_algo_set_difference`, include/c_algorithm.h:792-793 -/
def setDifference (E : Types V) (low : Addr → Nat) (first1 : Addr) (last1 : Addr) (first2 : Addr) (last2 : Addr) (dFirst : Addr) (dLast : Out) : M V (Nat × Addr) := do
  let p ← getLess E first1
  IAlgo.setDifference low first1 last1 first2 last2 dFirst dLast p

/-- `c_algo_set_intersection`, include/c_algorithm.h:794-795 -/
def setIntersection (E : Types V) (first1 : Addr) (last1 : Addr) (first2 : Addr) (last2 : Addr) (dFirst : Addr) (dLast : Out) : M V (Nat × Addr) := do
  let p ← getLess E first1
  IAlgo.setIntersection first1 last1 first2 last2 dFirst dLast p

/-- `c_algo_set_symmetric_difference`, include/c_algorithm.h:796-797 -/
def setSymDifference (E : Types V) (low : Addr → Nat) (first1 : Addr) (last1 : Addr) (first2 : Addr) (last2 : Addr) (dFirst : Addr) (dLast : Out) : M V (Nat × Addr) := do
  let p ← getLess E first1
  IAlgo.setSymDifference low first1 last1 first2 last2 dFirst dLast p

/-- `c_algo_set_union`, include/c_algorithm.h:798-799 -/
def setUnion (E : Types V) (low : Addr → Nat) (first1 : Addr) (last1 : Addr) (first2 : Addr) (last2 : Addr) (dFirst : Addr) (dLast : Out) : M V (Nat × Addr) := do
  let p ← getLess E first1
  IAlgo.setUnion low first1 last1 first2 last2 dFirst dLast p

/-- `c_algo_is_heap`, include/c_algorithm.h:855 -/
def isHeap (E : Types V) (Z : Nat → Nat) (first : Addr) (last : Addr) : M V Bool := do
  let p ← getLess E first
  IAlgo.isHeap Z first last p

/-- `c_algo_is_heap_until`, include/c_algorithm.h:856 -/
def isHeapUntil (E : Types V) (Z : Nat → Nat) (first : Addr) (last : Addr) (until_ : Out) : M V Addr := do
  let p ← getLess E first
  IAlgo.isHeapUntil Z first last until_ p

/-- `c_algo_make_heap`, include/c_algorithm.h:857 -/
def makeHeap (E : Types V) (Z : Nat → Nat) (first : Addr) (last : Addr) : M V Unit := do
  let p ← getLess E first
  IAlgo.makeHeap Z first last p

/-- `c_algo_push_heap`, include/c_algorithm.h:858 -/
def pushHeap (E : Types V) (Z : Nat → Nat) (first : Addr) (last : Addr) : M V Unit := do
  let p ← getLess E first
  IAlgo.pushHeap Z first last p

/-- `c_algo_pop_heap`, include/c_algorithm.h:859 -/
def popHeap (E : Types V) (Z : Nat → Nat) (first : Addr) (last : Addr) : M V Unit := do
  let p ← getLess E first
  IAlgo.popHeap Z first last p

/-- `c_algo_sort_heap`, include/c_algorithm.h:860 -/
def sortHeap (E : Types V) (Z : Nat → Nat) (first : Addr) (last : Addr) : M V Unit := do
  let p ← getLess E first
  IAlgo.sortHeap Z first last p

/-- `c_algo_max_element`, include/c_algorithm.h:939 -/
def maxElement (E : Types V) (first : Addr) (last : Addr) (max : Out) : M V Addr := do
  let p ← getLess E first
  IAlgo.maxElement first last max p

/-- `c_algo_min_element`, include/c_algorithm.h:940 -/
def minElement (E : Types V) (first : Addr) (last : Addr) (min : Out) : M V Addr := do
  let p ← getLess E first
  IAlgo.minElement first last min p

/-- `c_algo_minmax_element`, include/c_algorithm.h:941 -/
def minmaxElement (E : Types V) (first : Addr) (last : Addr) (min : Out) (max : Out) : M V (Addr × Addr) := do
  let p ← getLess E first
  IAlgo.minmaxElement first last min max p

/-- `c_algo_lexicographical_compare`, include/c_algorithm.h:943-944 -/
def lexCompare (E : Types V) (first1 : Addr) (last1 : Addr) (first2 : Addr) (last2 : Addr) : M V Bool := do
  let p ← getLess E first1
  IAlgo.lexCompare first1 last1 first2 last2 p

end CC.IAlgo.Form
