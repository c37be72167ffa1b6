import Verif.Own.Prim
import Verif.Algo.Sort
import Verif.Algo.SetOp
import Verif.Algo.BSearch
import Verif.Algo.MinMax
/-!
# The algorithms on elements that own memory

Generated by tools/gen_own.py from the programs in `Verif/Algo`: the same control flow, but elements are assigned and copied by the callbacks of their type and compared by callbacks of the caller,
which get references to them.
-/
namespace CC.Own
open CC CC.Tac
open CC.Algo (Slots dec)
variable {V : Type}

/-- The loop `while (C_ITER_NE(first, last) && cond(first)) C_ITER_INC(first);` of `algo_all_of`, c_non_modifying.c:42-44, `algo_any_of` (64-66),
`algo_none_of` (86-88), `algo_find_by` (265-267), `algo_find_if` (291-293), `algo_find_if_not` (317-319): the final position of `first`. -/
def scan (cond : Nat → M V Bool) (first last : Nat) : M V Nat :=
  if first ≠ last then do
    if ← cond first then scan cond (first + 1) last else pure first
  else pure first
partial_fixpoint

/-- `algo_all_of`, c_non_modifying.c:30-50 -/
def allOf (c : Slots) (first last : Nat) (pred : Loc → M V Bool) : M V Bool := do
  let f ← scan (fun i => pred (c i)) first last
  pure (f == last)

/-- `algo_any_of`, c_non_modifying.c:52-72 -/
def anyOf (c : Slots) (first last : Nat) (pred : Loc → M V Bool) : M V Bool := do
  let f ← scan (fun i => do pure (!(← pred (c i)))) first last
  pure (f != last)

/-- `algo_none_of`, c_non_modifying.c:74-94 -/
def noneOf (c : Slots) (first last : Nat) (pred : Loc → M V Bool) : M V Bool := do
  let f ← scan (fun i => do pure (!(← pred (c i)))) first last
  pure (f == last)

/-- loop of `algo_for_each`, c_non_modifying.c:108-112; the callback is an arbitrary program -/
def forEachLoop (c : Slots) (op : Loc → M V Unit) (first last n : Nat) : M V Nat :=
  if first ≠ last then do
    op (c first)
    forEachLoop c op (first + 1) last (n + 1)
  else pure n
partial_fixpoint

/-- `algo_for_each`, c_non_modifying.c:96-117 -/
def forEach (c : Slots) (first last : Nat) (op : Loc → M V Unit) : M V Nat := forEachLoop c op first last 0

/-- `algo_for_each_n`, c_non_modifying.c:119-138; returns `reached` -/
def forEachN (c : Slots) (first : Nat) : Nat → (Loc → M V Unit) → M V Nat
  | 0, _ => pure first
  | n + 1, op => do
    op (c first)
    forEachN c (first + 1) n op

/-- loop of `algo_count`, c_non_modifying.c:152-155 and `algo_count_if` (174-177) -/
def countLoop (cond : Nat → M V Bool) (first last n : Nat) : M V Nat :=
  if first ≠ last then do
    if ← cond first then countLoop cond (first + 1) last (n + 1) else countLoop cond (first + 1) last n
  else pure n
partial_fixpoint

/-- `algo_count`, c_non_modifying.c:140-160 -/
def count (c : Slots) (first last : Nat) (value : Loc) (equal : Loc → Loc → M V Bool) : M V Nat :=
  countLoop (fun i => equal (c i) value) first last 0

/-- `algo_count_if`, c_non_modifying.c:162-182 -/
def countIf (c : Slots) (first last : Nat) (pred : Loc → M V Bool) : M V Nat :=
  countLoop (fun i => pred (c i)) first last 0

/-- loop of `algo_mismatch_by`, c_non_modifying.c:205-208, and `algo_equal_by` (239-242) -/
def mismatchLoop (c d : Slots) (pred : Loc → Loc → M V Bool) (first1 last1 first2 : Nat) : M V (Nat × Nat) :=
  if first1 ≠ last1 then do
    if ← pred (c first1) (d first2) then mismatchLoop c d pred (first1 + 1) last1 (first2 + 1) else pure (first1, first2)
  else pure (first1, first2)
partial_fixpoint

/-- `algo_mismatch_by`, c_non_modifying.c:184-223; returns the result, `*mismatch1` and `*mismatch2` -/
def mismatch (c : Slots) (first1 last1 : Nat) (d : Slots) (first2 : Nat) (pred : Loc → Loc → M V Bool) : M V (Bool × Nat × Nat) := do
  let p ← mismatchLoop c d pred first1 last1 first2
  pure (p.1 != last1, p)

/-- `algo_equal_by`, c_non_modifying.c:225-248 -/
def equal (c : Slots) (first1 last1 : Nat) (d : Slots) (first2 : Nat) (pred : Loc → Loc → M V Bool) : M V Bool := do
  let p ← mismatchLoop c d pred first1 last1 first2
  pure (p.1 == last1)

/-- `algo_find_by`, c_non_modifying.c:250-275; returns the result and `*found` -/
def findBy (c : Slots) (first last : Nat) (value : Loc) (pred : Loc → Loc → M V Bool) : M V (Bool × Nat) := do
  let f ← scan (fun i => do pure (!(← pred (c i) value))) first last
  pure (f != last, f)

/-- `algo_find_if`, c_non_modifying.c:277-301 -/
def findIf (c : Slots) (first last : Nat) (pred : Loc → M V Bool) : M V (Bool × Nat) := do
  let f ← scan (fun i => do pure (!(← pred (c i)))) first last
  pure (f != last, f)

/-- `algo_find_if_not`, c_non_modifying.c:303-327 -/
def findIfNot (c : Slots) (first last : Nat) (pred : Loc → M V Bool) : M V (Bool × Nat) := do
  let f ← scan (fun i => pred (c i)) first last
  pure (f != last, f)

/-- inner loop of `algo_find_first_of_by`, c_non_modifying.c:349-355: is the element among those of the second range? -/
def amongLoop (l : Loc) (d : Slots) (pred : Loc → Loc → M V Bool) (sFirst sLast : Nat) : M V Bool :=
  if sFirst ≠ sLast then do
    if ← pred l (d sFirst) then pure true else amongLoop l d pred (sFirst + 1) sLast
  else pure false
partial_fixpoint

/-- outer loop of `algo_find_first_of_by`, c_non_modifying.c:347-357 -/
def findFirstOfLoop (c d : Slots) (pred : Loc → Loc → M V Bool) (first last sFirst sLast : Nat) : M V (Bool × Nat) :=
  if first ≠ last then do
    if ← amongLoop (c first) d pred sFirst sLast then pure (true, first)
    else findFirstOfLoop c d pred (first + 1) last sFirst sLast
  else pure (false, first)
partial_fixpoint

/-- `algo_find_first_of_by`, c_non_modifying.c:329-364 -/
def findFirstOf (c : Slots) (first last : Nat) (d : Slots) (sFirst sLast : Nat) (pred : Loc → Loc → M V Bool) : M V (Bool × Nat) :=
  findFirstOfLoop c d pred first last sFirst sLast

/-- The loop `while (search(first, last, &first)) { is_found = true; found = first; ++first; }` of `algo_find_last_of_by`, c_non_modifying.c:387-391,
`algo_search_last_by` (520-524) and `algo_search_last_n_by` (611-615). -/
def lastLoop (search : Nat → M V (Bool × Nat)) (first : Nat) (acc : Bool × Nat) : M V (Bool × Nat) := do
  let r ← search first
  if r.1 then lastLoop search (r.2 + 1) (true, r.2) else pure acc
partial_fixpoint

/-- `algo_find_last_of_by`, c_non_modifying.c:366-400 -/
def findLastOf (c : Slots) (first last : Nat) (d : Slots) (sFirst sLast : Nat) (pred : Loc → Loc → M V Bool) : M V (Bool × Nat) :=
  lastLoop (fun f => findFirstOf c f last d sFirst sLast pred) first (false, last)

/-- loop of `algo_adjacent_find_by`, c_non_modifying.c:426-429 -/
def adjacentLoop (c : Slots) (pred : Loc → Loc → M V Bool) (first next last : Nat) : M V (Nat × Nat) :=
  if next ≠ last then do
    if ← pred (c first) (c next) then pure (first, next) else adjacentLoop c pred next (next + 1) last
  else pure (first, next)
partial_fixpoint

/-- `algo_adjacent_find_by`, c_non_modifying.c:402-441 -/
def adjacentFind (c : Slots) (first last : Nat) (pred : Loc → Loc → M V Bool) : M V (Bool × Nat) :=
  if first = last then pure (false, last) else do
  let p ← adjacentLoop c pred first (first + 1) last
  pure (p.2 != last, if p.2 ≠ last then p.1 else last)

/-- inner loop of `algo_search_by`, c_non_modifying.c:470-474: the final position of `s` -/
def matchLoop (c d : Slots) (pred : Loc → Loc → M V Bool) (i last s sLast : Nat) : M V Nat :=
  if i ≠ last ∧ s ≠ sLast then do
    if ← pred (c i) (d s) then matchLoop c d pred (i + 1) last (s + 1) sLast else pure s
  else pure s
partial_fixpoint

/-- outer loop of `algo_search_by`, c_non_modifying.c:469-484 -/
def searchLoop (c d : Slots) (pred : Loc → Loc → M V Bool) (first last sFirst sLast : Nat) : M V (Bool × Nat) :=
  if first ≠ last then do
    let s ← matchLoop c d pred first last sFirst sLast
    if s = sLast then pure (true, first) else searchLoop c d pred (first + 1) last sFirst sLast
  else pure (false, last)
partial_fixpoint

/-- `algo_search_by`, c_non_modifying.c:443-497 -/
def search (c : Slots) (first last : Nat) (d : Slots) (sFirst sLast : Nat) (pred : Loc → Loc → M V Bool) : M V (Bool × Nat) :=
  searchLoop c d pred first last sFirst sLast

/-- `algo_search_last_by`, c_non_modifying.c:499-533 -/
def searchLast (c : Slots) (first last : Nat) (d : Slots) (sFirst sLast : Nat) (pred : Loc → Loc → M V Bool) : M V (Bool × Nat) :=
  lastLoop (fun f => search c f last d sFirst sLast pred) first (false, last)

/-- inner loop of `algo_search_n_by`, c_non_modifying.c:565-568: the final values of `__n` and `__i` -/
def runLoop (c : Slots) (value : Loc) (pred : Loc → Loc → M V Bool) (n i last : Nat) : M V (Nat × Nat) :=
  if n ≠ 0 ∧ i ≠ last then do
    if ← pred (c i) value then runLoop c value pred (n - 1) (i + 1) last else pure (n, i)
  else pure (n, i)
partial_fixpoint

/-- outer loop of `algo_search_n_by`, c_non_modifying.c:561-574 -/
def searchNLoop (c : Slots) (value : Loc) (pred : Loc → Loc → M V Bool) (n i last : Nat) : M V (Bool × Nat) := do
  let r ← findBy c i last value pred
  if r.1 then do
    let q ← runLoop c value pred (n - 1) (r.2 + 1) last
    if q.1 = 0 then pure (true, r.2) else searchNLoop c value pred n q.2 last
  else pure (false, last)
partial_fixpoint

/-- `algo_search_n_by`, c_non_modifying.c:535-585 -/
def searchN (c : Slots) (first last n : Nat) (value : Loc) (pred : Loc → Loc → M V Bool) : M V (Bool × Nat) :=
  if n = 0 then pure (false, last) else searchNLoop c value pred n first last

/-- `algo_search_last_n_by`, c_non_modifying.c:587-624 -/
def searchLastN (c : Slots) (first last n : Nat) (value : Loc) (pred : Loc → Loc → M V Bool) : M V (Bool × Nat) :=
  if n = 0 then pure (false, last) else lastLoop (fun f => searchN c f last n value pred) first (false, last)

/-- The loop of `algo_lower_bound_by`, c_bsearch.c:48-60, and of `algo_upper_bound_by` (87-99): `right it` tells whether the bound is behind `it`. -/
def boundLoop (right : Nat → M V Bool) (first count : Nat) : M V Nat :=
  if count > 0 then do
    let step := count / 2
    let it := first + step
    if ← right it then boundLoop right (it + 1) (count - (step + 1)) else boundLoop right first step
  else pure first
partial_fixpoint

/-- `algo_lower_bound_by`, c_bsearch.c:30-67; returns `*bound` -/
def lowerBound (c : Slots) (first last : Nat) (value : Loc) (comp : Loc → Loc → M V Bool) : M V Nat :=
  boundLoop (fun it => comp (c it) value) first (last - first)

/-- `algo_upper_bound_by`, c_bsearch.c:69-106; returns `*bound` -/
def upperBound (c : Slots) (first last : Nat) (value : Loc) (comp : Loc → Loc → M V Bool) : M V Nat :=
  boundLoop (fun it => do pure (!(← comp value (c it)))) first (last - first)

/-- `algo_binary_search_by`, c_bsearch.c:108-127 -/
def binarySearch (c : Slots) (first last : Nat) (value : Loc) (comp : Loc → Loc → M V Bool) : M V Bool := do
  let f ← lowerBound c first last value comp
  if f ≠ last then do
    let b ← comp value (c f)
    pure (!b)
  else pure false

/-- `algo_equal_range_by`, c_bsearch.c:129-146; returns `*lower_bound` and `*upper_bound` -/
def equalRange (c : Slots) (first last : Nat) (value : Loc) (comp : Loc → Loc → M V Bool) : M V (Nat × Nat) := do
  let l ← lowerBound c first last value comp
  let u ← upperBound c first last value comp
  pure (l, u)

/-- The loop of `algo_max_element_by`, c_min_max.c:75-82, and `algo_min_element_by` (106-113): `best` moves to the next element if that one is better. -/
def extLoop (better : Nat → Nat → M V Bool) (best first last : Nat) : M V Nat :=
  if first ≠ last then
    if first + 1 ≠ last then do
      if ← better best (first + 1) then extLoop better (first + 1) (first + 1) last else extLoop better best (first + 1) last
    else extLoop better best (first + 1) last
  else pure best
partial_fixpoint

/-- `algo_max_element_by`, c_min_max.c:60-89; returns `*max` -/
def maxElement (c : Slots) (first last : Nat) (comp : Loc → Loc → M V Bool) : M V Nat :=
  extLoop (fun best cur => comp (c best) (c cur)) first first last

/-- `algo_min_element_by`, c_min_max.c:91-120; returns `*min` -/
def minElement (c : Slots) (first last : Nat) (comp : Loc → Loc → M V Bool) : M V Nat :=
  extLoop (fun best cur => comp (c cur) (c best)) first first last

/-- loop of `algo_minmax_element_by`, c_min_max.c:141-152 -/
def minmaxLoop (c : Slots) (comp : Loc → Loc → M V Bool) (mn mx first last : Nat) : M V (Nat × Nat) :=
  if first ≠ last then
    if first + 1 ≠ last then do
      let b1 ← comp (c (first + 1)) (c mn)
      let b2 ← comp (c mx) (c (first + 1))
      minmaxLoop c comp (if b1 then first + 1 else mn) (if b2 then first + 1 else mx) (first + 1) last
    else minmaxLoop c comp mn mx (first + 1) last
  else pure (mn, mx)
partial_fixpoint

/-- `algo_minmax_element_by`, c_min_max.c:122-161; returns `*min` and `*max` -/
def minmaxElement (c : Slots) (first last : Nat) (comp : Loc → Loc → M V Bool) : M V (Nat × Nat) := minmaxLoop c comp first first first last

/-- loop of `algo_lexicographical_compare_by`, c_min_max.c:192-203: `ret` and the final positions -/
def lexLoop (c d : Slots) (comp : Loc → Loc → M V Bool) (first1 last1 first2 last2 : Nat) : M V (Bool × Nat × Nat) :=
  if first1 ≠ last1 ∧ first2 ≠ last2 then do
    if ← comp (c first1) (d first2) then pure (true, first1, first2) else do
    if ← comp (d first2) (c first1) then pure (false, first1, first2) else
    lexLoop c d comp (first1 + 1) last1 (first2 + 1) last2
  else pure (false, first1, first2)
partial_fixpoint

/-- `algo_lexicographical_compare_by`, c_min_max.c:176-212 -/
def lexCompare (c : Slots) (first1 last1 : Nat) (d : Slots) (first2 last2 : Nat) (comp : Loc → Loc → M V Bool) : M V Bool := do
  let r ← lexLoop c d comp first1 last1 first2 last2
  if r.2.1 = last1 ∧ r.2.2 ≠ last2 then pure true else pure r.1

/-- loop of `algo_copy`, c_modifying.c:73-78 -/
def copyLoop (o : AOps V) (c d : Slots) (first last dFirst n : Nat) : M V (Nat × Nat) :=
  if first ≠ last then do
    o.assign (d dFirst) (c first)
    copyLoop o c d (first + 1) last (dFirst + 1) (n + 1)
  else pure (n, dFirst)
partial_fixpoint

/-- `algo_copy`, c_modifying.c:57-85; returns the result and `*d_last` -/
def copy (o : AOps V) (c : Slots) (first last : Nat) (d : Slots) (dFirst : Nat) : M V (Nat × Nat) := copyLoop o c d first last dFirst 0

/-- loop of `algo_copy_if`, c_modifying.c:104-111, `algo_remove_copy` (402-409) and `algo_remove_copy_if` (434-441): copy the elements that satisfy a condition -/
def copyIfLoop (o : AOps V) (cond : Nat → M V Bool) (c d : Slots) (first last dFirst n : Nat) : M V (Nat × Nat) :=
  if first ≠ last then do
    if ← cond first then do
      o.assign (d dFirst) (c first)
      copyIfLoop o cond c d (first + 1) last (dFirst + 1) (n + 1)
    else copyIfLoop o cond c d (first + 1) last dFirst n
  else pure (n, dFirst)
partial_fixpoint

/-- `algo_copy_if`, c_modifying.c:87-118 -/
def copyIf (o : AOps V) (c : Slots) (first last : Nat) (d : Slots) (dFirst : Nat) (pred : Loc → M V Bool) : M V (Nat × Nat) :=
  copyIfLoop o (fun i => pred (c i)) c d first last dFirst 0

/-- loop of `algo_copy_backward`, c_modifying.c:137-142 -/
def copyBackwardLoop (o : AOps V) (c d : Slots) (first last dLast n : Nat) : M V (Nat × Nat) :=
  if last ≠ first then do
    let last ← dec last
    let dLast ← dec dLast
    o.assign (d dLast) (c last)
    copyBackwardLoop o c d first last dLast (n + 1)
  else pure (n, dLast)
partial_fixpoint

/-- `algo_copy_backward`, c_modifying.c:120-149; returns the result and `*d_last_copied` -/
def copyBackward (o : AOps V) (c : Slots) (first last : Nat) (d : Slots) (dLast : Nat) : M V (Nat × Nat) := copyBackwardLoop o c d first last dLast 0

/-- loop of `algo_fill`, c_modifying.c:164-168 -/
def fillLoop (o : AOps V) (c : Slots) (value : Loc) (first last n : Nat) : M V Nat :=
  if first ≠ last then do
    o.assign (c first) value
    fillLoop o c value (first + 1) last (n + 1)
  else pure n
partial_fixpoint

/-- `algo_fill`, c_modifying.c:151-173 -/
def fill (o : AOps V) (c : Slots) (first last : Nat) (value : Loc) : M V Nat := fillLoop o c value first last 0

/-- `algo_fill_n`, c_modifying.c:175-195; returns `*last` -/
def fillN (o : AOps V) (c : Slots) (first : Nat) : Nat → Loc → M V Nat
  | 0, _ => pure first
  | n + 1, value => do
    o.assign (c first) value
    fillN o c (first + 1) n value

/-- loop of `algo_remove`, c_modifying.c:324-334, and of `algo_remove_if` (365-374): `gone i` tells whether element `i` goes -/
def removeLoop (o : AOps V) (gone : Nat → M V Bool) (c : Slots) (first i last n : Nat) : M V (Nat × Nat) :=
  if i ≠ last then do
    let g ← gone i
    if !g then do
      o.assign (c first) (c i)
      removeLoop o gone c (first + 1) (i + 1) last n
    else removeLoop o gone c first (i + 1) last (n + 1)
  else pure (n, first)
partial_fixpoint

/-- `algo_remove`, c_modifying.c:304-343; returns the result and `*new_last` -/
def remove (o : AOps V) (c : Slots) (first last : Nat) (value : Loc) (eq : Loc → Loc → M V Bool) : M V (Nat × Nat) := do
  let r ← findBy c first last value eq
  if r.2 ≠ last then removeLoop o (fun i => eq (c i) value) c r.2 (r.2 + 1) last 1
  else pure (0, r.2)

/-- `algo_remove_if`, c_modifying.c:345-383 -/
def removeIf (o : AOps V) (c : Slots) (first last : Nat) (pred : Loc → M V Bool) : M V (Nat × Nat) := do
  let r ← findIf c first last pred
  if r.2 ≠ last then removeLoop o (fun i => pred (c i)) c r.2 (r.2 + 1) last 1
  else pure (0, r.2)

/-- `algo_remove_copy`, c_modifying.c:385-416 (loop 402-409) -/
def removeCopy (o : AOps V) (c : Slots) (first last : Nat) (d : Slots) (dFirst : Nat) (value : Loc) (eq : Loc → Loc → M V Bool) : M V (Nat × Nat) :=
  copyIfLoop o (fun i => do pure (!(← eq (c i) value))) c d first last dFirst 0

/-- `algo_remove_copy_if`, c_modifying.c:418-448 (loop 434-441) -/
def removeCopyIf (o : AOps V) (c : Slots) (first last : Nat) (d : Slots) (dFirst : Nat) (pred : Loc → M V Bool) : M V (Nat × Nat) :=
  copyIfLoop o (fun i => do pure (!(← pred (c i)))) c d first last dFirst 0

/-- loop of `algo_replace`, c_modifying.c:465-471, and of `algo_replace_if` (493-499) -/
def replaceLoop (o : AOps V) (cond : Nat → M V Bool) (c : Slots) (new : Loc) (first last n : Nat) : M V Nat :=
  if first ≠ last then do
    if ← cond first then do
      o.assign (c first) new
      replaceLoop o cond c new (first + 1) last (n + 1)
    else replaceLoop o cond c new (first + 1) last n
  else pure n
partial_fixpoint

/-- `algo_replace`, c_modifying.c:450-476 -/
def replace (o : AOps V) (c : Slots) (first last : Nat) (old new : Loc) (eq : Loc → Loc → M V Bool) : M V Nat := do
  let r ← findBy c first last old eq
  replaceLoop o (fun i => eq (c i) old) c new r.2 last 0

/-- `algo_replace_if`, c_modifying.c:478-504 -/
def replaceIf (o : AOps V) (c : Slots) (first last : Nat) (pred : Loc → M V Bool) (new : Loc) : M V Nat := do
  let r ← findIf c first last pred
  replaceLoop o (fun i => pred (c i)) c new r.2 last 0

/-- loop of `algo_replace_copy`, c_modifying.c:524-534, and of `algo_replace_copy_if` (561-571) -/
def replaceCopyLoop (o : AOps V) (cond : Nat → M V Bool) (c d : Slots) (new : Loc) (first last dFirst n : Nat) : M V (Nat × Nat) :=
  if first ≠ last then do
    let b ← cond first
    o.assign (d dFirst) (if b then new else c first)
    replaceCopyLoop o cond c d new (first + 1) last (dFirst + 1) (n + 1)
  else pure (n, dFirst)
partial_fixpoint

/-- `algo_replace_copy`, c_modifying.c:506-541 -/
def replaceCopy (o : AOps V) (c : Slots) (first last : Nat) (d : Slots) (dFirst : Nat) (old new : Loc) (eq : Loc → Loc → M V Bool) : M V (Nat × Nat) :=
  replaceCopyLoop o (fun i => eq (c i) old) c d new first last dFirst 0

/-- `algo_replace_copy_if`, c_modifying.c:543-578 -/
def replaceCopyIf (o : AOps V) (c : Slots) (first last : Nat) (d : Slots) (dFirst : Nat) (pred : Loc → M V Bool) (new : Loc) : M V (Nat × Nat) :=
  replaceCopyLoop o (fun i => pred (c i)) c d new first last dFirst 0

/-- loop of `algo_swap_range`, c_modifying.c:609-614 -/
def swapRangeLoop (o : AOps V) (c d : Slots) (first1 last1 first2 n : Nat) : M V Nat :=
  if first1 ≠ last1 then do
    swap o (c first1) (d first2)
    swapRangeLoop o c d (first1 + 1) last1 (first2 + 1) (n + 1)
  else pure n
partial_fixpoint

/-- `algo_swap_range`, c_modifying.c:594-619 -/
def swapRange (o : AOps V) (c : Slots) (first1 last1 : Nat) (d : Slots) (first2 : Nat) : M V Nat := swapRangeLoop o c d first1 last1 first2 0

/-- loop of `algo_reverse`, c_modifying.c:646-654 -/
def reverseLoop (o : AOps V) (c : Slots) (first last n : Nat) : M V Nat :=
  if first ≠ last then do
    let last ← dec last
    if first ≠ last then do
      swap o (c first) (c last)
      reverseLoop o c (first + 1) last (n + 1 + 1)
    else reverseLoop o c first last (n + 1)
  else pure n
partial_fixpoint

/-- `algo_reverse`, c_modifying.c:633-659 -/
def reverse (o : AOps V) (c : Slots) (first last : Nat) : M V Nat := reverseLoop o c first last 0

/-- loop of `algo_reverse_copy`, c_modifying.c:677-682 -/
def reverseCopyLoop (o : AOps V) (c d : Slots) (first last dFirst n : Nat) : M V (Nat × Nat) :=
  if first ≠ last then do
    let last ← dec last
    o.assign (d dFirst) (c last)
    reverseCopyLoop o c d first last (dFirst + 1) (n + 1)
  else pure (n, dFirst)
partial_fixpoint

/-- `algo_reverse_copy`, c_modifying.c:661-689 -/
def reverseCopy (o : AOps V) (c : Slots) (first last : Nat) (d : Slots) (dFirst : Nat) : M V (Nat × Nat) := reverseCopyLoop o c d first last dFirst 0

/-- first loop of `algo_rotate` (do … while), c_modifying.c:721-726: the final values of `__first` and `__n_first` -/
def rotateLoop1 (o : AOps V) (c : Slots) (first nFirst next last : Nat) : M V (Nat × Nat) := do
  swap o (c first) (c next)
  let first := first + 1
  let next := next + 1
  let nFirst := if first = nFirst then next else nFirst
  if next ≠ last then rotateLoop1 o c first nFirst next last else pure (first, nFirst)
partial_fixpoint

/-- second loop of `algo_rotate`, c_modifying.c:731-737 -/
def rotateLoop2 (o : AOps V) (c : Slots) (first nFirst next last : Nat) : M V Unit :=
  if next ≠ last then do
    swap o (c first) (c next)
    let first := first + 1
    let next := next + 1
    let nFirst := if first = nFirst then next else nFirst
    let next := if next = last then nFirst else next
    rotateLoop2 o c first nFirst next last
  else pure ()
partial_fixpoint

/-- `algo_rotate`, c_modifying.c:691-742; returns `*rotate_point` -/
def rotate (o : AOps V) (c : Slots) (first nFirst last : Nat) : M V Nat :=
  if first = nFirst then pure last
  else if nFirst = last then pure first
  else do
    let r ← rotateLoop1 o c first nFirst nFirst last
    rotateLoop2 o c r.1 r.2 r.2 last
    pure r.1

/-- `algo_rotate_copy`, c_modifying.c:744-769 -/
def rotateCopy (o : AOps V) (c : Slots) (first nFirst last : Nat) (d : Slots) (dFirst : Nat) : M V (Nat × Nat) := do
  let r1 ← copy o c nFirst last d dFirst
  let r2 ← copy o c first nFirst d r1.2
  pure (r1.1 + r2.1, r2.2)

/-- loop of `algo_random_shuffle_by`, c_modifying.c:792-796, for `__i` from `i` down to 1.  The generator is called once for each `__i`, and `r i` is the result of
that call `r(__i + 1)`: for generators with internal state any sequence of results is such a function. -/
def shuffleLoop (o : AOps V) (c : Slots) (first : Nat) (r : Nat → Nat) : Nat → M V Unit
  | 0 => pure ()
  | i + 1 => do
    swap o (c (first + (i + 1))) (c (first + r (i + 1)))
    shuffleLoop o c first r i

/-- `algo_random_shuffle_by`, c_modifying.c:777-802 -/
def shuffle (o : AOps V) (c : Slots) (first last : Nat) (r : Nat → Nat) : M V Unit := shuffleLoop o c first r (last - first - 1)

/-- loop of `algo_unique_by`, c_modifying.c:827-834 -/
def uniqueLoop (o : AOps V) (c : Slots) (pred : Loc → Loc → M V Bool) (first next last n : Nat) : M V (Nat × Nat) :=
  if next ≠ last then do
    let b ← pred (c first) (c next)
    if !b then do
      o.assign (c (first + 1)) (c next)
      uniqueLoop o c pred (first + 1) (next + 1) last (n + 1)
    else uniqueLoop o c pred first (next + 1) last n
  else pure (n, first + 1)
partial_fixpoint

/-- `algo_unique_by`, c_modifying.c:804-844; returns the result (the number of remaining elements) and `*new_last` -/
def unique (o : AOps V) (c : Slots) (first last : Nat) (pred : Loc → Loc → M V Bool) : M V (Nat × Nat) :=
  if first = last then pure (0, last) else uniqueLoop o c pred first (first + 1) last 1

/-- loop of `algo_unique_copy_by`, c_modifying.c:871-878 -/
def uniqueCopyLoop (o : AOps V) (c d : Slots) (pred : Loc → Loc → M V Bool) (first last dFirst n : Nat) : M V (Nat × Nat) :=
  if first ≠ last then do
    let b ← pred (d dFirst) (c first)
    if !b then do
      o.assign (d (dFirst + 1)) (c first)
      uniqueCopyLoop o c d pred (first + 1) last (dFirst + 1) (n + 1)
    else uniqueCopyLoop o c d pred (first + 1) last dFirst n
  else pure (n, dFirst + 1)
partial_fixpoint

/-- `algo_unique_copy_by`, c_modifying.c:846-886, with `d_last` not NULL -/
def uniqueCopy (o : AOps V) (c : Slots) (first last : Nat) (d : Slots) (dFirst : Nat) (pred : Loc → Loc → M V Bool) : M V (Nat × Nat) :=
  if first = last then pure (0, dFirst) else do
  o.assign (d dFirst) (c first)
  uniqueCopyLoop o c d pred (first + 1) last dFirst 1

/-- the first loop of `algo_is_partitioned`, c_partitioning.c:45-47, and the loop of `algo_partition_point` (151-153) -/
def skipTrue (c : Slots) (pred : Loc → M V Bool) (first last : Nat) : M V Nat :=
  if first ≠ last then do
    if ← pred (c first) then skipTrue c pred (first + 1) last else pure first
  else pure first
partial_fixpoint

/-- the second loop of `algo_is_partitioned`, c_partitioning.c:49-55 -/
def noneTrue (c : Slots) (pred : Loc → M V Bool) (first last : Nat) : M V Bool :=
  if first ≠ last then do
    if ← pred (c first) then pure false else noneTrue c pred (first + 1) last
  else pure true
partial_fixpoint

/-- `algo_is_partitioned`, c_partitioning.c:31-60 -/
def isPartitioned (c : Slots) (first last : Nat) (pred : Loc → M V Bool) : M V Bool :=
  if first = last then pure true else do
  let f ← skipTrue c pred first last
  noneTrue c pred f last

/-- loop of `algo_partition`, c_partitioning.c:81-87 -/
def partitionLoop (o : AOps V) (c : Slots) (pred : Loc → M V Bool) (first next last : Nat) : M V Nat :=
  if next ≠ last then do
    if ← pred (c next) then do
      swap o (c first) (c next)
      partitionLoop o c pred (first + 1) (next + 1) last
    else partitionLoop o c pred first (next + 1) last
  else pure first
partial_fixpoint

/-- `algo_partition`, c_partitioning.c:62-94; returns `*second_first` -/
def partition (o : AOps V) (c : Slots) (first last : Nat) (pred : Loc → M V Bool) : M V Nat := do
  let r ← findIfNot c first last pred
  if r.2 ≠ last then partitionLoop o c pred r.2 (r.2 + 1) last else pure r.2

/-- loop of `algo_partition_copy`, c_partitioning.c:118-129 -/
def partitionCopyLoop (o : AOps V) (c d e : Slots) (pred : Loc → M V Bool) (first last dt df n : Nat) : M V (Nat × Nat × Nat) :=
  if first ≠ last then do
    if ← pred (c first) then do
      o.assign (d dt) (c first)
      partitionCopyLoop o c d e pred (first + 1) last (dt + 1) df (n + 1)
    else do
      o.assign (e df) (c first)
      partitionCopyLoop o c d e pred (first + 1) last dt (df + 1) (n + 1)
  else pure (n, dt, df)
partial_fixpoint

/-- `algo_partition_copy`, c_partitioning.c:96-137; returns the result, `*d_last_true` and `*d_last_false` -/
def partitionCopy (o : AOps V) (c : Slots) (first last : Nat) (d : Slots) (dFirstTrue : Nat) (e : Slots) (dFirstFalse : Nat) (pred : Loc → M V Bool) : M V (Nat × Nat × Nat) :=
  partitionCopyLoop o c d e pred first last dFirstTrue dFirstFalse 0

/-- `algo_partition_point`, c_partitioning.c:139-158; returns `*first_last` -/
def partitionPoint (c : Slots) (first last : Nat) (pred : Loc → M V Bool) : M V Nat := skipTrue c pred first last

/-- loop of `algo_merge_by`, c_set_op.c:52-63; returns the final `__first1`, `__first2`, `__d_first`, `n` -/
def mergeLoop (o : AOps V) (c c' d : Slots) (comp : Loc → Loc → M V Bool) (first1 last1 first2 last2 dFirst n : Nat) : M V (Nat × Nat × Nat × Nat) :=
  if first1 ≠ last1 ∧ first2 ≠ last2 then do
    if ← comp (c first1) (c' first2) then do
      o.assign (d dFirst) (c first1)
      mergeLoop o c c' d comp (first1 + 1) last1 first2 last2 (dFirst + 1) (n + 1)
    else do
      o.assign (d dFirst) (c' first2)
      mergeLoop o c c' d comp first1 last1 (first2 + 1) last2 (dFirst + 1) (n + 1)
  else pure (first1, first2, dFirst, n)
partial_fixpoint

/-- `algo_merge_by`, c_set_op.c:31-73; returns the result and `*d_last` -/
def merge (o : AOps V) (c : Slots) (first1 last1 : Nat) (c' : Slots) (first2 last2 : Nat) (d : Slots) (dFirst : Nat) (comp : Loc → Loc → M V Bool) : M V (Nat × Nat) := do
  let r ← mergeLoop o c c' d comp first1 last1 first2 last2 dFirst 0
  let r1 ← copy o c r.1 last1 d r.2.2.1
  let r2 ← copy o c' r.2.1 last2 d r1.2
  pure (r.2.2.2 + r1.1 + r2.1, r2.2)

/-- loop of `algo_includes_by`, c_set_op.c:93-104; returns the final `__first2` -/
def includesLoop (c c' : Slots) (comp : Loc → Loc → M V Bool) (first1 last1 first2 last2 : Nat) : M V Nat :=
  if first1 ≠ last1 ∧ first2 ≠ last2 then do
    if ← comp (c' first2) (c first1) then pure first2
    else do
      if ← comp (c first1) (c' first2) then includesLoop c c' comp (first1 + 1) last1 first2 last2
      else includesLoop c c' comp (first1 + 1) last1 (first2 + 1) last2
  else pure first2
partial_fixpoint

/-- `algo_includes_by`, c_set_op.c:75-111 -/
def includes (c : Slots) (first1 last1 : Nat) (c' : Slots) (first2 last2 : Nat) (comp : Loc → Loc → M V Bool) : M V Bool :=
  if first2 = last2 then pure true else do
  let r ← includesLoop c c' comp first1 last1 first2 last2
  pure (r == last2)

/-- loop of `algo_set_difference_by`, c_set_op.c:134-145; returns the final `__first1`, `__d_first`, `n` -/
def differenceLoop (o : AOps V) (c c' d : Slots) (comp : Loc → Loc → M V Bool) (first1 last1 first2 last2 dFirst n : Nat) : M V (Nat × Nat × Nat) :=
  if first1 ≠ last1 ∧ first2 ≠ last2 then do
    if ← comp (c first1) (c' first2) then do
      o.assign (d dFirst) (c first1)
      differenceLoop o c c' d comp (first1 + 1) last1 first2 last2 (dFirst + 1) (n + 1)
    else differenceLoop o c c' d comp (first1 + 1) last1 (first2 + 1) last2 dFirst n
  else pure (first1, dFirst, n)
partial_fixpoint

/-- `algo_set_difference_by`, c_set_op.c:113-154; returns the result and `*d_last` -/
def setDifference (o : AOps V) (c : Slots) (first1 last1 : Nat) (c' : Slots) (first2 last2 : Nat) (d : Slots) (dFirst : Nat) (comp : Loc → Loc → M V Bool) : M V (Nat × Nat) := do
  let r ← differenceLoop o c c' d comp first1 last1 first2 last2 dFirst 0
  let r1 ← copy o c r.1 last1 d r.2.1
  pure (r.2.2 + r1.1, r1.2)

/-- loop of `algo_set_intersection_by`, c_set_op.c:177-191; returns the final `n` and `__d_first` -/
def intersectionLoop (o : AOps V) (c c' d : Slots) (comp : Loc → Loc → M V Bool) (first1 last1 first2 last2 dFirst n : Nat) : M V (Nat × Nat) :=
  if first1 ≠ last1 ∧ first2 ≠ last2 then do
    if ← comp (c first1) (c' first2) then intersectionLoop o c c' d comp (first1 + 1) last1 first2 last2 dFirst n
    else do
      if ← comp (c' first2) (c first1) then intersectionLoop o c c' d comp first1 last1 (first2 + 1) last2 dFirst n
      else do
        o.assign (d dFirst) (c first1)
        intersectionLoop o c c' d comp (first1 + 1) last1 (first2 + 1) last2 (dFirst + 1) (n + 1)
  else pure (n, dFirst)
partial_fixpoint

/-- `algo_set_intersection_by`, c_set_op.c:156-198; returns the result and `*d_last` -/
def setIntersection (o : AOps V) (c : Slots) (first1 last1 : Nat) (c' : Slots) (first2 last2 : Nat) (d : Slots) (dFirst : Nat) (comp : Loc → Loc → M V Bool) : M V (Nat × Nat) :=
  intersectionLoop o c c' d comp first1 last1 first2 last2 dFirst 0

/-- loop of `algo_set_symmetric_difference_by`, c_set_op.c:221-238; returns the final `__first1`, `__first2`, `__d_first`, `n` -/
def symDifferenceLoop (o : AOps V) (c c' d : Slots) (comp : Loc → Loc → M V Bool) (first1 last1 first2 last2 dFirst n : Nat) : M V (Nat × Nat × Nat × Nat) :=
  if first1 ≠ last1 ∧ first2 ≠ last2 then do
    if ← comp (c first1) (c' first2) then do
      o.assign (d dFirst) (c first1)
      symDifferenceLoop o c c' d comp (first1 + 1) last1 first2 last2 (dFirst + 1) (n + 1)
    else do
      if ← comp (c' first2) (c first1) then do
        o.assign (d dFirst) (c' first2)
        symDifferenceLoop o c c' d comp first1 last1 (first2 + 1) last2 (dFirst + 1) (n + 1)
      else symDifferenceLoop o c c' d comp (first1 + 1) last1 (first2 + 1) last2 dFirst n
  else pure (first1, first2, dFirst, n)
partial_fixpoint

/-- `algo_set_symmetric_difference_by`, c_set_op.c:200-248; returns the result and `*d_last` -/
def setSymDifference (o : AOps V) (c : Slots) (first1 last1 : Nat) (c' : Slots) (first2 last2 : Nat) (d : Slots) (dFirst : Nat) (comp : Loc → Loc → M V Bool) : M V (Nat × Nat) := do
  let r ← symDifferenceLoop o c c' d comp first1 last1 first2 last2 dFirst 0
  let r1 ← copy o c r.1 last1 d r.2.2.1
  let r2 ← copy o c' r.2.1 last2 d r1.2
  pure (r.2.2.2 + r1.1 + r2.1, r2.2)

/-- loop of `algo_set_union_by`, c_set_op.c:271-291; returns the final `__first1`, `__first2`, `__d_first`, `n` -/
def unionLoop (o : AOps V) (c c' d : Slots) (comp : Loc → Loc → M V Bool) (first1 last1 first2 last2 dFirst n : Nat) : M V (Nat × Nat × Nat × Nat) :=
  if first1 ≠ last1 ∧ first2 ≠ last2 then do
    if ← comp (c first1) (c' first2) then do
      o.assign (d dFirst) (c first1)
      unionLoop o c c' d comp (first1 + 1) last1 first2 last2 (dFirst + 1) (n + 1)
    else do
      if ← comp (c' first2) (c first1) then do
        o.assign (d dFirst) (c' first2)
        unionLoop o c c' d comp first1 last1 (first2 + 1) last2 (dFirst + 1) (n + 1)
      else do
        o.assign (d dFirst) (c first1)
        unionLoop o c c' d comp (first1 + 1) last1 (first2 + 1) last2 (dFirst + 1) (n + 1)
  else pure (first1, first2, dFirst, n)
partial_fixpoint

/-- `algo_set_union_by`, c_set_op.c:250-301; returns the result and `*d_last` -/
def setUnion (o : AOps V) (c : Slots) (first1 last1 : Nat) (c' : Slots) (first2 last2 : Nat) (d : Slots) (dFirst : Nat) (comp : Loc → Loc → M V Bool) : M V (Nat × Nat) := do
  let r ← unionLoop o c c' d comp first1 last1 first2 last2 dFirst 0
  let r1 ← copy o c r.1 last1 d r.2.2.1
  let r2 ← copy o c' r.2.1 last2 d r1.2
  pure (r.2.2.2 + r1.1 + r2.1, r2.2)

/-- `__percolate_down`, c_heap.c:45-95, as a loop -/
def percolate (o : AOps V) (c : Slots) (first length hole : Nat) (comp : Loc → Loc → M V Bool) : M V Unit := do
  let left := 2 * hole + 1
  let b1 ← (if left < length then comp (c (first + hole)) (c (first + left)) else pure false)
  let sw := if b1 then left else hole
  let right := 2 * (hole + 1)
  let b2 ← (if right < length then comp (c (first + sw)) (c (first + right)) else pure false)
  let sw := if b2 then right else sw
  if sw ≠ hole then do
    swap o (c (first + hole)) (c (first + sw))
    percolate o c first length sw comp
  else pure ()
partial_fixpoint

/-- loop of `__heapify`, c_heap.c:105-108, for hole indices below the given number -/
def heapifyLoop (o : AOps V) (c : Slots) (first length : Nat) (comp : Loc → Loc → M V Bool) : Nat → M V Unit
  | 0 => pure ()
  | k + 1 => do
    percolate o c first length k comp
    heapifyLoop o c first length comp k

/-- `__heapify`, c_heap.c:97-111 (called with at least two elements) -/
def heapify (o : AOps V) (c : Slots) (first last : Nat) (comp : Loc → Loc → M V Bool) : M V Unit :=
  heapifyLoop o c first (last - first) comp ((last - first - 1 - 1) / 2 + 1)

/-- loop of `algo_is_heap_until_by`, c_heap.c:156-175; returns `__is_heap` and the iterator -/
def isHeapLoop (c : Slots) (first dist p : Nat) (comp : Loc → Loc → M V Bool) : M V (Bool × Nat) :=
  if 2 * p + 1 < dist then do
    if ← comp (c (first + p)) (c (first + (2 * p + 1))) then pure (false, first + p) else do
    let b ← (if 2 * (p + 1) < dist then comp (c (first + p)) (c (first + 2 * (p + 1))) else pure false)
    if b then pure (false, first + p) else isHeapLoop c first dist (p + 1) comp
  else pure (true, first + dist)
partial_fixpoint

/-- `algo_is_heap_until_by`, c_heap.c:135-184; returns `*until` -/
def isHeapUntil (c : Slots) (first last : Nat) (comp : Loc → Loc → M V Bool) : M V Nat := do
  let r ← isHeapLoop c first (last - first) 0 comp
  pure r.2

/-- `algo_is_heap_by`, c_heap.c:113-133 -/
def isHeap (c : Slots) (first last : Nat) (comp : Loc → Loc → M V Bool) : M V Bool := do
  let u ← isHeapUntil c first last comp
  pure (u == last)

/-- loop of `algo_pop_heap_by`, c_heap.c:253-290 -/
def popLoop (o : AOps V) (c : Slots) (first len hole : Nat) (comp : Loc → Loc → M V Bool) : M V Unit :=
  if 2 * hole + 1 < len then do
    if 2 * (hole + 1) < len then do
      if ← comp (c (first + (2 * hole + 1))) (c (first + 2 * (hole + 1))) then do
        if ← comp (c (first + hole)) (c (first + 2 * (hole + 1))) then do
          swap o (c (first + hole)) (c (first + 2 * (hole + 1)))
          popLoop o c first len (2 * (hole + 1)) comp
        else pure ()
      else do
        if ← comp (c (first + hole)) (c (first + (2 * hole + 1))) then do
          swap o (c (first + hole)) (c (first + (2 * hole + 1)))
          popLoop o c first len (2 * hole + 1) comp
        else pure ()
    else do
      if ← comp (c (first + hole)) (c (first + (2 * hole + 1))) then do
        swap o (c (first + hole)) (c (first + (2 * hole + 1)))
        popLoop o c first len (2 * hole + 1) comp
      else pure ()
  else pure ()
partial_fixpoint

/-- `algo_pop_heap_by`, c_heap.c:229-297 -/
def popHeap (o : AOps V) (c : Slots) (first last : Nat) (comp : Loc → Loc → M V Bool) : M V Unit :=
  if last - first < 2 then pure () else do
  let last ← dec last
  swap o (c first) (c last)
  popLoop o c first (last - first) 0 comp

/-- `algo_make_heap_by`, c_heap.c:299-314 -/
def makeHeap (o : AOps V) (c : Slots) (first last : Nat) (comp : Loc → Loc → M V Bool) : M V Unit :=
  if last - first < 2 then pure () else heapify o c first last comp

/-- loop of `algo_sort_heap_by`, c_heap.c:328-331 -/
def sortHeapLoop (o : AOps V) (c : Slots) (first last : Nat) (comp : Loc → Loc → M V Bool) : M V Unit :=
  if first ≠ last then do
    popHeap o c first last comp
    let last ← dec last
    sortHeapLoop o c first last comp
  else pure ()
partial_fixpoint

/-- `algo_sort_heap_by`, c_heap.c:316-334 -/
def sortHeap (o : AOps V) (c : Slots) (first last : Nat) (comp : Loc → Loc → M V Bool) : M V Unit :=
  if last - first < 2 then pure () else sortHeapLoop o c first last comp

/-- first loop of `algo_partial_sort_copy_by`, c_sorting.c:438-443; returns the final `n`, `__i` and `__d` -/
def pscCopyLoop (o : AOps V) (c d : Slots) (last dLast n it dt : Nat) : M V (Nat × Nat × Nat) :=
  if it ≠ last ∧ dt ≠ dLast then do
    o.assign (d dt) (c it)
    pscCopyLoop o c d last dLast (n + 1) (it + 1) (dt + 1)
  else pure (n, it, dt)
partial_fixpoint

/-- loop of `algo_is_sorted_until_by`, c_sorting.c:332-339; returns `__is_sorted` and `__first` -/
def sortedLoop (c : Slots) (comp : Loc → Loc → M V Bool) (first next last : Nat) : M V (Bool × Nat) :=
  if next ≠ last then do
    if ← comp (c next) (c first) then pure (false, first)
    else sortedLoop c comp (first + 1) (next + 1) last
  else pure (true, first)
partial_fixpoint

/-- `algo_is_sorted_until_by`, c_sorting.c:309-346; returns `*until` -/
def isSortedUntil (c : Slots) (first last : Nat) (comp : Loc → Loc → M V Bool) : M V Nat :=
  if first = last then pure last else do
  let r ← sortedLoop c comp first (first + 1) last
  pure (if r.1 then last else r.2)

/-- `algo_is_sorted_by`, c_sorting.c:287-307 -/
def isSorted (c : Slots) (first last : Nat) (comp : Loc → Loc → M V Bool) : M V Bool := do
  let u ← isSortedUntil c first last comp
  pure (u == last)

end CC.Own
