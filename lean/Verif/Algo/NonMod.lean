import Verif.Algo.Base
/-!
# Model of `algorithm/c_non_modifying.c`
-/
namespace CC.Algo
open CC
variable {V : Type}

/-- The loop `while (C_ITER_NE(first, last) && cond(first)) C_ITER_INC(first);` of `algo_all_of`, c_non_modifying.c:42-44, `algo_any_of` (64-66),
`algo_none_of` (86-88), `algo_find_by` (265-267), `algo_find_if` (291-293), `algo_find_if_not` (317-319): the final position of `first`. -/
def scan (cond : Nat → M V Bool) (first last : Nat) : M V Nat :=
  if first ≠ last then do
    if ← cond first then scan cond (first + 1) last else pure first
  else pure first
partial_fixpoint

/-- `algo_all_of`, c_non_modifying.c:30-50 -/
def allOf (c : Slots) (first last : Nat) (pred : V → Bool) : M V Bool := do
  let f ← scan (fun i => test pred (c i)) first last
  pure (f == last)

/-- `algo_any_of`, c_non_modifying.c:52-72 -/
def anyOf (c : Slots) (first last : Nat) (pred : V → Bool) : M V Bool := do
  let f ← scan (fun i => do pure (!(← test pred (c i)))) first last
  pure (f != last)

/-- `algo_none_of`, c_non_modifying.c:74-94 -/
def noneOf (c : Slots) (first last : Nat) (pred : V → Bool) : M V Bool := do
  let f ← scan (fun i => do pure (!(← test pred (c i)))) first last
  pure (f == last)

/-- loop of `algo_for_each`, c_non_modifying.c:108-112; the callback is an arbitrary program -/
def forEachLoop (c : Slots) (op : Loc → M V Unit) (first last n : Nat) : M V Nat :=
  if first ≠ last then do
    op (c first)
    forEachLoop c op (first + 1) last (n + 1)
  else pure n
partial_fixpoint

/-- `algo_for_each`, c_non_modifying.c:96-117 -/
def forEach (c : Slots) (first last : Nat) (op : Loc → M V Unit) : M V Nat := forEachLoop c op first last 0

/-- `algo_for_each_n`, c_non_modifying.c:119-138; returns `reached` -/
def forEachN (c : Slots) (first : Nat) : Nat → (Loc → M V Unit) → M V Nat
  | 0, _ => pure first
  | n + 1, op => do
    op (c first)
    forEachN c (first + 1) n op

/-- loop of `algo_count`, c_non_modifying.c:152-155 and `algo_count_if` (174-177) -/
def countLoop (cond : Nat → M V Bool) (first last n : Nat) : M V Nat :=
  if first ≠ last then do
    if ← cond first then countLoop cond (first + 1) last (n + 1) else countLoop cond (first + 1) last n
  else pure n
partial_fixpoint

/-- `algo_count`, c_non_modifying.c:140-160 -/
def count (c : Slots) (first last : Nat) (value : Loc) (equal : V → V → Bool) : M V Nat :=
  countLoop (fun i => cmp equal (c i) value) first last 0

/-- `algo_count_if`, c_non_modifying.c:162-182 -/
def countIf (c : Slots) (first last : Nat) (pred : V → Bool) : M V Nat :=
  countLoop (fun i => test pred (c i)) first last 0

/-- loop of `algo_mismatch_by`, c_non_modifying.c:205-208, and `algo_equal_by` (239-242) -/
def mismatchLoop (c d : Slots) (pred : V → V → Bool) (first1 last1 first2 : Nat) : M V (Nat × Nat) :=
  if first1 ≠ last1 then do
    if ← cmp pred (c first1) (d first2) then mismatchLoop c d pred (first1 + 1) last1 (first2 + 1) else pure (first1, first2)
  else pure (first1, first2)
partial_fixpoint

/-- `algo_mismatch_by`, c_non_modifying.c:184-223; returns the result, `*mismatch1` and `*mismatch2` -/
def mismatch (c : Slots) (first1 last1 : Nat) (d : Slots) (first2 : Nat) (pred : V → V → Bool) : M V (Bool × Nat × Nat) := do
  let p ← mismatchLoop c d pred first1 last1 first2
  pure (p.1 != last1, p)

/-- `algo_equal_by`, c_non_modifying.c:225-248 -/
def equal (c : Slots) (first1 last1 : Nat) (d : Slots) (first2 : Nat) (pred : V → V → Bool) : M V Bool := do
  let p ← mismatchLoop c d pred first1 last1 first2
  pure (p.1 == last1)

/-- `algo_find_by`, c_non_modifying.c:250-275; returns the result and `*found` -/
def findBy (c : Slots) (first last : Nat) (value : Loc) (pred : V → V → Bool) : M V (Bool × Nat) := do
  let f ← scan (fun i => do pure (!(← cmp pred (c i) value))) first last
  pure (f != last, f)

/-- `algo_find_if`, c_non_modifying.c:277-301 -/
def findIf (c : Slots) (first last : Nat) (pred : V → Bool) : M V (Bool × Nat) := do
  let f ← scan (fun i => do pure (!(← test pred (c i)))) first last
  pure (f != last, f)

/-- `algo_find_if_not`, c_non_modifying.c:303-327 -/
def findIfNot (c : Slots) (first last : Nat) (pred : V → Bool) : M V (Bool × Nat) := do
  let f ← scan (fun i => test pred (c i)) first last
  pure (f != last, f)

/-- inner loop of `algo_find_first_of_by`, c_non_modifying.c:349-355: is the element among those of the second range? -/
def amongLoop (l : Loc) (d : Slots) (pred : V → V → Bool) (sFirst sLast : Nat) : M V Bool :=
  if sFirst ≠ sLast then do
    if ← cmp pred l (d sFirst) then pure true else amongLoop l d pred (sFirst + 1) sLast
  else pure false
partial_fixpoint

/-- outer loop of `algo_find_first_of_by`, c_non_modifying.c:347-357 -/
def findFirstOfLoop (c d : Slots) (pred : V → V → Bool) (first last sFirst sLast : Nat) : M V (Bool × Nat) :=
  if first ≠ last then do
    if ← amongLoop (c first) d pred sFirst sLast then pure (true, first)
    else findFirstOfLoop c d pred (first + 1) last sFirst sLast
  else pure (false, first)
partial_fixpoint

/-- `algo_find_first_of_by`, c_non_modifying.c:329-364 -/
def findFirstOf (c : Slots) (first last : Nat) (d : Slots) (sFirst sLast : Nat) (pred : V → V → Bool) : M V (Bool × Nat) :=
  findFirstOfLoop c d pred first last sFirst sLast

/-- The loop `while (search(first, last, &first)) { is_found = true; found = first; ++first; }` of `algo_find_last_of_by`, c_non_modifying.c:387-391,
`algo_search_last_by` (520-524) and `algo_search_last_n_by` (611-615). -/
def lastLoop (search : Nat → M V (Bool × Nat)) (first : Nat) (acc : Bool × Nat) : M V (Bool × Nat) := do
  let r ← search first
  if r.1 then lastLoop search (r.2 + 1) (true, r.2) else pure acc
partial_fixpoint

/-- `algo_find_last_of_by`, c_non_modifying.c:366-400 -/
def findLastOf (c : Slots) (first last : Nat) (d : Slots) (sFirst sLast : Nat) (pred : V → V → Bool) : M V (Bool × Nat) :=
  lastLoop (fun f => findFirstOf c f last d sFirst sLast pred) first (false, last)

/-- loop of `algo_adjacent_find_by`, c_non_modifying.c:426-429 -/
def adjacentLoop (c : Slots) (pred : V → V → Bool) (first next last : Nat) : M V (Nat × Nat) :=
  if next ≠ last then do
    if ← cmp pred (c first) (c next) then pure (first, next) else adjacentLoop c pred next (next + 1) last
  else pure (first, next)
partial_fixpoint

/-- `algo_adjacent_find_by`, c_non_modifying.c:402-441 -/
def adjacentFind (c : Slots) (first last : Nat) (pred : V → V → Bool) : M V (Bool × Nat) :=
  if first = last then pure (false, last) else do
  let p ← adjacentLoop c pred first (first + 1) last
  pure (p.2 != last, if p.2 ≠ last then p.1 else last)

/-- inner loop of `algo_search_by`, c_non_modifying.c:470-474: the final position of `s` -/
def matchLoop (c d : Slots) (pred : V → V → Bool) (i last s sLast : Nat) : M V Nat :=
  if i ≠ last ∧ s ≠ sLast then do
    if ← cmp pred (c i) (d s) then matchLoop c d pred (i + 1) last (s + 1) sLast else pure s
  else pure s
partial_fixpoint

/-- outer loop of `algo_search_by`, c_non_modifying.c:469-484 -/
def searchLoop (c d : Slots) (pred : V → V → Bool) (first last sFirst sLast : Nat) : M V (Bool × Nat) :=
  if first ≠ last then do
    let s ← matchLoop c d pred first last sFirst sLast
    if s = sLast then pure (true, first) else searchLoop c d pred (first + 1) last sFirst sLast
  else pure (false, last)
partial_fixpoint

/-- `algo_search_by`, c_non_modifying.c:443-497 -/
def search (c : Slots) (first last : Nat) (d : Slots) (sFirst sLast : Nat) (pred : V → V → Bool) : M V (Bool × Nat) :=
  searchLoop c d pred first last sFirst sLast

/-- `algo_search_last_by`, c_non_modifying.c:499-533 -/
def searchLast (c : Slots) (first last : Nat) (d : Slots) (sFirst sLast : Nat) (pred : V → V → Bool) : M V (Bool × Nat) :=
  lastLoop (fun f => search c f last d sFirst sLast pred) first (false, last)

/-- inner loop of `algo_search_n_by`, c_non_modifying.c:565-568: the final values of `__n` and `__i` -/
def runLoop (c : Slots) (value : Loc) (pred : V → V → Bool) (n i last : Nat) : M V (Nat × Nat) :=
  if n ≠ 0 ∧ i ≠ last then do
    if ← cmp pred (c i) value then runLoop c value pred (n - 1) (i + 1) last else pure (n, i)
  else pure (n, i)
partial_fixpoint

/-- outer loop of `algo_search_n_by`, c_non_modifying.c:561-574 -/
def searchNLoop (c : Slots) (value : Loc) (pred : V → V → Bool) (n i last : Nat) : M V (Bool × Nat) := do
  let r ← findBy c i last value pred
  if r.1 then do
    let q ← runLoop c value pred (n - 1) (r.2 + 1) last
    if q.1 = 0 then pure (true, r.2) else searchNLoop c value pred n q.2 last
  else pure (false, last)
partial_fixpoint

/-- `algo_search_n_by`, c_non_modifying.c:535-585 -/
def searchN (c : Slots) (first last n : Nat) (value : Loc) (pred : V → V → Bool) : M V (Bool × Nat) :=
  if n = 0 then pure (false, last) else searchNLoop c value pred n first last

/-- `algo_search_last_n_by`, c_non_modifying.c:587-624 -/
def searchLastN (c : Slots) (first last n : Nat) (value : Loc) (pred : V → V → Bool) : M V (Bool × Nat) :=
  if n = 0 then pure (false, last) else lastLoop (fun f => searchN c f last n value pred) first (false, last)

end CC.Algo
