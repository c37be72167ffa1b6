import Verif.IAlgo.Base
/-!
# Model of `algorithm/c_non_modifying.c` with iterator objects
-/
namespace CC.IAlgo
open CC CC.Iter CC.Algo
variable {V : Type}

/-- The loop `while (C_ITER_NE(first, last) && cond(first)) C_ITER_INC(first);` of `algo_all_of`, c_non_modifying.c:42-44, `algo_any_of` (64-66), `algo_none_of` (86-88), `algo_find_by` (265-267),
`algo_find_if` (291-293), `algo_find_if_not` (317-319), `algo_is_partitioned` (c_partitioning.c:45-47), `algo_partition_point` (c_partitioning.c:151-153) -/
def scan (cond : Addr → M V Bool) (first last : Addr) : M V Unit := do
  let b ← cNe first last
  if b then do
    let b ← cond first
    if b then do
      let _ ← cInc first
      scan cond first last
    else pure ()
  else pure ()
partial_fixpoint

/-- `!cond(first)` -/
def notM (m : M V Bool) : M V Bool := do
  let b ← m
  pure (!b)

/-- `algo_all_of`, c_non_modifying.c:30-50 -/
def allOf (first last : Addr) (pred : V → Bool) : M V Bool :=
  if first = 0 ∨ last = 0 then pure false else do
  atLeast first 1
  atLeast last 1
  let f ← newCopy first
  let l ← newCopy last
  scan (testAt pred) f l
  let ret ← cEq f l
  free f
  free l
  pure ret

/-- `algo_any_of`, c_non_modifying.c:52-72 -/
def anyOf (first last : Addr) (pred : V → Bool) : M V Bool :=
  if first = 0 ∨ last = 0 then pure false else do
  atLeast first 1
  atLeast last 1
  let f ← newCopy first
  let l ← newCopy last
  scan (fun x => notM (testAt pred x)) f l
  let ret ← cNe f l
  free f
  free l
  pure ret

/-- `algo_none_of`, c_non_modifying.c:74-94 -/
def noneOf (first last : Addr) (pred : V → Bool) : M V Bool :=
  if first = 0 ∨ last = 0 then pure false else do
  atLeast first 1
  atLeast last 1
  let f ← newCopy first
  let l ← newCopy last
  scan (fun x => notM (testAt pred x)) f l
  let ret ← cEq f l
  free f
  free l
  pure ret

/-- loop of `algo_for_each`, c_non_modifying.c:108-112; the callback is a program -/
def forEachLoop (op : Loc → M V Unit) (f l : Addr) (n : Nat) : M V Nat := do
  let b ← cNe f l
  if b then do
    let e ← cDeref f
    op e
    let _ ← cInc f
    forEachLoop op f l (n + 1)
  else pure n
partial_fixpoint

/-- `algo_for_each`, c_non_modifying.c:96-117 -/
def forEach (first last : Addr) (op : Loc → M V Unit) : M V Nat :=
  if first = 0 ∨ last = 0 then pure 0 else do
  atLeast first 1
  atLeast last 1
  let f ← newCopy first
  let l ← newCopy last
  let n ← forEachLoop op f l 0
  free f
  free l
  pure n

/-- loop of `algo_for_each_n`, c_non_modifying.c:130-133 -/
def forEachNLoop (op : Loc → M V Unit) (f : Addr) : Nat → M V Unit
  | 0 => pure ()
  | n + 1 => do
    let e ← cDeref f
    op e
    let _ ← cInc f
    forEachNLoop op f n

/-- `algo_for_each_n`, c_non_modifying.c:119-138 -/
def forEachN (first : Addr) (n : Nat) (reached : Out) (op : Loc → M V Unit) : M V Addr :=
  if first = 0 then pure 0 else do
  atLeast first 1
  reached.atLeast 1
  let f ← newCopy first
  forEachNLoop op f n
  let o ← reached.set f
  free f
  pure o

/-- loop of `algo_count`, c_non_modifying.c:152-155, and `algo_count_if` (174-177) -/
def countLoop (cond : Addr → M V Bool) (f l : Addr) (n : Nat) : M V Nat := do
  let b ← cNe f l
  if b then do
    let b ← cond f
    let _ ← cInc f
    countLoop cond f l (if b then n + 1 else n)
  else pure n
partial_fixpoint

/-- `algo_count`, c_non_modifying.c:140-160; `E t` is the equality of the type `t` -/
def count (E : Nat → V → V → Bool) (first last : Addr) (value : Loc) : M V Nat :=
  if first = 0 ∨ last = 0 ∨ value.1 = 0 then pure 0 else do
  atLeast first 1
  atLeast last 1
  let f ← newCopy first
  let l ← newCopy last
  let n ← countLoop (fun x => equalV E x value) f l 0
  free f
  free l
  pure n

/-- `algo_count_if`, c_non_modifying.c:162-182 -/
def countIf (first last : Addr) (pred : V → Bool) : M V Nat :=
  if first = 0 ∨ last = 0 then pure 0 else do
  atLeast first 1
  atLeast last 1
  let f ← newCopy first
  let l ← newCopy last
  let n ← countLoop (testAt pred) f l 0
  free f
  free l
  pure n

/-- loop of `algo_mismatch_by`, c_non_modifying.c:205-208, and `algo_equal_by` (239-242) -/
def mismatchLoop (pred : V → V → Bool) (f1 l1 f2 : Addr) : M V Unit := do
  let b ← cNe f1 l1
  if b then do
    let b ← cmpAt pred f1 f2
    if b then do
      let _ ← cInc f1
      let _ ← cInc f2
      mismatchLoop pred f1 l1 f2
    else pure ()
  else pure ()
partial_fixpoint

/-- `algo_mismatch_by`, c_non_modifying.c:184-223 -/
def mismatch (first1 last1 first2 : Addr) (mismatch1 mismatch2 : Out) (pred : V → V → Bool) : M V (Bool × Addr × Addr) :=
  if first1 = 0 ∨ last1 = 0 ∨ first2 = 0 then pure (false, 0, 0) else do
  atLeast first1 1
  atLeast last1 1
  atLeast first2 1
  mismatch1.atLeast 1
  mismatch2.atLeast 1
  let f1 ← newCopy first1
  let l1 ← newCopy last1
  let f2 ← newCopy first2
  mismatchLoop pred f1 l1 f2
  let ret ← cNe f1 l1
  let m1 ← newCopy f1
  let m2 ← newCopy f2
  let o1 ← mismatch1.set m1
  let o2 ← mismatch2.set m2
  free m2
  free m1
  free f1
  free l1
  free f2
  pure (ret, o1, o2)

/-- `algo_equal_by`, c_non_modifying.c:225-248 -/
def equal (first1 last1 first2 : Addr) (pred : V → V → Bool) : M V Bool :=
  if first1 = 0 ∨ last1 = 0 ∨ first2 = 0 then pure false else do
  atLeast first1 1
  atLeast last1 1
  atLeast first2 1
  let f1 ← newCopy first1
  let l1 ← newCopy last1
  let f2 ← newCopy first2
  mismatchLoop pred f1 l1 f2
  let ret ← cEq f1 l1
  free f1
  free l1
  free f2
  pure ret

/-- `algo_find_by`, c_non_modifying.c:250-275 -/
def findBy (first last : Addr) (found : Out) (value : Loc) (pred : V → V → Bool) : M V (Bool × Addr) :=
  if first = 0 ∨ last = 0 ∨ value.1 = 0 then pure (false, 0) else do
  atLeast first 1
  atLeast last 1
  found.atLeast 1
  let f ← newCopy first
  let l ← newCopy last
  scan (fun x => notM (cmpV pred x value)) f l
  let ret ← cNe f l
  let o ← found.set f
  free f
  free l
  pure (ret, o)

/-- `algo_find_if`, c_non_modifying.c:277-301 -/
def findIf (first last : Addr) (found : Out) (pred : V → Bool) : M V (Bool × Addr) :=
  if first = 0 ∨ last = 0 then pure (false, 0) else do
  atLeast first 1
  atLeast last 1
  found.atLeast 1
  let f ← newCopy first
  let l ← newCopy last
  scan (fun x => notM (testAt pred x)) f l
  let ret ← cNe f l
  let o ← found.set f
  free f
  free l
  pure (ret, o)

/-- `algo_find_if_not`, c_non_modifying.c:303-327 -/
def findIfNot (first last : Addr) (found : Out) (pred : V → Bool) : M V (Bool × Addr) :=
  if first = 0 ∨ last = 0 then pure (false, 0) else do
  atLeast first 1
  atLeast last 1
  found.atLeast 1
  let f ← newCopy first
  let l ← newCopy last
  scan (testAt pred) f l
  let ret ← cNe f l
  let o ← found.set f
  free f
  free l
  pure (ret, o)

/-- inner loop of `algo_find_first_of_by`, c_non_modifying.c:349-355 -/
def amongLoop (pred : V → V → Bool) (f sf sl : Addr) : M V Bool := do
  let b ← cNe sf sl
  if b then do
    let b ← cmpAt pred f sf
    if b then pure true
    else do
      let _ ← cInc sf
      amongLoop pred f sf sl
  else pure false
partial_fixpoint

/-- outer loop of `algo_find_first_of_by`, c_non_modifying.c:347-357: `is_found` -/
def findFirstOfLoop (pred : V → V → Bool) (f l sf sl sFirst : Addr) : M V Bool := do
  let b ← cNe f l
  if b then do
    let _ ← cAssign sf sFirst
    let b ← amongLoop pred f sf sl
    if b then pure true
    else do
      let _ ← cInc f
      findFirstOfLoop pred f l sf sl sFirst
  else pure false
partial_fixpoint

/-- `algo_find_first_of_by`, c_non_modifying.c:329-364 -/
def findFirstOf (first last sFirst sLast : Addr) (found : Out) (pred : V → V → Bool) : M V (Bool × Addr) :=
  if first = 0 ∨ last = 0 ∨ sFirst = 0 ∨ sLast = 0 then pure (false, 0) else do
  atLeast first 1
  atLeast last 1
  atLeast sFirst 2
  atLeast sLast 2
  found.atLeast 1
  let f ← newCopy first
  let l ← newCopy last
  let sf ← newCopy sFirst
  let sl ← newCopy sLast
  let b ← findFirstOfLoop pred f l sf sl sFirst
  let o ← found.set f
  free f
  free l
  free sf
  free sl
  pure (b, o)

/-- The loop `while (search(first, last, &first)) { is_found = true; found = first; ++first; }` of `algo_find_last_of_by`, c_non_modifying.c:387-391, `algo_search_last_by` (520-524) and
`algo_search_last_n_by` (611-615); `search` moves `first` -/
def lastLoop (search : M V Bool) (f fd : Addr) (acc : Bool) : M V Bool := do
  let b ← search
  if b then do
    let _ ← cAssign fd f
    let _ ← cInc f
    lastLoop search f fd true
  else pure acc
partial_fixpoint

/-- `algo_find_last_of_by`, c_non_modifying.c:366-400 -/
def findLastOf (first last sFirst sLast : Addr) (found : Out) (pred : V → V → Bool) : M V (Bool × Addr) :=
  if first = 0 ∨ last = 0 ∨ sFirst = 0 ∨ sLast = 0 then pure (false, 0) else do
  atLeast first 1
  atLeast last 1
  atLeast sFirst 2
  atLeast sLast 2
  found.atLeast 1
  let f ← newCopy first
  let l ← newCopy last
  let sf ← newCopy sFirst
  let sl ← newCopy sLast
  let fd ← newCopy l
  let b ← lastLoop (do
    let r ← findFirstOf f l sFirst sLast (.val f) pred
    pure r.1) f fd false
  let o ← found.set fd
  free fd
  free f
  free l
  free sf
  free sl
  pure (b, o)

/-- loop of `algo_adjacent_find_by`, c_non_modifying.c:426-429 -/
def adjacentLoop (pred : V → V → Bool) (f next l : Addr) : M V Unit := do
  let b ← cNe next l
  if b then do
    let b ← cmpAt pred f next
    if !b then do
      let _ ← cAssign f next
      let _ ← cInc next
      adjacentLoop pred f next l
    else pure ()
  else pure ()
partial_fixpoint

/-- `algo_adjacent_find_by`, c_non_modifying.c:402-441 -/
def adjacentFind (first last : Addr) (found : Out) (pred : V → V → Bool) : M V (Bool × Addr) :=
  if first = 0 ∨ last = 0 then pure (false, 0) else do
  atLeast first 2
  atLeast last 2
  found.atLeast 2
  let b ← cEq first last
  if b then do
    let o ← found.set last
    pure (false, o)
  else do
    let f ← newCopy first
    let l ← newCopy last
    let fd ← newCopy l
    let next ← copyMove 0 f 1
    adjacentLoop pred f next l
    let b ← cNe next l
    (if b then do
      let _ ← cAssign fd f
      pure ()
    else pure ())
    let o ← found.set fd
    free next
    free fd
    free f
    free l
    pure (b, o)

/-- inner loop of `algo_search_by`, c_non_modifying.c:470-474 -/
def matchLoop (pred : V → V → Bool) (i l s sl : Addr) : M V Unit := do
  let b ← cNe i l
  if b then do
    let b ← cNe s sl
    if b then do
      let b ← cmpAt pred i s
      if b then do
        let _ ← cInc i
        let _ ← cInc s
        matchLoop pred i l s sl
      else pure ()
    else pure ()
  else pure ()
partial_fixpoint

/-- outer loop of `algo_search_by`, c_non_modifying.c:469-484: `is_found` -/
def searchLoop (pred : V → V → Bool) (f l sf sl i s : Addr) : M V Bool := do
  let b ← cNe f l
  if b then do
    matchLoop pred i l s sl
    let b ← cEq s sl
    if b then pure true
    else do
      let _ ← cInc f
      let _ ← cAssign i f
      let _ ← cAssign s sf
      searchLoop pred f l sf sl i s
  else pure false
partial_fixpoint

/-- `algo_search_by`, c_non_modifying.c:443-497 -/
def search (first last sFirst sLast : Addr) (found : Out) (pred : V → V → Bool) : M V (Bool × Addr) :=
  if first = 0 ∨ last = 0 ∨ sFirst = 0 ∨ sLast = 0 then pure (false, 0) else do
  atLeast first 2
  atLeast last 2
  atLeast sFirst 2
  atLeast sLast 2
  found.atLeast 2
  let f ← newCopy first
  let l ← newCopy last
  let sf ← newCopy sFirst
  let sl ← newCopy sLast
  let fd ← newCopy l
  let i ← newCopy f
  let s ← newCopy sf
  let b ← searchLoop pred f l sf sl i s
  (if b then do
    let _ ← cAssign fd f
    pure ()
  else pure ())
  let o ← found.set fd
  free s
  free i
  free fd
  free f
  free l
  free sf
  free sl
  pure (b, o)

/-- `algo_search_last_by`, c_non_modifying.c:499-533 -/
def searchLast (first last sFirst sLast : Addr) (found : Out) (pred : V → V → Bool) : M V (Bool × Addr) :=
  if first = 0 ∨ last = 0 ∨ sFirst = 0 ∨ sLast = 0 then pure (false, 0) else do
  atLeast first 2
  atLeast last 2
  atLeast sFirst 2
  atLeast sLast 2
  found.atLeast 2
  let f ← newCopy first
  let l ← newCopy last
  let sf ← newCopy sFirst
  let sl ← newCopy sLast
  let fd ← newCopy l
  let b ← lastLoop (do
    let r ← search f l sf sl (.val f) pred
    pure r.1) f fd false
  let o ← found.set fd
  free fd
  free f
  free l
  free sf
  free sl
  pure (b, o)

/-- inner loop of `algo_search_n_by`, c_non_modifying.c:565-568: the final value of `__n` -/
def runLoop (value : Loc) (pred : V → V → Bool) (n : Nat) (i l : Addr) : M V Nat :=
  if n ≠ 0 then do
    let b ← cNe i l
    if b then do
      let b ← cmpV pred i value
      if b then do
        let _ ← cInc i
        runLoop value pred (n - 1) i l
      else pure n
    else pure n
  else pure n
partial_fixpoint

/-- outer loop of `algo_search_n_by`, c_non_modifying.c:561-574: `is_found` -/
def searchNLoop (value : Loc) (pred : V → V → Bool) (n : Nat) (f i l : Addr) : M V Bool := do
  let r ← findBy i l (.val f) value pred
  if r.1 then do
    let _ ← cAssign i f
    let _ ← cInc i
    let m ← runLoop value pred (n - 1) i l
    if m = 0 then pure true else searchNLoop value pred n f i l
  else pure false
partial_fixpoint

/-- `algo_search_n_by`, c_non_modifying.c:535-585 -/
def searchN (first last : Addr) (n : Nat) (value : Loc) (found : Out) (pred : V → V → Bool) : M V (Bool × Addr) :=
  if first = 0 ∨ last = 0 ∨ value.1 = 0 then pure (false, 0) else do
  atLeast first 2
  atLeast last 2
  found.atLeast 2
  if n = 0 then do
    let o ← found.set last
    pure (false, o)
  else do
    let f ← newCopy first
    let l ← newCopy last
    let fd ← newCopy l
    let i ← newCopy f
    let b ← searchNLoop value pred n f i l
    (if b then do
      let _ ← cAssign fd f
      pure ()
    else pure ())
    let o ← found.set fd
    free i
    free fd
    free f
    free l
    pure (b, o)

/-- `algo_search_last_n_by`, c_non_modifying.c:587-624 -/
def searchLastN (first last : Addr) (n : Nat) (value : Loc) (found : Out) (pred : V → V → Bool) : M V (Bool × Addr) :=
  if first = 0 ∨ last = 0 ∨ value.1 = 0 then pure (false, 0) else do
  atLeast first 2
  atLeast last 2
  found.atLeast 2
  if n = 0 then do
    let o ← found.set last
    pure (false, o)
  else do
    let f ← newCopy first
    let l ← newCopy last
    let fd ← newCopy l
    let b ← lastLoop (do
      let r ← searchN f l n value (.val f) pred
      pure r.1) f fd false
    let o ← found.set fd
    free fd
    free f
    free l
    pure (b, o)

end CC.IAlgo
