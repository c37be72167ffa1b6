import Verif.IAlgo.Heap
import Verif.IAlgo.Modify
import Verif.Algo.Sort
/-!
# Model of `algorithm/c_sorting.c` with iterator objects
-/
namespace CC.IAlgo
open CC CC.Iter CC.Algo
variable {V : Type}

/-- loop of `algo_partial_sort_by`, c_sorting.c:390-397 -/
def partialSortLoop (Z : Nat → Nat) (comp : V → V → Bool) (f m l mp it : Addr) : M V Unit := do
  let b ← cNe it l
  if b then do
    let b ← cmpAt comp it f
    (if b then do
      popHeap Z f m comp
      iterSwap mp it
      pushHeap Z f m comp
    else pure ())
    let _ ← cInc it
    partialSortLoop Z comp f m l mp it
  else pure ()
partial_fixpoint

/-- `algo_partial_sort_by`, c_sorting.c:367-405 -/
def partialSort (Z : Nat → Nat) (first middle last : Addr) (comp : V → V → Bool) : M V Unit :=
  if first = 0 ∨ middle = 0 ∨ last = 0 then pure () else do
  exactly first 4
  exactly middle 4
  exactly last 4
  isMutable first
  isMutable middle
  let b ← cEq first middle
  if b then pure () else do
  let f ← newCopy first
  let m ← newCopy middle
  let l ← newCopy last
  let it ← newCopy m
  let mp ← copyMove 0 m (-1)
  makeHeap Z f m comp
  partialSortLoop Z comp f m l mp it
  sortHeap Z f m comp
  free it
  free mp
  free f
  free m
  free l

/-- first loop of `algo_partial_sort_copy_by`, c_sorting.c:438-443 -/
def pscCopyLoop (l dl it d : Addr) (n : Nat) : M V Nat := do
  let b ← cNe it l
  let b ← (if b then cNe d dl else pure false)
  if b then do
    assignAt d it
    let _ ← cInc d
    let _ ← cInc it
    pscCopyLoop l dl it d (n + 1)
  else pure n
partial_fixpoint

/-- second loop of `algo_partial_sort_copy_by`, c_sorting.c:448-455 -/
def pscLoop (Z : Nat → Nat) (comp : V → V → Bool) (l df d dp it : Addr) : M V Unit := do
  let b ← cNe it l
  if b then do
    let b ← cmpAt comp it df
    (if b then do
      popHeap Z df d comp
      assignAt dp it
      pushHeap Z df d comp
    else pure ())
    let _ ← cInc it
    pscLoop Z comp l df d dp it
  else pure ()
partial_fixpoint

/-- `algo_partial_sort_copy_by`, c_sorting.c:407-468 -/
def partialSortCopy (Z : Nat → Nat) (first last dFirst dLast : Addr) (dUpper : Out) (comp : V → V → Bool) : M V (Nat × Addr) :=
  if first = 0 ∨ last = 0 ∨ dFirst = 0 ∨ dLast = 0 then pure (0, 0) else do
  atLeast first 2
  atLeast last 2
  exactly dFirst 4
  exactly dLast 4
  dUpper.exactly 4
  isMutable dFirst
  let b ← cEq first last
  let b ← (if b then pure true else cEq dFirst dLast)
  if b then do
    let o ← dUpper.set dFirst
    pure (0, o)
  else do
  let f ← newCopy first
  let l ← newCopy last
  let df ← newCopy dFirst
  let dl ← newCopy dLast
  let it ← newCopy f
  let d ← newCopy df
  let n ← pscCopyLoop l dl it d 0
  let dp ← copyMove 0 d (-1)
  makeHeap Z df d comp
  pscLoop Z comp l df d dp it
  sortHeap Z df d comp
  let o ← dUpper.set d
  free dp
  free d
  free it
  free f
  free l
  free df
  free dl
  pure (n, o)

/-- `__median_of_three_by`, c_sorting.c:41-73; the references are those of three iterators; returns the address of the allocated copy -/
def median (x y z : Loc) (comp : V → V → Bool) : M V Addr := do
  let t ← mallocO 1
  let b ← cmp comp x y
  let v ← (if b then do
    let b ← cmp comp y z
    if b then ldV y
    else do
      let b ← cmp comp x z
      if b then ldV z else ldV x
  else do
    let b ← cmp comp x z
    if b then ldV x
    else do
      let b ← cmp comp y z
      if b then ldV z else ldV y)
  if t = 0 then ub else do
  construct (t, 1) v
  pure t

/-- the first inner loop of `__partition_by`, c_sorting.c:86-88 -/
def upScan (comp : V → V → Bool) (pivot : Loc) (f : Addr) : M V Unit := do
  let b ← cmpV comp f pivot
  if b then do
    let _ ← cInc f
    upScan comp pivot f
  else pure ()
partial_fixpoint

/-- the second inner loop of `__partition_by`, c_sorting.c:92-94 -/
def downScan (comp : V → V → Bool) (pivot : Loc) (l : Addr) : M V Unit := do
  let b ← vCmp comp pivot l
  if b then do
    let _ ← cDec l
    downScan comp pivot l
  else pure ()
partial_fixpoint

/-- loop of `__partition_by`, c_sorting.c:84-105; at its end `__first` is assigned to `second_first` (by the caller here) -/
def hoareLoop (comp : V → V → Bool) (pivot : Loc) (f l : Addr) : M V Unit := do
  upScan comp pivot f
  let _ ← cDec l
  downScan comp pivot l
  let b ← cLess f l
  if b then do
    iterSwap f l
    let _ ← cInc f
    hoareLoop comp pivot f l
  else pure ()
partial_fixpoint

/-- `__partition_by`, c_sorting.c:76-108, with `second_first` the address of a local variable that is NULL; returns its new value -/
def hoare (comp : V → V → Bool) (pivot : Loc) (first last : Addr) : M V Addr := do
  let f ← newCopy first
  let l ← newCopy last
  hoareLoop comp pivot f l
  let o ← Out.set (.val 0) f
  free f
  free l
  pure o

/-- `__introspective_sort_by`, c_sorting.c:111-159, given its loop -/
def introWith (loop : Addr → Addr → Addr → Addr → M V (Addr × Addr)) (first last : Addr) : M V Unit := do
  let _ ← typeOf first
  let f ← newCopy first
  let l ← newCopy last
  let q ← loop f l 0 0
  free q.2
  free q.1
  free f
  free l

/-- loop of `__introspective_sort_by`, c_sorting.c:126-153; `m`, `lp` are the values of `__middle`, `__last_prev`; returns their last values.  The loop ends with depth 0, the recursive call has a smaller depth. -/
def introLoop (Z : Nat → Nat) (comp : V → V → Bool) : Nat → Addr → Addr → Addr → Addr → M V (Addr × Addr)
  | 0, f, l, m, lp => do
    let d ← cDistance Z f l
    (if d > threshold then partialSort Z f l l comp else pure ())
    pure (m, lp)
  | depth + 1, f, l, m, lp => do
    let d ← cDistance Z f l
    if d > threshold then do
      let d ← cDistance Z f l
      let m ← copyMove m f (d.toNat / 2 : Nat)
      let lp ← copyMove lp l (-1)
      let a ← cDeref f
      let b ← cDeref m
      let c ← cDeref lp
      let t ← median a b c comp
      let part ← hoare comp (t, 1) f l
      introWith (introLoop Z comp depth) part l
      let _ ← cAssign l part
      destroyV (t, 1)
      freeV t
      free part
      introLoop Z comp depth f l m lp
    else pure (m, lp)

/-- `__introspective_sort_by`, c_sorting.c:111-159 -/
def introsort (Z : Nat → Nat) (first last : Addr) (depth : Nat) (comp : V → V → Bool) : M V Unit := introWith (introLoop Z comp depth) first last

/-- loop of `__unguarded_linear_sort_by`, c_sorting.c:174-178 -/
def ulLoop (value : Loc) (comp : V → V → Bool) (l n : Addr) : M V Unit := do
  let b ← vCmp comp value n
  if b then do
    assignAt l n
    let _ ← cAssign l n
    let _ ← cDec n
    ulLoop value comp l n
  else pure ()
partial_fixpoint

/-- `__unguarded_linear_sort_by`, c_sorting.c:162-185 -/
def unguardedLinear (last : Addr) (value : Loc) (comp : V → V → Bool) : M V Unit := do
  let l ← newCopy last
  let n ← copyMove 0 l (-1)
  ulLoop value comp l n
  assignV l value
  free n
  free l

/-- `__linear_sort_by`, c_sorting.c:188-222 -/
def linearSort (low : Addr → Nat) (first last : Addr) (comp : V → V → Bool) : M V Unit := do
  let f ← newCopy first
  let l ← newCopy last
  let _ ← typeOf f
  let t ← mallocO 1
  cassert (decide (t ≠ 0))
  let a ← cDeref l
  let v ← ldV a
  construct (t, 1) v
  let b ← vCmp comp (t, 1) f
  (if b then do
    let ln ← copyMove 0 l 1
    let _ ← copyBackward low f l ln (.var (0, 0))
    assignV f (t, 1)
    free ln
  else unguardedLinear l (t, 1) comp)
  destroyV (t, 1)
  freeV t
  free f
  free l

/-- loop of `__insertion_sort_by`, c_sorting.c:235-238 -/
def insertionLoop (low : Addr → Nat) (comp : V → V → Bool) (f it l : Addr) : M V Unit := do
  let b ← cNe it l
  if b then do
    linearSort low f it comp
    let _ ← cInc it
    insertionLoop low comp f it l
  else pure ()
partial_fixpoint

/-- `__insertion_sort_by`, c_sorting.c:225-243 -/
def insertionSort (low : Addr → Nat) (first last : Addr) (comp : V → V → Bool) : M V Unit := do
  let b ← cEq first last
  if b then pure () else do
  let f ← newCopy first
  let l ← newCopy last
  let it ← copyMove 0 f 1
  insertionLoop low comp f it l
  free it
  free f
  free l

/-- loop of `__unguarded_insertion_sort_by`, c_sorting.c:255-258 -/
def unguardedLoop (comp : V → V → Bool) (it l : Addr) : M V Unit := do
  let b ← cNe it l
  if b then do
    let a ← cDeref it
    unguardedLinear it a comp
    let _ ← cInc it
    unguardedLoop comp it l
  else pure ()
partial_fixpoint

/-- `__unguarded_insertion_sort_by`, c_sorting.c:246-263 -/
def unguardedInsertion (first last : Addr) (comp : V → V → Bool) : M V Unit := do
  let f ← newCopy first
  let l ← newCopy last
  let it ← newCopy f
  unguardedLoop comp it l
  free it
  free f
  free l

/-- `__final_insertion_sort_by`, c_sorting.c:266-285 -/
def finalSort (Z : Nat → Nat) (low : Addr → Nat) (first last : Addr) (comp : V → V → Bool) : M V Unit := do
  let f ← newCopy first
  let l ← newCopy last
  let d ← cDistance Z f l
  let part ← (if d > threshold then do
    let part ← copyMove 0 f threshold
    insertionSort low f part comp
    unguardedInsertion part l comp
    pure part
  else do
    insertionSort low f l comp
    pure 0)
  free part
  free f
  free l

/-- `algo_sort_by`, c_sorting.c:348-365 -/
def sort (Z : Nat → Nat) (low : Addr → Nat) (first last : Addr) (comp : V → V → Bool) : M V Unit :=
  if first = 0 ∨ last = 0 then pure () else do
  exactly first 4
  exactly last 4
  isMutable first
  let b ← cEq first last
  if b then pure () else do
  let f ← newCopy first
  let l ← newCopy last
  let d ← cDistance Z f l
  introsort Z f l (lg d.toNat * 2) comp
  finalSort Z low f l comp
  free f
  free l

/-- loop of `algo_is_sorted_until_by`, c_sorting.c:332-339; returns `__is_sorted` -/
def sortedLoop (comp : V → V → Bool) (f n l : Addr) : M V Bool := do
  let b ← cNe n l
  if b then do
    let b ← cmpAt comp n f
    if b then pure false else do
    let _ ← cInc f
    let _ ← cInc n
    sortedLoop comp f n l
  else pure true
partial_fixpoint

/-- `algo_is_sorted_until_by`, c_sorting.c:309-346 -/
def isSortedUntil (first last : Addr) (until_ : Out) (comp : V → V → Bool) : M V Addr :=
  if first = 0 ∨ last = 0 ∨ until_.isNull = true then pure 0 else do
  atLeast first 2
  atLeast last 2
  until_.atLeast 2
  let b ← cEq first last
  if b then until_.set last else do
  let f ← newCopy first
  let l ← newCopy last
  let n ← newCopy f
  let _ ← cInc n
  let q ← sortedLoop comp f n l
  let o ← until_.set (if q then l else f)
  free n
  free f
  free l
  pure o

/-- `algo_is_sorted_by`, c_sorting.c:287-307 -/
def isSorted (first last : Addr) (comp : V → V → Bool) : M V Bool :=
  if first = 0 ∨ last = 0 then pure false else do
  atLeast first 2
  atLeast last 2
  let f ← newCopy first
  let l ← newCopy last
  let u ← isSortedUntil f l (.val 0) comp
  let b ← cEq u l
  free u
  free f
  free l
  pure b

end CC.IAlgo
