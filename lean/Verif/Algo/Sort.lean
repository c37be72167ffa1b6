import Verif.Algo.Heap
/-!
# Model of `algorithm/c_sorting.c`
-/
namespace CC.Algo
open CC
variable {V : Type}

/-- loop of `algo_partial_sort_by`, c_sorting.c:390-397 -/
def partialSortLoop (c : Slots) (comp : V → V → Bool) (first middle last it : Nat) : M V Unit :=
  if it ≠ last then do
    if ← cmp comp (c it) (c first) then do
      popHeap c first middle comp
      swp (c (middle - 1)) (c it)
      pushHeap c first middle comp
      partialSortLoop c comp first middle last (it + 1)
    else partialSortLoop c comp first middle last (it + 1)
  else pure ()
partial_fixpoint

/-- `algo_partial_sort_by`, c_sorting.c:367-405 -/
def partialSort (c : Slots) (first middle last : Nat) (comp : V → V → Bool) : M V Unit :=
  if first = middle then pure () else do
  makeHeap c first middle comp
  partialSortLoop c comp first middle last middle
  sortHeap c first middle comp

/-- first loop of `algo_partial_sort_copy_by`, c_sorting.c:438-443; returns the final `n`, `__i` and `__d` -/
def pscCopyLoop (c d : Slots) (last dLast n it dt : Nat) : M V (Nat × Nat × Nat) :=
  if it ≠ last ∧ dt ≠ dLast then do
    asg (d dt) (c it)
    pscCopyLoop c d last dLast (n + 1) (it + 1) (dt + 1)
  else pure (n, it, dt)
partial_fixpoint

/-- second loop of `algo_partial_sort_copy_by`, c_sorting.c:448-455 -/
def pscLoop (c d : Slots) (comp : V → V → Bool) (last dFirst dt it : Nat) : M V Unit :=
  if it ≠ last then do
    if ← cmp comp (c it) (d dFirst) then do
      popHeap d dFirst dt comp
      asg (d (dt - 1)) (c it)
      pushHeap d dFirst dt comp
      pscLoop c d comp last dFirst dt (it + 1)
    else pscLoop c d comp last dFirst dt (it + 1)
  else pure ()
partial_fixpoint

/-- `algo_partial_sort_copy_by`, c_sorting.c:407-468; returns the result and `*d_upper` -/
def partialSortCopy (c : Slots) (first last : Nat) (d : Slots) (dFirst dLast : Nat) (comp : V → V → Bool) : M V (Nat × Nat) :=
  if first = last ∨ dFirst = dLast then pure (0, dFirst) else do
  let r ← pscCopyLoop c d last dLast 0 first dFirst
  makeHeap d dFirst r.2.2 comp
  pscLoop c d comp last dFirst r.2.2 r.2.1
  sortHeap d dFirst r.2.2 comp
  pure (r.1, r.2.2)

/-- `__lg`, c_sorting.c:33-38 -/
def lg (n : Nat) : Nat := if n > 1 then lg (n / 2) + 1 else 0

/-- `__median_of_three_by`, c_sorting.c:41-73; the value of the copy -/
def median (x y z : Loc) (comp : V → V → Bool) : M V V := do
  if ← cmp comp x y then do
    if ← cmp comp y z then ldV y
    else do
      if ← cmp comp x z then ldV z else ldV x
  else do
    if ← cmp comp x z then ldV x
    else do
      if ← cmp comp y z then ldV z else ldV y

/-- the first inner loop of `__partition_by`, c_sorting.c:86-88 -/
def upScan (c : Slots) (comp : V → V → Bool) (pivot : V) (first : Nat) : M V Nat := do
  if ← test (fun a => comp a pivot) (c first) then upScan c comp pivot (first + 1) else pure first
partial_fixpoint

/-- the second inner loop of `__partition_by`, c_sorting.c:92-94 -/
def downScan (c : Slots) (comp : V → V → Bool) (pivot : V) (last : Nat) : M V Nat := do
  if ← test (fun a => comp pivot a) (c last) then do
    let last ← dec last
    downScan c comp pivot last
  else pure last
partial_fixpoint

/-- `__partition_by`, c_sorting.c:76-108; returns `*second_first` -/
def hoare (c : Slots) (comp : V → V → Bool) (pivot : V) (first last : Nat) : M V Nat := do
  let first ← upScan c comp pivot first
  let last ← dec last
  let last ← downScan c comp pivot last
  if first < last then do
    swp (c first) (c last)
    hoare c comp pivot (first + 1) last
  else pure first
partial_fixpoint

/-- `__s_threshold`, c_sorting.c:30 -/
def threshold : Nat := 512

/-- `__introspective_sort_by`, c_sorting.c:111-159; the next round of the loop is the second recursive call (with `__last = __part`) -/
def introsort (c : Slots) (comp : V → V → Bool) : Nat → Nat → Nat → M V Unit
  | 0, first, last => if last - first > threshold then partialSort c first last last comp else pure ()
  | depth + 1, first, last =>
    if last - first > threshold then do
      let pivot ← median (c first) (c (first + (last - first) / 2)) (c (last - 1)) comp
      let part ← hoare c comp pivot first last
      introsort c comp depth part last
      introsort c comp depth first part
    else pure ()

/-- loop of `__unguarded_linear_sort_by`, c_sorting.c:174-178; `val` reads the argument `value`.  Returns the final `__last`. -/
def ulLoop (c : Slots) (val : M V V) (comp : V → V → Bool) (last next : Nat) : M V Nat := do
  let v ← val
  let a ← ldV (c next)
  if comp v a then do
    asg (c last) (c next)
    let next' ← dec next
    ulLoop c val comp next next'
  else pure last
partial_fixpoint

/-- `__unguarded_linear_sort_by`, c_sorting.c:162-185 -/
def unguardedLinear (c : Slots) (val : M V V) (comp : V → V → Bool) (last : Nat) : M V Unit := do
  let next ← dec last
  let l ← ulLoop c val comp last next
  let v ← val
  wr (c l) v

/-- `__linear_sort_by`, c_sorting.c:188-222 -/
def linearSort (c : Slots) (first last : Nat) (comp : V → V → Bool) : M V Unit := do
  let v ← ldV (c last)
  let a ← ldV (c first)
  if comp v a then do
    let _ ← copyBackward c first last c (last + 1)
    wr (c first) v
  else unguardedLinear c (pure v) comp last

/-- loop of `__insertion_sort_by`, c_sorting.c:235-238 -/
def insertionLoop (c : Slots) (comp : V → V → Bool) (first it last : Nat) : M V Unit :=
  if it ≠ last then do
    linearSort c first it comp
    insertionLoop c comp first (it + 1) last
  else pure ()
partial_fixpoint

/-- `__insertion_sort_by`, c_sorting.c:225-243 -/
def insertionSort (c : Slots) (first last : Nat) (comp : V → V → Bool) : M V Unit :=
  if first = last then pure () else insertionLoop c comp first (first + 1) last

/-- `__unguarded_insertion_sort_by`, c_sorting.c:246-263.  The value handed to `__unguarded_linear_sort_by` is a reference to the element itself. -/
def unguardedInsertion (c : Slots) (comp : V → V → Bool) (it last : Nat) : M V Unit :=
  if it ≠ last then do
    unguardedLinear c (ldV (c it)) comp it
    unguardedInsertion c comp (it + 1) last
  else pure ()
partial_fixpoint

/-- `__final_insertion_sort_by`, c_sorting.c:266-285 -/
def finalSort (c : Slots) (first last : Nat) (comp : V → V → Bool) : M V Unit :=
  if last - first > threshold then do
    insertionSort c first (first + threshold) comp
    unguardedInsertion c comp (first + threshold) last
  else insertionSort c first last comp

/-- `algo_sort_by`, c_sorting.c:348-365 -/
def sort (c : Slots) (first last : Nat) (comp : V → V → Bool) : M V Unit :=
  if first = last then pure () else do
  introsort c comp (lg (last - first) * 2) first last
  finalSort c first last comp

/-- loop of `algo_is_sorted_until_by`, c_sorting.c:332-339; returns `__is_sorted` and `__first` -/
def sortedLoop (c : Slots) (comp : V → V → Bool) (first next last : Nat) : M V (Bool × Nat) :=
  if next ≠ last then do
    if ← cmp comp (c next) (c first) then pure (false, first)
    else sortedLoop c comp (first + 1) (next + 1) last
  else pure (true, first)
partial_fixpoint

/-- `algo_is_sorted_until_by`, c_sorting.c:309-346; returns `*until` -/
def isSortedUntil (c : Slots) (first last : Nat) (comp : V → V → Bool) : M V Nat :=
  if first = last then pure last else do
  let r ← sortedLoop c comp first (first + 1) last
  pure (if r.1 then last else r.2)

/-- `algo_is_sorted_by`, c_sorting.c:287-307 -/
def isSorted (c : Slots) (first last : Nat) (comp : V → V → Bool) : M V Bool := do
  let u ← isSortedUntil c first last comp
  pure (u == last)

end CC.Algo
