import Verif.IAlgo.Base
/-!
# Model of `algorithm/c_heap.c` with iterator objects

The local iterators `__hole`, `__left`, … are NULL at first; `__c_iter_copy_and_move` allocates them in the first round and assigns them later.  Indices are not negative, except at the end of the
loop of `__heapify`.
-/
namespace CC.IAlgo
open CC CC.Iter CC.Algo
variable {V : Type}

/-- loop of `__percolate_down`, c_heap.c:61-87; `h`, `s`, `l`, `r` are the values of `__hole`, `__swap`, `__left`, `__right`; returns their last values -/
def percolateLoop (f : Addr) (length : Nat) (comp : V → V → Bool) (hole : Nat) (h s l r : Addr) : M V (Addr × Addr × Addr × Addr) := do
  let h ← copyMove h f hole
  let s ← copyMove s f hole
  let left := 2 * hole + 1
  let l ← copyMove l f left
  let b ← (if left < length then cmpAt comp h l else pure false)
  let sw := if b then left else hole
  let s ← (if b then copyMove s f left else pure s)
  let right := 2 * (hole + 1)
  let r ← copyMove r f right
  let b ← (if right < length then cmpAt comp s r else pure false)
  let sw := if b then right else sw
  let s ← (if b then copyMove s f right else pure s)
  if sw ≠ hole then do
    iterSwap h s
    percolateLoop f length comp sw h s l r
  else pure (h, s, l, r)
partial_fixpoint

/-- `__percolate_down`, c_heap.c:45-95 -/
def percolate (first : Addr) (length hole : Nat) (comp : V → V → Bool) : M V Unit := do
  let f ← newCopy first
  let q ← percolateLoop f length comp hole 0 0 0 0
  free q.1
  free q.2.1
  free q.2.2.1
  free q.2.2.2
  free f

/-- loop of `__heapify`, c_heap.c:105-108, for hole indices below the given number -/
def heapifyLoop (f : Addr) (length : Nat) (comp : V → V → Bool) : Nat → M V Unit
  | 0 => pure ()
  | k + 1 => do
    percolate f length k comp
    heapifyLoop f length comp k

/-- `__heapify`, c_heap.c:97-111 (called with at least two elements, so that `__get_parent(length - 1)` is not negative) -/
def heapify (Z : Nat → Nat) (first last : Addr) (comp : V → V → Bool) : M V Unit := do
  let f ← newCopy first
  let l ← newCopy last
  let d ← cDistance Z f l
  heapifyLoop f d.toNat comp ((d.toNat - 1 - 1) / 2 + 1)
  free f
  free l

/-- loop of `algo_is_heap_until_by`, c_heap.c:156-175; `p`, `l`, `r` are the values of `__parent`, `__left`, `__right`; returns `__is_heap` and their last values -/
def isHeapLoop (f : Addr) (dist : Nat) (comp : V → V → Bool) (parent : Nat) (p l r : Addr) : M V (Bool × Addr × Addr × Addr) :=
  if 2 * parent + 1 < dist then do
    let p ← copyMove p f parent
    let l ← copyMove l f ((2 * parent + 1 : Nat))
    let b ← cmpAt comp p l
    if b then pure (false, p, l, r) else do
    let r ← copyMove r f ((2 * (parent + 1) : Nat))
    let b ← (if 2 * (parent + 1) < dist then cmpAt comp p r else pure false)
    if b then pure (false, p, l, r) else
    isHeapLoop f dist comp (parent + 1) p l r
  else pure (true, p, l, r)
partial_fixpoint

/-- `algo_is_heap_until_by`, c_heap.c:135-184 -/
def isHeapUntil (Z : Nat → Nat) (first last : Addr) (until_ : Out) (comp : V → V → Bool) : M V Addr :=
  if first = 0 ∨ last = 0 ∨ until_.isNull = true then pure 0 else do
  exactly first 4
  exactly last 4
  until_.exactly 4
  let f ← newCopy first
  let l ← newCopy last
  let d ← cDistance Z f l
  let q ← isHeapLoop f d.toNat comp 0 0 0 0
  let o ← until_.set (if q.1 then l else q.2.1)
  free q.2.2.2
  free q.2.2.1
  free q.2.1
  free f
  free l
  pure o

/-- `algo_is_heap_by`, c_heap.c:113-133 -/
def isHeap (Z : Nat → Nat) (first last : Addr) (comp : V → V → Bool) : M V Bool :=
  if first = 0 ∨ last = 0 then pure false else do
  exactly first 4
  exactly last 4
  let f ← newCopy first
  let l ← newCopy last
  let u ← isHeapUntil Z f l (.val 0) comp
  let b ← cEq u l
  free u
  free f
  free l
  pure b

/-- loop of `algo_push_heap_by`, c_heap.c:207-218; the copy of the last element is at `t`; `p`, `h` are the values of `__parent`, `__hole`; returns `__hole_index` and their last values -/
def pushLoop (f : Addr) (comp : V → V → Bool) (t : Addr) (hole : Nat) (p h : Addr) : M V (Nat × Addr × Addr) :=
  if 0 < hole then do
    let p ← copyMove p f (((hole - 1) / 2 : Nat))
    let h ← copyMove h f hole
    let b ← cmpV comp p (t, 1)
    if b then do
      assignAt h p
      pushLoop f comp t ((hole - 1) / 2) p h
    else pure (hole, p, h)
  else pure (hole, p, h)
partial_fixpoint

/-- `algo_push_heap_by`, c_heap.c:186-227.  The copy of the last element is not destroyed before its memory is freed (`__c_free`, c_heap.c:222), see C67. -/
def pushHeap (Z : Nat → Nat) (first last : Addr) (comp : V → V → Bool) : M V Unit :=
  if first = 0 ∨ last = 0 then pure () else do
  exactly first 4
  exactly last 4
  let d ← cDistance Z first last
  if d < 2 then pure () else do
  let f ← newCopy first
  let l ← newCopy last
  let _ ← cDec l
  let d ← cDistance Z f l
  let _ ← typeOf first
  let t ← mallocO 1
  if t = 0 then ub else do
  let a ← cDeref l
  let v ← ldV a
  construct (t, 1) v
  let q ← pushLoop f comp t d.toNat 0 0
  let h ← copyMove q.2.2 f q.1
  assignV h (t, 1)
  free t
  free h
  free q.2.1
  free f
  free l

/-- loop of `algo_pop_heap_by`, c_heap.c:253-290; `h`, `l`, `r` are the values of `__hole`, `__left`, `__right`; returns their last values -/
def popLoop (f : Addr) (len : Nat) (comp : V → V → Bool) (hole : Nat) (h l r : Addr) : M V (Addr × Addr × Addr) :=
  if 2 * hole + 1 < len then do
    let h ← copyMove h f hole
    let l ← copyMove l f ((2 * hole + 1 : Nat))
    if 2 * (hole + 1) < len then do
      let r ← copyMove r f ((2 * (hole + 1) : Nat))
      let b ← cmpAt comp l r
      if b then do
        let b ← cmpAt comp h r
        if b then do
          iterSwap h r
          popLoop f len comp (2 * (hole + 1)) h l r
        else pure (h, l, r)
      else do
        let b ← cmpAt comp h l
        if b then do
          iterSwap h l
          popLoop f len comp (2 * hole + 1) h l r
        else pure (h, l, r)
    else do
      let b ← cmpAt comp h l
      if b then do
        iterSwap h l
        popLoop f len comp (2 * hole + 1) h l r
      else pure (h, l, r)
  else pure (h, l, r)
partial_fixpoint

/-- `algo_pop_heap_by`, c_heap.c:229-297 -/
def popHeap (Z : Nat → Nat) (first last : Addr) (comp : V → V → Bool) : M V Unit :=
  if first = 0 ∨ last = 0 then pure () else do
  exactly first 4
  exactly last 4
  let d ← cDistance Z first last
  if d < 2 then pure () else do
  let f ← newCopy first
  let l ← newCopy last
  let _ ← cDec l
  iterSwap f l
  let d ← cDistance Z f l
  let q ← popLoop f d.toNat comp 0 0 0 0
  free q.2.2
  free q.2.1
  free q.1
  free f
  free l

/-- `algo_make_heap_by`, c_heap.c:299-314 -/
def makeHeap (Z : Nat → Nat) (first last : Addr) (comp : V → V → Bool) : M V Unit :=
  if first = 0 ∨ last = 0 then pure () else do
  exactly first 4
  exactly last 4
  let d ← cDistance Z first last
  if d < 2 then pure () else do
  let f ← newCopy first
  let l ← newCopy last
  heapify Z f l comp
  free f
  free l

/-- loop of `algo_sort_heap_by`, c_heap.c:328-331 -/
def sortHeapLoop (Z : Nat → Nat) (f l : Addr) (comp : V → V → Bool) : M V Unit := do
  let b ← cNe f l
  if b then do
    popHeap Z f l comp
    let _ ← cDec l
    sortHeapLoop Z f l comp
  else pure ()
partial_fixpoint

/-- `algo_sort_heap_by`, c_heap.c:316-334 -/
def sortHeap (Z : Nat → Nat) (first last : Addr) (comp : V → V → Bool) : M V Unit :=
  if first = 0 ∨ last = 0 then pure () else do
  exactly first 4
  exactly last 4
  let d ← cDistance Z first last
  if d < 2 then pure () else do
  let f ← newCopy first
  let l ← newCopy last
  sortHeapLoop Z f l comp
  free f
  free l

end CC.IAlgo
