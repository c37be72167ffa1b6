import Verif.Info.Model
/-!
# Lists of elements with callbacks and storage of their own

The model of Verif/List/Model.lean treats elements as plain values in storage from `malloc`.  Here the functions that create, construct, destroy and release elements are modelled again, with the
element type's own callbacks: every use of the type looks up the entry of its descriptor (`info`, Verif/Info/Model.lean) and calls the function found there; the storage of an element comes from
the entry `allocate` if there is one, and is given back to `deallocate` if there is one (include/c_internal.h:207-227).
-/
namespace CC.Info

variable {V α β : Type}

/-- the client's functions, by their addresses: arbitrary programs -/
structure Funs (V : Type) where
  alloc : Nat → M V Addr
  dealloc : Nat → Addr → M V Unit
  create : Nat → Loc → M V Unit
  copy : Nat → Loc → Loc → M V Unit
  destroy : Nat → Loc → M V Unit

section
variable (C : Funs V)

/-- `__c_allocate`, include/c_internal.h:207-216.  Simplification: an object of the type is one slot. -/
def allocate (t : Addr) : M V Addr := do
  cassert (t != 0)
  let f ← ldN (t, 2)
  if f ≠ 0 then C.alloc f else do
  let f ← ldN (t, 1)
  cassert (f != 0)
  mallocO 1

/-- `__c_deallocate`, include/c_internal.h:218-227 (`value` is passed by value: the caller's pointer is not reset) -/
def deallocate (t p : Addr) : M V Unit := do
  cassert (t != 0)
  let f ← ldN (t, 6)
  if f ≠ 0 then C.dealloc f p else free p

/-- `type->create(obj)`: calling NULL is undefined behaviour -/
def callCreate (t : Addr) (x : Loc) : M V Unit := do
  let f ← ldN (t, 3)
  if f = 0 then ub else C.create f x

/-- `type->copy(dst, src)` -/
def callCopy (t : Addr) (d s : Loc) : M V Unit := do
  let f ← ldN (t, 4)
  if f = 0 then ub else C.copy f d s

/-- `type->destroy(obj)` -/
def callDestroy (t : Addr) (x : Loc) : M V Unit := do
  let f ← ldN (t, 5)
  if f = 0 then ub else C.destroy f x

namespace L
open CC.CList (prv nxt valp setPrv setNxt setValp lnode ltype begin_ end_ empty linkBack)

/-- `__create_node`, c_list.c:365-389 -/
def createNode (l : Addr) (value : Loc) : M V Addr := do
  cassert (l != 0)
  let node ← mallocS 3
  if node = 0 then pure 0 else do
  setPrv node 0
  setNxt node 0
  let t ← ltype l
  let b ← allocate C t
  setValp node b
  let b ← valp node
  if b = 0 then do
    free node
    pure 0
  else do
  let t ← ltype l
  let b ← valp node
  if value.1 ≠ 0 then do
    callCopy C t (b, 1) value
    pure node
  else do
    callCreate C t (b, 1)
    pure node

/-- `__pop_node`, c_list.c:391-408 -/
def popNode (l node : Addr) : M V Addr := do
  cassert (l != 0)
  cassert (node != 0)
  let s ← lnode l
  if node = s then pure node else do
  let next ← nxt node
  let prev ← prv node
  setPrv next prev
  setNxt prev next
  let t ← ltype l
  let b ← valp node
  callDestroy C t (b, 1)
  let t ← ltype l
  let b ← valp node
  deallocate C t b
  free node
  pure next

/-- the loop of `c_list_clear`, c_list.c:696-698 -/
def clearLoop (l node last : Addr) : M V Unit :=
  if node ≠ last then do
    let node ← popNode C l node
    clearLoop l node last
  else pure ()
partial_fixpoint

/-- `c_list_clear`, c_list.c:690-699 -/
def clear (l : Addr) : M V Unit := do
  let e ← empty l
  if e then pure () else do
  let node ← begin_ l
  let last ← end_ l
  clearLoop C l node last

/-- `c_list_destroy`, c_list.c:617-624 -/
def destroy (l : Addr) : M V Unit :=
  if l = 0 then pure () else do
  clear C l
  let s ← lnode l
  free s
  stN (l, 1) 0
  free l

/-- `c_list_insert`, c_list.c:701-714 -/
def insert (l pos : Addr) (value : Loc) : M V Addr :=
  if l = 0 ∨ value.1 = 0 then pure pos else do
  let node ← createNode C l value
  if node = 0 then pure pos else do
  setNxt node pos
  let p ← prv pos
  setPrv node p
  let p ← prv pos
  setNxt p node
  setPrv pos node
  pure node

/-- `c_list_erase`, c_list.c:716-722 -/
def erase (l pos : Addr) : M V Addr :=
  if l = 0 then pure pos else popNode C l pos

/-- `c_list_push_back`, c_list.c:734-745 -/
def pushBack (l : Addr) (value : Loc) : M V Unit :=
  if l = 0 ∨ value.1 = 0 then pure () else do
  let node ← createNode C l value
  if node = 0 then pure () else linkBack l node

/-- `c_list_pop_back`, c_list.c:747-751 -/
def popBack (l : Addr) : M V Unit := do
  let e ← empty l
  if e then pure () else do
  let s ← lnode l
  let n ← prv s
  let _ ← popNode C l n
  pure ()

/-- `c_list_push_front`, c_list.c:753-764 -/
def pushFront (l : Addr) (value : Loc) : M V Unit :=
  if l = 0 ∨ value.1 = 0 then pure () else do
  let node ← createNode C l value
  if node = 0 then pure () else do
  let s ← lnode l
  let x ← nxt s
  setNxt node x
  let s ← lnode l
  setPrv node s
  let s ← lnode l
  let x ← nxt s
  setPrv x node
  let s ← lnode l
  setNxt s node

/-- `c_list_pop_front`, c_list.c:766-769 -/
def popFront (l : Addr) : M V Unit := do
  let e ← empty l
  if e then pure () else do
  let s ← lnode l
  let n ← nxt s
  let _ ← popNode C l n
  pure ()

/-- growing loop of `c_list_resize_with_value`, c_list.c:787-795 -/
def resizeGrow (l : Addr) (value : Loc) : Nat → M V Unit
  | 0 => pure ()
  | count+1 => do
    let node ← createNode C l value
    if node = 0 then pure () else do
    linkBack l node
    resizeGrow l value count

/-- shrinking loop of `c_list_resize_with_value`, c_list.c:798-800 -/
def resizeShrink (l node : Addr) : M V Unit := do
  let s ← lnode l
  if node ≠ s then do
    let node ← popNode C l node
    resizeShrink l node
  else pure ()
partial_fixpoint

/-- `c_list_resize_with_value`, c_list.c:776-802, and `c_list_resize`, c_list.c:771-774, which passes NULL (a location in block 0) -/
def resizeWithValue (l : Addr) (count : Nat) (value : Loc) : M V Unit :=
  if l = 0 then pure () else do
  let s ← lnode l
  let node ← nxt s
  let (node, count) ← CList.resizeSkip l node count
  if count > 0 then resizeGrow C l value count
  else resizeShrink C l node

/-- the loop of `c_list_copy` (c_list.c:595-597) and `c_list_assign` (c_list.c:609-611) -/
def copyLoop (l other node : Addr) : M V Unit := do
  let e ← end_ other
  if node ≠ e then do
    let v ← CList.valOf node
    pushBack C l v
    let node ← nxt node
    copyLoop l other node
  else pure ()
partial_fixpoint

/-- `c_list_copy`, c_list.c:588-600 -/
def copy (other : Addr) : M V Addr :=
  if other = 0 then pure 0 else do
  let t ← ltype other
  let l ← listCreate t
  if l = 0 then pure 0 else do
  let node ← begin_ other
  copyLoop C l other node
  pure l

/-- `c_list_assign`, c_list.c:602-615 -/
def assign (self other : Addr) : M V Addr :=
  if self = 0 ∨ other = 0 then pure self else
  if self ≠ other then do
    clear C self
    let t ← ltype other
    stN (self, 2) t
    let node ← begin_ other
    copyLoop C self other node
    pure self
  else pure self

/-- the loop of `c_list_erase_range`, c_list.c:724-732 (the function is the loop) -/
def eraseRange (l pos last : Addr) : M V Addr :=
  if pos ≠ last then do
    let pos ← erase C l pos
    eraseRange l pos last
  else pure pos
partial_fixpoint

/-- loop of `c_list_remove_if`, c_list.c:888-895; `pred` is the client's function -/
def removeIfLoop (l : Addr) (pred : Loc → M V Bool) (node last : Addr) : M V Unit :=
  if node ≠ last then do
    let b ← valp node
    let r ← pred (b, 1)
    if r then do
      let node ← popNode C l node
      removeIfLoop l pred node last
    else do
      let node ← nxt node
      removeIfLoop l pred node last
  else pure ()
partial_fixpoint

/-- `c_list_remove_if`, c_list.c:882-896 -/
def removeIf (l : Addr) (pred : Option (Loc → M V Bool)) : M V Unit := do
  let e ← empty l
  if e then pure () else do
  match pred with
  | none => pure ()
  | some pred => do
    let node ← begin_ l
    let last ← end_ l
    removeIfLoop C l pred node last

/-- inner loop of `c_list_unique_if`, c_list.c:973-975 -/
def uniqueInner (l : Addr) (pred : Loc → Loc → M V Bool) (x y : Addr) : M V Addr := do
  let e ← end_ l
  if y ≠ e then do
    let bx ← valp x
    let by_ ← valp y
    let r ← pred (bx, 1) (by_, 1)
    if r then do
      let y ← popNode C l y
      uniqueInner l pred x y
    else pure y
  else pure y
partial_fixpoint

/-- outer loop of `c_list_unique_if`, c_list.c:971-977 -/
def uniqueLoop (l : Addr) (pred : Loc → Loc → M V Bool) (x : Addr) : M V Unit := do
  let e ← end_ l
  if x ≠ e then do
    let n ← nxt x
    if n ≠ e then do
      let y ← nxt x
      let _ ← uniqueInner C l pred x y
      let x ← nxt x
      uniqueLoop l pred x
    else pure ()
  else pure ()
partial_fixpoint

/-- `c_list_unique_if`, c_list.c:965-978 -/
def uniqueIf (l : Addr) (pred : Option (Loc → Loc → M V Bool)) : M V Unit := do
  let e ← empty l
  if e then pure () else do
  let n ← CList.size l
  if n = 1 then pure () else do
  match pred with
  | none => pure ()
  | some pred => do
    let x ← begin_ l
    uniqueLoop C l pred x

end L

section
variable (Q : Nat → Loc → Loc → M V Bool)

/-- `type->equal(x, y)`: calling NULL is undefined behaviour; `Q` gives the client's functions by their addresses -/
def callEqual (t : Addr) (x y : Loc) : M V Bool := do
  let f ← ldN (t, 9)
  if f = 0 then ub else Q f x y

namespace L
open CC.CList (nxt valp ltype begin_ end_ empty)

/-- loop of `c_list_remove`, c_list.c:872-879 -/
def removeLoop (l : Addr) (value : Loc) (node last : Addr) : M V Unit :=
  if node ≠ last then do
    let t ← ltype l
    let b ← valp node
    let r ← callEqual Q t (b, 1) value
    if r then do
      let node ← popNode C l node
      removeLoop l value node last
    else do
      let node ← nxt node
      removeLoop l value node last
  else pure ()
partial_fixpoint

/-- `c_list_remove`, c_list.c:866-880 -/
def remove (l : Addr) (value : Loc) : M V Unit := do
  let e ← empty l
  if e ∨ value.1 = 0 then pure () else do
  let node ← begin_ l
  let last ← end_ l
  removeLoop C Q l value node last

/-- `c_list_unique`, c_list.c:959-963 -/
def unique (l : Addr) : M V Unit :=
  if l = 0 then pure () else do
  let t ← ltype l
  let f ← ldN (t, 9)
  uniqueIf C l (if f = 0 then none else some (Q f))

end L
end
end
end CC.Info
