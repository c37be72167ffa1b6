import Verif.Info.Own
import Verif.SList.Model
/-!
# Forward lists of elements with callbacks and storage of their own

The functions of container/c_forward_list.c that create, construct, destroy and release elements, with the element type's own callbacks and allocation functions (see Verif/Info/Own.lean).
-/
namespace CC.Info.S
open CC.SList (nxt valp setNxt setValp lanc lnode ltype beforeBegin begin_ end_ empty iterIncrement)
variable {V : Type}

section
variable (C : Funs V)

/-- `__create_node`, c_forward_list.c:184-207 -/
def createNode (l : Addr) (value : Loc) : M V Addr := do
  cassert (l != 0)
  let node ← mallocS 2
  if node = 0 then pure 0 else do
  setNxt node 0
  let t ← ltype l
  let b ← allocate C t
  setValp node b
  let b ← valp node
  if b = 0 then do
    free node
    pure 0
  else do
  let t ← ltype l
  let b ← valp node
  if value.1 ≠ 0 then do
    callCopy C t (b, 1) value
    pure node
  else do
    callCreate C t (b, 1)
    pure node

/-- `__pop_node_after`, c_forward_list.c:209-224 -/
def popNodeAfter (l node : Addr) : M V Addr := do
  cassert (l != 0)
  let s ← lnode l
  if node = 0 ∨ node = s then pure s else do
  let pos ← nxt node
  let s ← lnode l
  let a ← lanc l
  if pos = 0 ∨ pos = s ∨ pos = a then pure s else do
  let n ← nxt pos
  setNxt node n
  let t ← ltype l
  let b ← valp pos
  callDestroy C t (b, 1)
  let t ← ltype l
  let b ← valp pos
  deallocate C t b
  free pos
  nxt node

/-- loop of `c_slist_clear`, c_forward_list.c:384-386 -/
def clearLoop (l node next last : Addr) : M V Unit :=
  if next ≠ last then do
    let next ← popNodeAfter C l node
    clearLoop l node next last
  else pure ()
partial_fixpoint

/-- `c_slist_clear`, c_forward_list.c:377-387 -/
def clear (l : Addr) : M V Unit := do
  let e ← empty l
  if e then pure () else do
  let node ← beforeBegin l
  let next ← begin_ l
  let last ← end_ l
  clearLoop C l node next last

/-- `c_slist_insert_after`, c_forward_list.c:389-402 (a NULL list or value aborts) -/
def insertAfter (l pos : Addr) (value : Loc) : M V Addr := do
  cassert (l != 0)
  cassert (value.1 != 0)
  let node ← createNode C l value
  if node = 0 then pure pos else do
  let x ← nxt pos
  setNxt node x
  setNxt pos node
  pure node

/-- loop of `c_slist_copy` (c_forward_list.c:299-301) and `c_slist_assign` (c_forward_list.c:314-316) -/
def copyLoop (l iter other node : Addr) : M V Unit := do
  let e ← end_ other
  if node ≠ e then do
    let v ← CC.SList.valOf node
    let iter ← insertAfter C l iter v
    let node ← nxt node
    copyLoop l iter other node
  else pure ()
partial_fixpoint

/-- `c_slist_copy`, c_forward_list.c:291-304 -/
def copy (other : Addr) : M V Addr :=
  if other = 0 then pure 0 else do
  let t ← ltype other
  let l ← slistCreate t
  if l = 0 then pure 0 else do
  let iter ← beforeBegin l
  let node ← begin_ other
  copyLoop C l iter other node
  pure l

/-- `c_slist_assign`, c_forward_list.c:306-320 -/
def assign (self other : Addr) : M V Addr :=
  if self = 0 ∨ other = 0 then pure self else
  if self ≠ other then do
    clear C self
    let t ← ltype other
    stN (self, 3) t
    let iter ← beforeBegin self
    let node ← begin_ other
    copyLoop C self iter other node
    pure self
  else pure self

/-- `c_slist_destroy`, c_forward_list.c:322-330 (`__c_free` also sets the freed field to NULL) -/
def destroy (l : Addr) : M V Unit :=
  if l = 0 then pure () else do
  clear C l
  let a ← lanc l
  free a
  stN (l, 1) 0
  let s ← lnode l
  free s
  stN (l, 2) 0
  free l

/-- `c_slist_erase_after`, c_forward_list.c:404-410 -/
def eraseAfter (l pos : Addr) : M V Addr := do
  cassert (l != 0)
  popNodeAfter C l pos

/-- loop of `c_slist_erase_after_range`, c_forward_list.c:416-418 -/
def eraseAfterLoop (l first pos last : Addr) : M V Unit :=
  if pos ≠ last then do
    let pos ← eraseAfter C l first
    eraseAfterLoop l first pos last
  else pure ()
partial_fixpoint

/-- `c_slist_erase_after_range`, c_forward_list.c:412-421 -/
def eraseAfterRange (l first last : Addr) : M V Addr := do
  let pos ← iterIncrement first
  eraseAfterLoop C l first pos last
  pure last

/-- `c_slist_push_front`, c_forward_list.c:423-432 -/
def pushFront (l : Addr) (value : Loc) : M V Unit :=
  if l = 0 ∨ value.1 = 0 then pure () else do
  let node ← createNode C l value
  if node = 0 then pure () else do
  let a ← lanc l
  let x ← nxt a
  setNxt node x
  let a ← lanc l
  setNxt a node

/-- `c_slist_pop_front`, c_forward_list.c:434-437 -/
def popFront (l : Addr) : M V Unit := do
  let e ← empty l
  if e then pure () else do
  let a ← lanc l
  let _ ← popNodeAfter C l a
  pure ()

/-- growing loop of `c_slist_resize_with_value`, c_forward_list.c:457-464 -/
def resizeGrow (l : Addr) (value : Loc) (prev : Addr) : Nat → M V Unit
  | 0 => pure ()
  | count+1 => do
    let node ← createNode C l value
    if node = 0 then pure () else do
    setNxt prev node
    let s ← lnode l
    setNxt node s
    resizeGrow l value node count

/-- shrinking loop of `c_slist_resize_with_value`, c_forward_list.c:467-468 -/
def resizeShrink (l prev node : Addr) : M V Unit := do
  let s ← lnode l
  if node ≠ s then do
    let node ← popNodeAfter C l prev
    resizeShrink l prev node
  else pure ()
partial_fixpoint

/-- `c_slist_resize_with_value`, c_forward_list.c:444-470, and `c_slist_resize`, c_forward_list.c:439-442, which passes NULL (a location in block 0) -/
def resizeWithValue (l : Addr) (count : Nat) (value : Loc) : M V Unit :=
  if l = 0 then pure () else do
  let prev ← lanc l
  let node ← nxt prev
  let (prev, node, count) ← CC.SList.resizeSkip l prev node count
  if count > 0 then resizeGrow C l value prev count
  else resizeShrink C l prev node

/-- loop of `c_slist_remove_if`, c_forward_list.c:559-567; `pred` is the client's function -/
def removeIfLoop (l : Addr) (pred : Loc → M V Bool) (prev node last : Addr) : M V Unit :=
  if node ≠ last ∧ prev ≠ last then do
    let b ← valp node
    let r ← pred (b, 1)
    if r then do
      let node ← popNodeAfter C l prev
      removeIfLoop l pred prev node last
    else do
      let prev ← nxt prev
      let node ← nxt prev
      removeIfLoop l pred prev node last
  else pure ()
partial_fixpoint

/-- `c_slist_remove_if`, c_forward_list.c:552-568 -/
def removeIf (l : Addr) (pred : Option (Loc → M V Bool)) : M V Unit := do
  let e ← empty l
  if e then pure () else do
  match pred with
  | none => pure ()
  | some pred => do
    let prev ← beforeBegin l
    let node ← nxt prev
    let last ← end_ l
    removeIfLoop C l pred prev node last

/-- inner loop of `c_slist_unique_if`, c_forward_list.c:644-646 -/
def uniqueInner (l : Addr) (pred : Loc → Loc → M V Bool) (x y last : Addr) : M V Unit :=
  if y ≠ last then do
    let bx ← valp x
    let by_ ← valp y
    let r ← pred (bx, 1) (by_, 1)
    if r then do
      let y ← popNodeAfter C l x
      uniqueInner l pred x y last
    else pure ()
  else pure ()
partial_fixpoint

/-- outer loop of `c_slist_unique_if`, c_forward_list.c:642-648 -/
def uniqueLoop (l : Addr) (pred : Loc → Loc → M V Bool) (x last : Addr) : M V Unit :=
  if x ≠ last then do
    let n ← nxt x
    if n ≠ last then do
      let y ← nxt x
      uniqueInner C l pred x y last
      let x ← nxt x
      uniqueLoop l pred x last
    else pure ()
  else pure ()
partial_fixpoint

/-- `c_slist_unique_if`, c_forward_list.c:635-649 -/
def uniqueIf (l : Addr) (pred : Option (Loc → Loc → M V Bool)) : M V Unit := do
  let e ← empty l
  if e then pure () else do
  let o ← CC.SList.single l
  if o then pure () else do
  match pred with
  | none => pure ()
  | some pred => do
    let last ← end_ l
    let x ← begin_ l
    uniqueLoop C l pred x last

section
variable (Q : Nat → Loc → Loc → M V Bool)

/-- loop of `c_slist_remove`, c_forward_list.c:541-549 -/
def removeLoop (l : Addr) (value : Loc) (prev node last : Addr) : M V Unit :=
  if node ≠ last ∧ prev ≠ last then do
    let t ← ltype l
    let b ← valp node
    let r ← callEqual Q t (b, 1) value
    if r then do
      let node ← popNodeAfter C l prev
      removeLoop l value prev node last
    else do
      let prev ← nxt prev
      let node ← nxt prev
      removeLoop l value prev node last
  else pure ()
partial_fixpoint

/-- `c_slist_remove`, c_forward_list.c:534-550 -/
def remove (l : Addr) (value : Loc) : M V Unit := do
  let e ← empty l
  if e ∨ value.1 = 0 then pure () else do
  let prev ← beforeBegin l
  let node ← nxt prev
  let last ← end_ l
  removeLoop C Q l value prev node last

/-- `c_slist_unique`, c_forward_list.c:629-633 -/
def unique (l : Addr) : M V Unit :=
  if l = 0 then pure () else do
  let t ← ltype l
  let f ← ldN (t, 9)
  uniqueIf C l (if f = 0 then none else some (Q f))

end
end
end CC.Info.S
