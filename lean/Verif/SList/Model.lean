import Verif.Core.Ty
/-!
# Model of container/c_forward_list.c

Memory layout (slot `0` of each block is the allocator's):
* `c_slist_node_t` (c_forward_list.c:32-36): slots `1 = next`, `2 = value`;
* `c_slist_t` (c_forward_list.c:38-42): slots `1 = ancient` (before-begin node), `2 = node` (end node), `3 = value_type`;
* the element storage `node->value` points to is a block with one object slot `1`.

A `c_slist_iterator_t` is the node it designates (the constant fields of the iterator struct are not modelled; iterators of the
right category are assumed, so the checks of c_forward_list.c:44-49 succeed).
-/

namespace CC.SList

variable {V : Type}

/-- `node->next` -/
abbrev nxt (a : Addr) : M V Addr := ldN (a, 1)
/-- `node->value` -/
abbrev valp (a : Addr) : M V Addr := ldN (a, 2)
abbrev setNxt (a x : Addr) : M V Unit := stN (a, 1) x
abbrev setValp (a x : Addr) : M V Unit := stN (a, 2) x
/-- `list->ancient` -/
abbrev lanc (l : Addr) : M V Addr := ldN (l, 1)
/-- `list->node` -/
abbrev lnode (l : Addr) : M V Addr := ldN (l, 2)
/-- `list->value_type` -/
abbrev ltype (l : Addr) : M V Nat := ldN (l, 3)
/-- the location of the element `node->value` points to -/
abbrev valOf (n : Addr) : M V Loc := do return ((← valp n), 1)

/-- `iter_increment`, c_forward_list.c:67-73 -/
def iterIncrement (n : Addr) : M V Addr := nxt n
/-- `iter_dereference`, c_forward_list.c:91-97 -/
def iterDereference (n : Addr) : M V Loc := valOf n
/-- `iter_advance`, c_forward_list.c:110-117 (no effect if `n ≤ 0`) -/
def iterAdvance (node : Addr) : Nat → M V Addr
  | 0 => pure node
  | n+1 => do
    let node ← nxt node
    iterAdvance node n
/-- `iter_distance`, c_forward_list.c:119-132: the loop -/
def distanceLoop (first last : Addr) (n : Nat) : M V Nat :=
  if first ≠ last then do
    let first ← nxt first
    distanceLoop first last (n+1)
  else pure n
partial_fixpoint

/-- `__before_begin`, c_forward_list.c:166-170 -/
def beforeBegin (l : Addr) : M V Addr := do
  cassert (l != 0)
  lanc l

/-- `__begin`, c_forward_list.c:172-176 -/
def begin_ (l : Addr) : M V Addr := do
  cassert (l != 0)
  let a ← lanc l
  nxt a

/-- `__end`, c_forward_list.c:178-182 -/
def end_ (l : Addr) : M V Addr := do
  cassert (l != 0)
  lnode l

/-- A client loop: `for (it = first; it != last; ++it)` reading every element through its iterator
(c_forward_list.c:67-73, 91-108). -/
def walkFwd (node last : Addr) : M V (List V) :=
  if node ≠ last then do
    let r ← iterDereference node
    let v ← ldV r
    let node ← iterIncrement node
    let vs ← walkFwd node last
    pure (v :: vs)
  else pure []
partial_fixpoint

/-- read the list from `c_slist_begin` to `c_slist_end` -/
def readAll (l : Addr) : M V (List V) := do
  let b ← begin_ l
  let e ← end_ l
  walkFwd b e

variable (E : Types V)

/-- `__create_node`, c_forward_list.c:184-207.  `value = NULL` default-constructs. -/
def createNode (l : Addr) (value : Loc) : M V Addr := do
  cassert (l != 0)
  let node ← mallocS 2
  if node = 0 then pure 0 else do
  setNxt node 0
  let b ← mallocO 1
  setValp node b
  let b ← valp node
  if b = 0 then do
    free node
    pure 0
  else do
  if value.1 ≠ 0 then do
    let v ← ldV value
    construct (b, 1) v
    pure node
  else do
    let ty ← ltype l
    construct (b, 1) (E ty).dflt
    pure node

/-- `__pop_node_after`, c_forward_list.c:209-224 -/
def popNodeAfter (l node : Addr) : M V Addr := do
  cassert (l != 0)
  let s ← lnode l
  if node = 0 ∨ node = s then pure s else do
  let pos ← nxt node
  let s ← lnode l
  let a ← lanc l
  if pos = 0 ∨ pos = s ∨ pos = a then pure s else do
  let n ← nxt pos
  setNxt node n
  let b ← valp pos
  destroyV (b, 1)
  freeV b
  free pos
  nxt node

/-- the loop of `__transfer`, c_forward_list.c:231-233 -/
def findPrev (p last : Addr) : M V Addr := do
  let n ← nxt p
  if n ≠ last then findPrev n last
  else pure p
partial_fixpoint

/-- `__transfer`, c_forward_list.c:227-239: move `(first, last)` behind `pos` -/
def transfer (pos first last : Addr) : M V Unit :=
  if pos ≠ first ∧ first ≠ last then do
    let n ← nxt first
    if n ≠ last then do
      let lp ← nxt first
      let lp ← findPrev lp last
      let x ← nxt pos
      setNxt lp x
      let x ← nxt first
      setNxt pos x
      setNxt first last
    else pure ()
  else pure ()

/-- `c_slist_create`, c_forward_list.c:244-272 (`validate_type_info` is assumed to pass) -/
def create (ty : Nat) : M V Addr :=
  if ty = 0 then pure 0 else do
  let l ← mallocS 3
  if l = 0 then pure 0 else do
  let s ← mallocS 2
  stN (l, 2) s
  let s ← lnode l
  if s = 0 then do
    free l
    pure 0
  else do
  let a ← mallocS 2
  stN (l, 1) a
  let a ← lanc l
  if a = 0 then do
    let s ← lnode l
    free s
    free l
    pure 0
  else do
  stN (l, 3) ty
  let a ← lanc l
  let s ← lnode l
  setNxt a s
  let a ← lanc l
  setValp a 0
  let s ← lnode l
  setNxt s 0
  let s ← lnode l
  setValp s 0
  pure l

/-- `c_slist_empty`, c_forward_list.c:364-367 -/
def empty (l : Addr) : M V Bool :=
  if l ≠ 0 then do
    let b ← begin_ l
    let e ← end_ l
    pure (b == e)
  else pure true

/-- loop of `c_slist_clear`, c_forward_list.c:384-386 -/
def clearLoop (l node next last : Addr) : M V Unit :=
  if next ≠ last then do
    let next ← popNodeAfter l node
    clearLoop l node next last
  else pure ()
partial_fixpoint

/-- `c_slist_clear`, c_forward_list.c:377-387 -/
def clear (l : Addr) : M V Unit := do
  let e ← empty l
  if e then pure () else do
  let node ← beforeBegin l
  let next ← begin_ l
  let last ← end_ l
  clearLoop l node next last

/-- `c_slist_insert_after`, c_forward_list.c:389-402 (a NULL list or value aborts) -/
def insertAfter (l pos : Addr) (value : Loc) : M V Addr := do
  cassert (l != 0)
  cassert (value.1 != 0)
  let node ← createNode E l value
  if node = 0 then pure pos else do
  let x ← nxt pos
  setNxt node x
  setNxt pos node
  pure node

/-- loop of `c_slist_create_from`, c_forward_list.c:283-286: `value` walks over an array of elements -/
def createFromLoop (l iter : Addr) (value : Loc) : Nat → M V Unit
  | 0 => pure ()
  | n+1 => do
    let iter ← insertAfter E l iter value
    createFromLoop l iter (value.1, value.2 + 1) n

/-- `c_slist_create_from`, c_forward_list.c:274-289 -/
def createFrom (ty : Nat) (values : Loc) (length : Nat) : M V Addr :=
  if ty = 0 ∨ values.1 = 0 ∨ length = 0 then pure 0 else do
  let l ← create ty
  if l = 0 then pure 0 else do
  let iter ← beforeBegin l
  createFromLoop E l iter values length
  pure l

/-- loop of `c_slist_copy` (c_forward_list.c:299-301) and `c_slist_assign` (c_forward_list.c:314-316) -/
def copyLoop (l iter other node : Addr) : M V Unit := do
  let e ← end_ other
  if node ≠ e then do
    let v ← valOf node
    let iter ← insertAfter E l iter v
    let node ← nxt node
    copyLoop l iter other node
  else pure ()
partial_fixpoint

/-- `c_slist_copy`, c_forward_list.c:291-304 -/
def copy (other : Addr) : M V Addr :=
  if other = 0 then pure 0 else do
  let ty ← ltype other
  let l ← create ty
  if l = 0 then pure 0 else do
  let iter ← beforeBegin l
  let node ← begin_ other
  copyLoop E l iter other node
  pure l

/-- `c_slist_assign`, c_forward_list.c:306-320 -/
def assign (self other : Addr) : M V Addr :=
  if self = 0 ∨ other = 0 then pure self else
  if self ≠ other then do
    clear self
    let ty ← ltype other
    stN (self, 3) ty
    let iter ← beforeBegin self
    let node ← begin_ other
    copyLoop E self iter other node
    pure self
  else pure self

/-- `c_slist_destroy`, c_forward_list.c:322-330 (`__c_free` also sets the freed field to NULL) -/
def destroy (l : Addr) : M V Unit :=
  if l = 0 then pure () else do
  clear l
  let a ← lanc l
  free a
  stN (l, 1) 0
  let s ← lnode l
  free s
  stN (l, 2) 0
  free l

/-- `c_slist_front`, c_forward_list.c:335-338 -/
def front (l : Addr) : M V Loc := do
  let e ← empty l
  if e then pure (0, 1) else do
  let n ← begin_ l
  valOf n

/-- `c_slist_erase_after`, c_forward_list.c:404-410 -/
def eraseAfter (l pos : Addr) : M V Addr := do
  cassert (l != 0)
  popNodeAfter l pos

/-- loop of `c_slist_erase_after_range`, c_forward_list.c:416-418 -/
def eraseAfterLoop (l first pos last : Addr) : M V Unit :=
  if pos ≠ last then do
    let pos ← eraseAfter l first
    eraseAfterLoop l first pos last
  else pure ()
partial_fixpoint

/-- `c_slist_erase_after_range`, c_forward_list.c:412-421 -/
def eraseAfterRange (l first last : Addr) : M V Addr := do
  let pos ← iterIncrement first
  eraseAfterLoop l first pos last
  pure last

/-- `c_slist_push_front`, c_forward_list.c:423-432 -/
def pushFront (l : Addr) (value : Loc) : M V Unit :=
  if l = 0 ∨ value.1 = 0 then pure () else do
  let node ← createNode E l value
  if node = 0 then pure () else do
  let a ← lanc l
  let x ← nxt a
  setNxt node x
  let a ← lanc l
  setNxt a node

/-- `c_slist_pop_front`, c_forward_list.c:434-437 -/
def popFront (l : Addr) : M V Unit := do
  let e ← empty l
  if e then pure () else do
  let a ← lanc l
  let _ ← popNodeAfter l a
  pure ()

/-- first loop of `c_slist_resize_with_value`, c_forward_list.c:450-454 -/
def resizeSkip (l prev node : Addr) (count : Nat) : M V (Addr × Addr × Nat) := do
  let s ← lnode l
  if node ≠ s ∧ count > 0 then do
    let n ← nxt node
    resizeSkip l node n (count - 1)
  else pure (prev, node, count)
partial_fixpoint

/-- growing loop of `c_slist_resize_with_value`, c_forward_list.c:457-464 -/
def resizeGrow (l : Addr) (value : Loc) (prev : Addr) : Nat → M V Unit
  | 0 => pure ()
  | count+1 => do
    let node ← createNode E l value
    if node = 0 then pure () else do
    setNxt prev node
    let s ← lnode l
    setNxt node s
    resizeGrow l value node count

/-- shrinking loop of `c_slist_resize_with_value`, c_forward_list.c:467-468 -/
def resizeShrink (l prev node : Addr) : M V Unit := do
  let s ← lnode l
  if node ≠ s then do
    let node ← popNodeAfter l prev
    resizeShrink l prev node
  else pure ()
partial_fixpoint

/-- `c_slist_resize_with_value`, c_forward_list.c:444-470 -/
def resizeWithValue (l : Addr) (count : Nat) (value : Loc) : M V Unit :=
  if l = 0 then pure () else do
  let prev ← lanc l
  let node ← nxt prev
  let (prev, node, count) ← resizeSkip l prev node count
  if count > 0 then resizeGrow E l value prev count
  else resizeShrink l prev node

/-- `c_slist_resize`, c_forward_list.c:439-442 -/
def resize (l : Addr) (count : Nat) : M V Unit := resizeWithValue E l count (0, 1)

/-- `c_slist_swap`, c_forward_list.c:472-479 -/
def swap (l other : Addr) : M V Unit :=
  if l = 0 ∨ other = 0 then pure () else do
  let ta ← lanc l
  let tn ← lnode l
  let tt ← ltype l
  let a ← lanc other
  let n ← lnode other
  let t ← ltype other
  stN (l, 1) a
  stN (l, 2) n
  stN (l, 3) t
  stN (other, 1) ta
  stN (other, 2) tn
  stN (other, 3) tt

/-- loop of `c_slist_merge_by`, c_forward_list.c:499-506; returns the final `node` -/
def mergeLoop (comp : V → V → Bool) (node last otherNode otherLast : Addr) : M V Addr := do
  let x ← nxt node
  if x ≠ last then do
    let y ← nxt otherNode
    if y ≠ otherLast then do
      let y ← nxt otherNode
      let ry ← valOf y
      let x ← nxt node
      let rx ← valOf x
      let vy ← ldV ry
      let vx ← ldV rx
      if comp vy vx then do
        let y ← nxt otherNode
        let yn ← nxt y
        transfer node otherNode yn
        mergeLoop comp node last otherNode otherLast
      else do
        let node ← nxt node
        mergeLoop comp node last otherNode otherLast
    else pure node
  else pure node
partial_fixpoint

/-- guard shared by merge and the splice functions, c_forward_list.c:493,515,522,529 -/
def spliceGuard (l other : Addr) : M V Bool :=
  if l = 0 then pure true else do
  let e ← empty other
  if e then pure true else do
  let t1 ← ltype l
  let t2 ← ltype other
  pure (!isSame t1 t2)

/-- `c_slist_merge_by`, c_forward_list.c:491-511 (a NULL `comp` is `none`) -/
def mergeBy (l other : Addr) (comp : Option (V → V → Bool)) : M V Unit := do
  match comp with
  | none => pure ()
  | some comp => do
    let g ← spliceGuard l other
    if g then pure () else do
    let node ← beforeBegin l
    let last ← end_ l
    let otherNode ← beforeBegin other
    let otherLast ← end_ other
    let node ← mergeLoop comp node last otherNode otherLast
    let y ← nxt otherNode
    if y ≠ otherLast then transfer node otherNode otherLast
    else pure ()

/-- `c_slist_merge`, c_forward_list.c:485-489 -/
def merge (l other : Addr) : M V Unit :=
  if l = 0 then pure () else do
  let ty ← ltype l
  mergeBy l other (some (E ty).less)

/-- `c_slist_splice_after`, c_forward_list.c:513-518 -/
def spliceAfter (l pos other : Addr) : M V Unit := do
  let g ← spliceGuard l other
  if g then pure () else do
  let first ← beforeBegin other
  let last ← end_ other
  transfer pos first last

/-- `c_slist_splice_after_from`, c_forward_list.c:520-525 -/
def spliceAfterFrom (l pos other from_ : Addr) : M V Unit := do
  let g ← spliceGuard l other
  if g then pure () else do
  let last ← end_ other
  transfer pos from_ last

/-- `c_slist_splice_after_range`, c_forward_list.c:527-532 -/
def spliceAfterRange (l pos other first last : Addr) : M V Unit := do
  let g ← spliceGuard l other
  if g then pure () else
  transfer pos first last

/-- loop of `c_slist_remove`, c_forward_list.c:541-549 -/
def removeLoop (l : Addr) (value : Loc) (prev node last : Addr) : M V Unit :=
  if node ≠ last ∧ prev ≠ last then do
    let ty ← ltype l
    let x ← valOf node
    let vx ← ldV x
    let v ← ldV value
    if (E ty).equal vx v then do
      let node ← popNodeAfter l prev
      removeLoop l value prev node last
    else do
      let prev ← nxt prev
      let node ← nxt prev
      removeLoop l value prev node last
  else pure ()
partial_fixpoint

/-- `c_slist_remove`, c_forward_list.c:534-550 -/
def remove (l : Addr) (value : Loc) : M V Unit := do
  let e ← empty l
  if e ∨ value.1 = 0 then pure () else do
  let prev ← beforeBegin l
  let node ← nxt prev
  let last ← end_ l
  removeLoop E l value prev node last

/-- loop of `c_slist_remove_if`, c_forward_list.c:559-567 -/
def removeIfLoop (l : Addr) (pred : V → Bool) (prev node last : Addr) : M V Unit :=
  if node ≠ last ∧ prev ≠ last then do
    let x ← valOf node
    let vx ← ldV x
    if pred vx then do
      let node ← popNodeAfter l prev
      removeIfLoop l pred prev node last
    else do
      let prev ← nxt prev
      let node ← nxt prev
      removeIfLoop l pred prev node last
  else pure ()
partial_fixpoint

/-- `c_slist_remove_if`, c_forward_list.c:552-568 -/
def removeIf (l : Addr) (pred : V → Bool) : M V Unit := do
  let e ← empty l
  if e then pure () else do
  let prev ← beforeBegin l
  let node ← nxt prev
  let last ← end_ l
  removeIfLoop l pred prev node last

/-- creation of the counters in `c_slist_sort_by`, c_forward_list.c:583-587 -/
def createCounters (ty : Nat) : Nat → M V (List Addr × Bool)
  | 0 => pure ([], true)
  | k+1 => do
    let c ← create ty
    if c = 0 then pure (List.replicate (k+1) 0, false) else do
    let (cs, ok) ← createCounters ty k
    pure (c :: cs, ok)

/-- `counter[i]`; out of bounds is undefined behaviour -/
def at_ (cs : List Addr) (i : Nat) : M V Addr :=
  match cs[i]? with
  | some c => pure c
  | none => ub

/-- inner loop of `c_slist_sort_by`, c_forward_list.c:593-596; returns the final `i` -/
def sortCarry (comp : V → V → Bool) (carry : Addr) (cs : List Addr) (fill i : Nat) : M V Nat :=
  if i < fill then do
    let c ← at_ cs i
    let e ← empty c
    if e then pure i else do
    mergeBy c carry (some comp)
    swap carry c
    sortCarry comp carry cs fill (i+1)
  else pure i
partial_fixpoint

/-- main loop of `c_slist_sort_by`, c_forward_list.c:590-599; returns the final `fill` -/
def sortLoop (comp : V → V → Bool) (l carry : Addr) (cs : List Addr) (fill : Nat) : M V Nat := do
  let e ← empty l
  if e then pure fill else do
  let b ← beforeBegin carry
  let f ← beforeBegin l
  let f' ← begin_ l
  let n ← nxt f'
  transfer b f n
  let i ← sortCarry comp carry cs fill 0
  let c ← at_ cs i
  swap carry c
  sortLoop comp l carry cs (if i = fill then fill + 1 else fill)
partial_fixpoint

/-- final merges of `c_slist_sort_by`, c_forward_list.c:601-603 -/
def sortFinal (comp : V → V → Bool) (cs : List Addr) (fill i : Nat) : M V Unit :=
  if i < fill then do
    let c ← at_ cs i
    let c' ← at_ cs (i - 1)
    mergeBy c c' (some comp)
    sortFinal comp cs fill (i+1)
  else pure ()
partial_fixpoint

/-- destruction of the counters, c_forward_list.c:607-609 -/
def destroyCounters : List Addr → M V Unit
  | [] => pure ()
  | c :: cs => do
    destroy c
    destroyCounters cs

/-- does the list have exactly one element?  `__begin(list)->next == __end(list)` (c_forward_list.c:578,615,637) -/
def single (l : Addr) : M V Bool := do
  let b ← begin_ l
  let n ← nxt b
  let e ← end_ l
  pure (n == e)

/-- `c_slist_sort_by`, c_forward_list.c:576-611 -/
def sortBy (l : Addr) (comp : Option (V → V → Bool)) : M V Unit := do
  let e ← empty l
  if e then pure () else do
  let o ← single l
  if o then pure () else do
  match comp with
  | none => pure ()
  | some comp => do
    let ty ← ltype l
    let carry ← create ty
    if carry = 0 then pure () else do
    let ty ← ltype l
    let (cs, ok) ← createCounters ty 64
    if ok then do
      let fill ← sortLoop comp l carry cs 0
      sortFinal comp cs fill 1
      let c ← at_ cs (fill - 1)
      swap l c
      destroyCounters cs
      destroy carry
    else do
      destroyCounters cs
      destroy carry

/-- `c_slist_sort`, c_forward_list.c:570-574 -/
def sort (l : Addr) : M V Unit :=
  if l = 0 then pure () else do
  let ty ← ltype l
  sortBy l (some (E ty).less)

/-- loop of `c_slist_reverse`, c_forward_list.c:620-626 -/
def reverseLoop (l node last : Addr) : M V Unit := do
  let e ← end_ l
  if node ≠ e then do
    let next ← nxt node
    let a ← lanc l
    setNxt a node
    setNxt node last
    reverseLoop l next node
  else pure ()
partial_fixpoint

/-- `c_slist_reverse`, c_forward_list.c:613-627 -/
def reverse (l : Addr) : M V Unit := do
  let e ← empty l
  if e then pure () else do
  let o ← single l
  if o then pure () else do
  let node ← begin_ l
  let last ← end_ l
  reverseLoop l node last

/-- inner loop of `c_slist_unique_if`, c_forward_list.c:644-646 -/
def uniqueInner (l : Addr) (pred : V → V → Bool) (x y last : Addr) : M V Unit :=
  if y ≠ last then do
    let bx ← valOf x
    let by_ ← valOf y
    let vx ← ldV bx
    let vy ← ldV by_
    if pred vx vy then do
      let y ← popNodeAfter l x
      uniqueInner l pred x y last
    else pure ()
  else pure ()
partial_fixpoint

/-- outer loop of `c_slist_unique_if`, c_forward_list.c:642-648 -/
def uniqueLoop (l : Addr) (pred : V → V → Bool) (x last : Addr) : M V Unit :=
  if x ≠ last then do
    let n ← nxt x
    if n ≠ last then do
      let y ← nxt x
      uniqueInner l pred x y last
      let x ← nxt x
      uniqueLoop l pred x last
    else pure ()
  else pure ()
partial_fixpoint

/-- `c_slist_unique_if`, c_forward_list.c:635-649 -/
def uniqueIf (l : Addr) (pred : Option (V → V → Bool)) : M V Unit := do
  let e ← empty l
  if e then pure () else do
  let o ← single l
  if o then pure () else do
  match pred with
  | none => pure ()
  | some pred => do
    let last ← end_ l
    let x ← begin_ l
    uniqueLoop l pred x last

/-- `c_slist_unique`, c_forward_list.c:629-633 -/
def unique (l : Addr) : M V Unit :=
  if l = 0 then pure () else do
  let ty ← ltype l
  uniqueIf l (some (E ty).equal)

end CC.SList
