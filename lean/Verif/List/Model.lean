import Verif.Core.Ty
/-!
# Model of container/c_list.c

Memory layout (slot `0` of each block is the allocator's):
* `c_list_node_t` (c_list.c:33-38): slots `1 = prev`, `2 = next`, `3 = value`;
* `c_list_t` (c_list.c:40-43): slots `1 = node` (the sentinel), `2 = value_type`;
* the element storage `node->value` points to is a block with one object slot `1`.

A `c_ref_t` is a location (`Loc`); NULL is any location in block `0`.  A `c_list_iterator_t` is the node it designates
(the constant fields of the iterator struct are not modelled; iterators of the right category are assumed, i.e. the
`__is_list_iterator` checks of c_list.c:49-61 succeed).
-/

namespace CC.CList

variable {V : Type}

abbrev prv (a : Addr) : M V Addr := ldN (a, 1)
abbrev nxt (a : Addr) : M V Addr := ldN (a, 2)
abbrev valp (a : Addr) : M V Addr := ldN (a, 3)
abbrev setPrv (a x : Addr) : M V Unit := stN (a, 1) x
abbrev setNxt (a x : Addr) : M V Unit := stN (a, 2) x
abbrev setValp (a x : Addr) : M V Unit := stN (a, 3) x
/-- `list->node` -/
abbrev lnode (l : Addr) : M V Addr := ldN (l, 1)
/-- `list->value_type` -/
abbrev ltype (l : Addr) : M V Nat := ldN (l, 2)
/-- the location of the element `node->value` points to -/
abbrev valOf (n : Addr) : M V Loc := do return ((← valp n), 1)

/-- `iter_increment`, c_list.c:79-85 -/
def iterIncrement (n : Addr) : M V Addr := nxt n
/-- `iter_decrement`, c_list.c:87-93 -/
def iterDecrement (n : Addr) : M V Addr := prv n
/-- `iter_dereference`, c_list.c:127-133 (NULL for end, whose `value` is NULL) -/
def iterDereference (n : Addr) : M V Loc := valOf n
/-- `reverse_iter_increment`, c_list.c:191-197 -/
def revIncrement (n : Addr) : M V Addr := prv n
/-- `reverse_iter_decrement`, c_list.c:199-205 -/
def revDecrement (n : Addr) : M V Addr := nxt n
/-- `reverse_iter_dereference`, c_list.c:239-245 -/
def revDereference (n : Addr) : M V Loc := do
  let p ← prv n
  valOf p

/-- `iter_advance`, c_list.c:146-158, forward part (`n > 0`); also the backward loop of the reverse iterator -/
def advanceFwd (node : Addr) : Nat → M V Addr
  | 0 => pure node
  | n+1 => do
    let node ← nxt node
    advanceFwd node n
/-- `iter_advance`, c_list.c:146-158, backward part (`n ≤ 0`) -/
def advanceBwd (node : Addr) : Nat → M V Addr
  | 0 => pure node
  | n+1 => do
    let node ← prv node
    advanceBwd node n
/-- `iter_advance`, c_list.c:146-158 -/
def iterAdvance (node : Addr) : Int → M V Addr
  | .ofNat n => advanceFwd node n
  | .negSucc n => advanceBwd node (n+1)

/-- `iter_distance`, c_list.c:160-173: the loop -/
def distanceLoop (first last : Addr) (n : Nat) : M V Nat :=
  if first ≠ last then do
    let first ← nxt first
    distanceLoop first last (n+1)
  else pure n
partial_fixpoint

/-- `reverse_iter_distance`, c_list.c:272-285: the loop -/
def revDistanceLoop (first last : Addr) (n : Nat) : M V Nat :=
  if first ≠ last then do
    let first ← prv first
    revDistanceLoop first last (n+1)
  else pure n
partial_fixpoint

/-- `__begin`, c_list.c:353-357 -/
def begin_ (l : Addr) : M V Addr := do
  cassert (l != 0)
  let s ← lnode l
  nxt s

/-- `__end`, c_list.c:359-363 -/
def end_ (l : Addr) : M V Addr := do
  cassert (l != 0)
  lnode l

/-- `c_list_rbegin`, c_list.c:648-652: a reverse iterator stored as the node after the element it designates -/
def rbegin (l : Addr) : M V Addr := end_ l
/-- `c_list_rend`, c_list.c:660-664 -/
def rend (l : Addr) : M V Addr := begin_ l
/-- `reverse_iter_advance`, c_list.c:258-270 -/
def revAdvance (node : Addr) : Int → M V Addr
  | .ofNat n => advanceBwd node n
  | .negSucc n => advanceFwd node (n+1)

/-- A client loop: `for (it = first; it != last; ++it)` reading every element through its iterator
(c_list.c:79-85, 127-140). -/
def walkFwd (node last : Addr) : M V (List V) :=
  if node ≠ last then do
    let r ← iterDereference node
    let v ← ldV r
    let node ← iterIncrement node
    let vs ← walkFwd node last
    pure (v :: vs)
  else pure []
partial_fixpoint

/-- The same loop with reverse iterators (c_list.c:191-197, 239-252). -/
def walkRev (node last : Addr) : M V (List V) :=
  if node ≠ last then do
    let r ← revDereference node
    let v ← ldV r
    let node ← revIncrement node
    let vs ← walkRev node last
    pure (v :: vs)
  else pure []
partial_fixpoint

/-- read the list from `c_list_begin` to `c_list_end` -/
def readAll (l : Addr) : M V (List V) := do
  let b ← begin_ l
  let e ← end_ l
  walkFwd b e

/-- read the list from `c_list_rbegin` to `c_list_rend` -/
def readAllRev (l : Addr) : M V (List V) := do
  let b ← rbegin l
  let e ← rend l
  walkRev b e

variable (E : Types V)

/-- `__create_node`, c_list.c:365-389.  `value = NULL` default-constructs. -/
def createNode (l : Addr) (value : Loc) : M V Addr := do
  cassert (l != 0)
  let node ← mallocS 3
  if node = 0 then pure 0 else do
  setPrv node 0
  setNxt node 0
  let b ← mallocO 1
  setValp node b
  let b ← valp node
  if b = 0 then do
    free node
    pure 0
  else do
  if value.1 ≠ 0 then do
    let v ← ldV value
    construct (b, 1) v
    pure node
  else do
    let ty ← ltype l
    construct (b, 1) (E ty).dflt
    pure node

/-- `__pop_node`, c_list.c:391-408 -/
def popNode (l node : Addr) : M V Addr := do
  cassert (l != 0)
  cassert (node != 0)
  let s ← lnode l
  if node = s then pure node else do
  let next ← nxt node
  let prev ← prv node
  setPrv next prev
  setNxt prev next
  let b ← valp node
  destroyV (b, 1)
  freeV b
  free node
  pure next

/-- `__transfer`, c_list.c:411-423: move `[first, last)` in front of `pos` -/
def transfer (pos first last : Addr) : M V Unit :=
  if pos ≠ last ∧ first ≠ last then do
    let p ← prv pos
    setNxt p first
    let f ← prv first
    setNxt f last
    let l ← prv last
    setNxt l pos
    let tmp ← prv pos
    let l ← prv last
    setPrv pos l
    let f ← prv first
    setPrv last f
    setPrv first tmp
  else pure ()

/-- `c_list_create`, c_list.c:550-570 (`validate_type_info` is assumed to pass) -/
def create (ty : Nat) : M V Addr :=
  if ty = 0 then pure 0 else do
  let l ← mallocS 2
  if l = 0 then pure 0 else do
  let s ← mallocS 3
  stN (l, 1) s
  let s ← lnode l
  if s = 0 then do
    free l
    pure 0
  else do
  stN (l, 2) ty
  let s ← lnode l
  setPrv s s
  setNxt s s
  setValp s 0
  pure l

/-- `c_list_empty`, c_list.c:669-672 -/
def empty (l : Addr) : M V Bool :=
  if l ≠ 0 then do
    let b ← begin_ l
    let e ← end_ l
    pure (b == e)
  else pure true

/-- `c_list_size`, c_list.c:674-680 -/
def size (l : Addr) : M V Nat :=
  if l = 0 then pure 0 else do
  let first ← begin_ l
  let last ← end_ l
  distanceLoop first last 0

/-- the loop of `c_list_clear`, c_list.c:696-698 -/
def clearLoop (l node last : Addr) : M V Unit :=
  if node ≠ last then do
    let node ← popNode l node
    clearLoop l node last
  else pure ()
partial_fixpoint

/-- `c_list_clear`, c_list.c:690-699 -/
def clear (l : Addr) : M V Unit := do
  let e ← empty l
  if e then pure () else do
  let node ← begin_ l
  let last ← end_ l
  clearLoop l node last

/-- `c_list_destroy`, c_list.c:617-624 -/
def destroy (l : Addr) : M V Unit :=
  if l = 0 then pure () else do
  clear l
  let s ← lnode l
  free s
  stN (l, 1) 0
  free l

/-- `c_list_front`, c_list.c:629-632 -/
def front (l : Addr) : M V Loc := do
  let e ← empty l
  if e then pure (0, 1) else do
  let n ← begin_ l
  valOf n

/-- `c_list_back`, c_list.c:634-637 -/
def back (l : Addr) : M V Loc := do
  let e ← empty l
  if e then pure (0, 1) else do
  let n ← end_ l
  let p ← prv n
  valOf p

/-- `c_list_insert`, c_list.c:701-714 -/
def insert (l pos : Addr) (value : Loc) : M V Addr :=
  if l = 0 ∨ value.1 = 0 then pure pos else do
  let node ← createNode E l value
  if node = 0 then pure pos else do
  setNxt node pos
  let p ← prv pos
  setPrv node p
  let p ← prv pos
  setNxt p node
  setPrv pos node
  pure node

/-- `c_list_erase`, c_list.c:716-722 -/
def erase (l pos : Addr) : M V Addr :=
  if l = 0 then pure pos else popNode l pos

/-- `c_list_erase_range`, c_list.c:724-732 -/
def eraseRange (l pos last : Addr) : M V Addr :=
  if pos ≠ last then do
    let pos ← erase l pos
    eraseRange l pos last
  else pure pos
partial_fixpoint

/-- link a fresh node in front of the sentinel: the common tail of `c_list_push_back` (c_list.c:741-744) and of the
loop of `c_list_resize_with_value` (c_list.c:791-794) -/
def linkBack (l node : Addr) : M V Unit := do
  let s ← lnode l
  setNxt node s
  let s ← lnode l
  let p ← prv s
  setPrv node p
  let s ← lnode l
  let p ← prv s
  setNxt p node
  let s ← lnode l
  setPrv s node

/-- `c_list_push_back`, c_list.c:734-745 -/
def pushBack (l : Addr) (value : Loc) : M V Unit :=
  if l = 0 ∨ value.1 = 0 then pure () else do
  let node ← createNode E l value
  if node = 0 then pure () else linkBack l node

/-- `c_list_pop_back`, c_list.c:747-751 -/
def popBack (l : Addr) : M V Unit := do
  let e ← empty l
  if e then pure () else do
  let s ← lnode l
  let n ← prv s
  let _ ← popNode l n
  pure ()

/-- `c_list_push_front`, c_list.c:753-764 -/
def pushFront (l : Addr) (value : Loc) : M V Unit :=
  if l = 0 ∨ value.1 = 0 then pure () else do
  let node ← createNode E l value
  if node = 0 then pure () else do
  let s ← lnode l
  let x ← nxt s
  setNxt node x
  let s ← lnode l
  setPrv node s
  let s ← lnode l
  let x ← nxt s
  setPrv x node
  let s ← lnode l
  setNxt s node

/-- `c_list_pop_front`, c_list.c:766-769 -/
def popFront (l : Addr) : M V Unit := do
  let e ← empty l
  if e then pure () else do
  let s ← lnode l
  let n ← nxt s
  let _ ← popNode l n
  pure ()

/-- first loop of `c_list_resize_with_value`, c_list.c:780-784: skip `count` nodes -/
def resizeSkip (l node : Addr) (count : Nat) : M V (Addr × Nat) := do
  let s ← lnode l
  if node ≠ s ∧ count > 0 then do
    let node ← nxt node
    resizeSkip l node (count - 1)
  else pure (node, count)
partial_fixpoint

/-- growing loop of `c_list_resize_with_value`, c_list.c:787-795 -/
def resizeGrow (l : Addr) (value : Loc) : Nat → M V Unit
  | 0 => pure ()
  | count+1 => do
    let node ← createNode E l value
    if node = 0 then pure () else do
    linkBack l node
    resizeGrow l value count

/-- shrinking loop of `c_list_resize_with_value`, c_list.c:798-800 -/
def resizeShrink (l node : Addr) : M V Unit := do
  let s ← lnode l
  if node ≠ s then do
    let node ← popNode l node
    resizeShrink l node
  else pure ()
partial_fixpoint

/-- `c_list_resize_with_value`, c_list.c:776-802 -/
def resizeWithValue (l : Addr) (count : Nat) (value : Loc) : M V Unit :=
  if l = 0 then pure () else do
  let s ← lnode l
  let node ← nxt s
  let (node, count) ← resizeSkip l node count
  if count > 0 then resizeGrow E l value count
  else resizeShrink l node

/-- `c_list_resize`, c_list.c:771-774 -/
def resize (l : Addr) (count : Nat) : M V Unit := resizeWithValue E l count (0, 1)

/-- `c_list_swap`, c_list.c:804-810: exchanges the two structs -/
def swap (l other : Addr) : M V Unit :=
  if l = 0 ∨ other = 0 then pure () else do
  let tn ← lnode l
  let tt ← ltype l
  let n ← lnode other
  let t ← ltype other
  stN (l, 1) n
  stN (l, 2) t
  stN (other, 1) tn
  stN (other, 2) tt

/-- loop of `c_list_create_from`, c_list.c:579-583: `values` is an array of elements (consecutive slots of a block) -/
def createFromLoop (l : Addr) (value : Loc) : Nat → M V Unit
  | 0 => pure ()
  | n+1 => do
    pushBack E l value
    createFromLoop l (value.1, value.2 + 1) n

/-- `c_list_create_from`, c_list.c:572-586 -/
def createFrom (ty : Nat) (values : Loc) (length : Nat) : M V Addr :=
  if ty = 0 ∨ values.1 = 0 ∨ length = 0 then pure 0 else do
  let l ← create ty
  if l = 0 then pure 0 else do
  createFromLoop E l values length
  pure l

/-- the loop of `c_list_copy` (c_list.c:595-597) and `c_list_assign` (c_list.c:609-611) -/
def copyLoop (l other node : Addr) : M V Unit := do
  let e ← end_ other
  if node ≠ e then do
    let v ← valOf node
    pushBack E l v
    let node ← nxt node
    copyLoop l other node
  else pure ()
partial_fixpoint

/-- `c_list_copy`, c_list.c:588-600 -/
def copy (other : Addr) : M V Addr :=
  if other = 0 then pure 0 else do
  let ty ← ltype other
  let l ← create ty
  if l = 0 then pure 0 else do
  let node ← begin_ other
  copyLoop E l other node
  pure l

/-- `c_list_assign`, c_list.c:602-615 -/
def assign (self other : Addr) : M V Addr :=
  if self = 0 ∨ other = 0 then pure self else
  if self ≠ other then do
    clear self
    let ty ← ltype other
    stN (self, 2) ty
    let node ← begin_ other
    copyLoop E self other node
    pure self
  else pure self

/-- loop of `c_list_merge_by`, c_list.c:830-839; returns the final `other_node` -/
def mergeLoop (comp : V → V → Bool) (node last otherNode otherLast : Addr) : M V Addr :=
  if node ≠ last ∧ otherNode ≠ otherLast then do
    let x ← valOf otherNode
    let y ← valOf node
    let vx ← ldV x
    let vy ← ldV y
    if comp vx vy then do
      let otherNext ← nxt otherNode
      transfer node otherNode otherNext
      mergeLoop comp node last otherNext otherLast
    else do
      let node ← nxt node
      mergeLoop comp node last otherNode otherLast
  else pure otherNode
partial_fixpoint

/-- `c_list_merge_by`, c_list.c:821-843 (a NULL `comp` is `none`) -/
def mergeBy (l other : Addr) (comp : Option (V → V → Bool)) : M V Unit :=
  if l = 0 then pure () else do
  let e ← empty other
  if e then pure () else do
  match comp with
  | none => pure ()
  | some comp => do
    let t1 ← ltype l
    let t2 ← ltype other
    if !isSame t1 t2 then pure () else do
    let node ← begin_ l
    let last ← end_ l
    let otherNode ← begin_ other
    let otherLast ← end_ other
    let otherNode ← mergeLoop comp node last otherNode otherLast
    if otherNode ≠ otherLast then transfer last otherNode otherLast
    else pure ()

/-- `c_list_merge`, c_list.c:815-819 -/
def merge (l other : Addr) : M V Unit :=
  if l = 0 then pure () else do
  let ty ← ltype l
  mergeBy l other (some (E ty).less)

/-- guard shared by the splice functions, c_list.c:847,854,861 -/
def spliceGuard (l other : Addr) : M V Bool :=
  if l = 0 then pure true else do
  let e ← empty other
  if e then pure true else do
  let t1 ← ltype l
  let t2 ← ltype other
  pure (!isSame t1 t2)

/-- `c_list_splice`, c_list.c:845-850 -/
def splice (l pos other : Addr) : M V Unit := do
  let g ← spliceGuard l other
  if g then pure () else do
  let first ← begin_ other
  let last ← end_ other
  transfer pos first last

/-- `c_list_splice_from`, c_list.c:852-857 -/
def spliceFrom (l pos other from_ : Addr) : M V Unit := do
  let g ← spliceGuard l other
  if g then pure () else do
  let last ← end_ other
  transfer pos from_ last

/-- `c_list_splice_range`, c_list.c:859-864 -/
def spliceRange (l pos other first last : Addr) : M V Unit := do
  let g ← spliceGuard l other
  if g then pure () else
  transfer pos first last

/-- loop of `c_list_remove`, c_list.c:872-879; `value` is re-read through its reference at every step -/
def removeLoop (l : Addr) (value : Loc) (node last : Addr) : M V Unit :=
  if node ≠ last then do
    let ty ← ltype l
    let x ← valOf node
    let vx ← ldV x
    let v ← ldV value
    if (E ty).equal vx v then do
      let node ← popNode l node
      removeLoop l value node last
    else do
      let node ← nxt node
      removeLoop l value node last
  else pure ()
partial_fixpoint

/-- `c_list_remove`, c_list.c:866-880 -/
def remove (l : Addr) (value : Loc) : M V Unit := do
  let e ← empty l
  if e ∨ value.1 = 0 then pure () else do
  let node ← begin_ l
  let last ← end_ l
  removeLoop E l value node last

/-- loop of `c_list_remove_if`, c_list.c:888-895 -/
def removeIfLoop (l : Addr) (pred : V → Bool) (node last : Addr) : M V Unit :=
  if node ≠ last then do
    let x ← valOf node
    let vx ← ldV x
    if pred vx then do
      let node ← popNode l node
      removeIfLoop l pred node last
    else do
      let node ← nxt node
      removeIfLoop l pred node last
  else pure ()
partial_fixpoint

/-- `c_list_remove_if`, c_list.c:882-896 -/
def removeIf (l : Addr) (pred : V → Bool) : M V Unit := do
  let e ← empty l
  if e then pure () else do
  let node ← begin_ l
  let last ← end_ l
  removeIfLoop l pred node last

/-- creation of the counters in `c_list_sort_by`, c_list.c:912-916: creates lists until `k` are made or an allocation
fails; returns the array (missing entries are NULL) and whether all were created -/
def createCounters (ty : Nat) : Nat → M V (List Addr × Bool)
  | 0 => pure ([], true)
  | k+1 => do
    let c ← create ty
    if c = 0 then pure (List.replicate (k+1) 0, false) else do
    let (cs, ok) ← createCounters ty k
    pure (c :: cs, ok)

/-- `counter[i]`; out of bounds is undefined behaviour -/
def at_ (cs : List Addr) (i : Nat) : M V Addr :=
  match cs[i]? with
  | some c => pure c
  | none => ub

/-- inner loop of `c_list_sort_by`, c_list.c:922-925; returns the final `i` -/
def sortCarry (comp : V → V → Bool) (carry : Addr) (cs : List Addr) (fill i : Nat) : M V Nat :=
  if i < fill then do
    let c ← at_ cs i
    let e ← empty c
    if e then pure i else do
    mergeBy c carry (some comp)
    swap carry c
    sortCarry comp carry cs fill (i+1)
  else pure i
partial_fixpoint

/-- main loop of `c_list_sort_by`, c_list.c:919-928; returns the final `fill` -/
def sortLoop (comp : V → V → Bool) (l carry : Addr) (cs : List Addr) (fill : Nat) : M V Nat := do
  let e ← empty l
  if e then pure fill else do
  let b ← begin_ carry
  let f ← begin_ l
  let f' ← begin_ l
  let n ← nxt f'
  transfer b f n
  let i ← sortCarry comp carry cs fill 0
  let c ← at_ cs i
  swap carry c
  sortLoop comp l carry cs (if i = fill then fill + 1 else fill)
partial_fixpoint

/-- final merges of `c_list_sort_by`, c_list.c:930-931 -/
def sortFinal (comp : V → V → Bool) (cs : List Addr) (fill i : Nat) : M V Unit :=
  if i < fill then do
    let c ← at_ cs i
    let c' ← at_ cs (i - 1)
    mergeBy c c' (some comp)
    sortFinal comp cs fill (i+1)
  else pure ()
partial_fixpoint

/-- destruction of the counters, c_list.c:935-937 -/
def destroyCounters : List Addr → M V Unit
  | [] => pure ()
  | c :: cs => do
    destroy c
    destroyCounters cs

/-- `c_list_sort_by`, c_list.c:905-939 -/
def sortBy (l : Addr) (comp : Option (V → V → Bool)) : M V Unit := do
  let e ← empty l
  if e then pure () else do
  let n ← size l
  if n = 1 then pure () else do
  match comp with
  | none => pure ()
  | some comp => do
    let ty ← ltype l
    let carry ← create ty
    if carry = 0 then pure () else do
    let ty ← ltype l
    let (cs, ok) ← createCounters ty 64
    if ok then do
      let fill ← sortLoop comp l carry cs 0
      sortFinal comp cs fill 1
      let c ← at_ cs (fill - 1)
      swap l c
      destroyCounters cs
      destroy carry
    else do
      destroyCounters cs
      destroy carry

/-- `c_list_sort`, c_list.c:898-903 -/
def sort (l : Addr) : M V Unit := do
  let e ← empty l
  if e then pure () else do
  let n ← size l
  if n = 1 then pure () else do
  let ty ← ltype l
  sortBy l (some (E ty).less)

/-- loop of `c_list_reverse`, c_list.c:947-952 -/
def reverseLoop (l x : Addr) : M V Unit := do
  let e ← end_ l
  if x ≠ e then do
    let y ← nxt x
    let p ← prv x
    setNxt x p
    setPrv x y
    reverseLoop l y
  else pure ()
partial_fixpoint

/-- `c_list_reverse`, c_list.c:941-957 -/
def reverse (l : Addr) : M V Unit := do
  let e ← empty l
  if e then pure () else do
  let n ← size l
  if n = 1 then pure () else do
  let x ← begin_ l
  reverseLoop l x
  let s ← lnode l
  let y ← nxt s
  let p ← prv s
  setNxt s p
  setPrv s y

/-- inner loop of `c_list_unique_if`, c_list.c:973-975; returns the final `y` -/
def uniqueInner (l : Addr) (pred : V → V → Bool) (x y : Addr) : M V Addr := do
  let e ← end_ l
  if y ≠ e then do
    let bx ← valOf x
    let by_ ← valOf y
    let vx ← ldV bx
    let vy ← ldV by_
    if pred vx vy then do
      let y ← popNode l y
      uniqueInner l pred x y
    else pure y
  else pure y
partial_fixpoint

/-- outer loop of `c_list_unique_if`, c_list.c:971-977 -/
def uniqueLoop (l : Addr) (pred : V → V → Bool) (x : Addr) : M V Unit := do
  let e ← end_ l
  if x ≠ e then do
    let n ← nxt x
    if n ≠ e then do
      let y ← nxt x
      let _ ← uniqueInner l pred x y
      let x ← nxt x
      uniqueLoop l pred x
    else pure ()
  else pure ()
partial_fixpoint

/-- `c_list_unique_if`, c_list.c:965-978 -/
def uniqueIf (l : Addr) (pred : Option (V → V → Bool)) : M V Unit := do
  let e ← empty l
  if e then pure () else do
  let n ← size l
  if n = 1 then pure () else do
  match pred with
  | none => pure ()
  | some pred => do
    let x ← begin_ l
    uniqueLoop l pred x

/-- `c_list_unique`, c_list.c:959-963 -/
def unique (l : Addr) : M V Unit :=
  if l = 0 then pure () else do
  let ty ← ltype l
  uniqueIf l (some (E ty).equal)

end CC.CList
