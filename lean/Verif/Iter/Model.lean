import Verif.List.Model
import Verif.SList.Model
import Verif.Tree.Model
import Verif.Core.Elem
/-!
# Model: iterator objects

`c_iterator_t` (include/c_def.h:183-188) and the structs derived from it (`c_list_iterator_t`, c_list.h; `c_slist_iterator_t`, c_forward_list.h; `c_vector_iterator_t`, c_vector.h;
`c_deque_iterator_t`, c_deque.h; `c_tree_iterator_t`, c_tree.h) are blocks of five slots: 1 `iterator_category`, 2 `iterator_type`, 3 `iterator_ops` (which table),
4 `value_type`, 5 the payload (`node` or `pos`).  An iterator variable of the program (a struct on the stack) is such a block too.

The functions of the nine tables (c_list.c:49-341, c_forward_list.c:44-164, c_vector.c:60-332, c_deque.c:72-310, c_tree.c:621-957) are the same text up to the test
`__is_..._iterator` and the movement of the payload, so each is one definition with the kind as a parameter.

Simplifications: tables are named by numbers (the static structs `s_iter_ops` …, whose address is not in the heap); elements of vectors and deques have one slot, so moving
by `size()` bytes is moving by one slot; moving a pointer of a vector or deque beyond its storage is not an error in itself (using it is), moving it before the
block is; local copies of tree iterators on the stack (`c_tree_iterator_t x`) are local variables.
-/
namespace CC.Iter
open CC
variable {V : Type}

/-- the tables of iterator operations: forward list, list, list reverse, vector, … -/
inductive Kind where
  | fwd | list | listR | vec | vecR | deq | deqR | tree | treeR
deriving DecidableEq, Repr

/-- `iterator_category`: `C_ITER_CATE_FORWARD`, `C_ITER_CATE_BIDIRECTION`, `C_ITER_CATE_RANDOM`, c_def.h:42-48 -/
def Kind.cate : Kind → Nat
  | .fwd => 2
  | .list | .listR | .tree | .treeR => 3
  | .vec | .vecR | .deq | .deqR => 4

/-- `iterator_type`, c_def.h:50-72 -/
def Kind.type : Kind → Nat
  | .fwd => 0
  | .list => 1
  | .listR => 2
  | .vec => 3
  | .vecR => 4
  | .deq => 5
  | .deqR => 6
  | .tree => 7
  | .treeR => 8

/-- the address of the table of operations (`&s_iter_ops`, `&s_reverse_iter_ops`), a name for it -/
def Kind.ops (k : Kind) : Nat := k.type + 1

/-- the table at an address; anything else is not a table -/
def tableAt : Nat → M V Kind
  | 1 => pure .fwd
  | 2 => pure .list
  | 3 => pure .listR
  | 4 => pure .vec
  | 5 => pure .vecR
  | 6 => pure .deq
  | 7 => pure .deqR
  | 8 => pure .tree
  | 9 => pure .treeR
  | _ => ub

/-- the payload of an iterator: `node` (lists, trees) or `pos` (vectors, deques) -/
inductive Pay where
  | node (a : Addr)
  | pos (b : Addr) (i : Nat)
deriving DecidableEq, Repr

def Pay.val : Pay → Val V
  | .node a => .num a
  | .pos b i => .ptr b i

/-- `((c_..._iterator_t*)x)->node` / `->pos` -/
def ldPay (x : Addr) : M V Pay := do
  match ← load (x, 5) with
  | .num a => pure (.node a)
  | .ptr b i => pure (.pos b i)
  | _ => ub

def stPay (x : Addr) (p : Pay) : M V Unit := store (x, 5) p.val

/-- `__is_list_iterator` c_list.c:49-54, `__is_list_reverse_iterator` c_list.c:56-61, `__is_slist_iterator` c_forward_list.c:44-49, `__is_vector_iterator` c_vector.c:60-65,
`__is_vector_reverse_iterator` c_vector.c:67-72, `__is_deque_iterator` c_deque.c:72-77, `__is_deque_reverse_iterator` c_deque.c:79-84, `is_tree_iterator` c_tree.c:621-626,
`is_tree_reverse_iterator` c_tree.c:628-633 -/
def isIter (k : Kind) (x : Addr) : M V Bool :=
  if x = 0 then pure false else do
  let c ← ldN (x, 1)
  if c ≠ k.cate then pure false else do
  let t ← ldN (x, 2)
  pure (t == k.type)

/-- `iter_alloc_and_copy` / `reverse_iter_alloc_and_copy`: c_list.c:63-69, 175-181; c_forward_list.c:51-57; c_vector.c:74-80, 171-177; c_deque.c:86-92, 187-193;
c_tree.c:635-641, 774-780 -/
def allocAndCopy (k : Kind) (self : Loc) (other : Addr) : M V Unit :=
  if self.1 = 0 then pure () else do
  let p ← ldN self
  if p ≠ 0 then pure () else do
  let b ← isIter k other
  if b then do
    let q ← mallocS 5
    stN self q
    let q ← ldN self
    if q ≠ 0 then memcpy (q, 1) (other, 1) 5 else pure ()
  else pure ()

/-- `iter_assign` / `reverse_iter_assign`: c_list.c:71-77, 183-189; c_forward_list.c:59-65; c_vector.c:82-88, 179-185; c_deque.c:94-100, 195-201; c_tree.c:643-649, 782-788 -/
def assign (k : Kind) (dst src : Addr) : M V Addr := do
  let b ← isIter k dst
  if !b then pure dst else do
  let b ← isIter k src
  if !b then pure dst else do
  if dst ≠ src then do
    let p ← ldPay src
    stPay dst p
    pure dst
  else pure dst

/-- where `++` moves the payload: `iter_increment` c_list.c:79-85, c_forward_list.c:67-73, c_vector.c:90-96, c_deque.c:102-108, c_tree.c:651-671;
`reverse_iter_increment` c_list.c:191-197, c_vector.c:187-193, c_deque.c:203-209, c_tree.c:790-798 -/
def fwdP : Kind → Pay → M V Pay
  | .fwd, .node n => do return .node (← SList.iterIncrement n)
  | .list, .node n => do return .node (← CList.iterIncrement n)
  | .listR, .node n => do return .node (← CList.revIncrement n)
  | .tree, .node n => do return .node (← Tree.iterIncrement n)
  | .treeR, .node n => do return .node (← Tree.revIncrement n)
  | .vec, .pos b i | .deq, .pos b i => pure (.pos b (i + 1))
  | .vecR, .pos b i | .deqR, .pos b i => if i = 0 then ub else pure (.pos b (i - 1))
  | _, _ => ub

/-- where `--` moves the payload: `iter_decrement` c_list.c:87-93, c_vector.c:98-104, c_deque.c:110-116, c_tree.c:673-694; `reverse_iter_decrement` c_list.c:199-205,
c_vector.c:195-201, c_deque.c:211-217, c_tree.c:800-808; the table of forward lists has `.decrement = 0`, c_forward_list.c:138 (a call is undefined behaviour) -/
def bwdP : Kind → Pay → M V Pay
  | .list, .node n => do return .node (← CList.iterDecrement n)
  | .listR, .node n => do return .node (← CList.revDecrement n)
  | .tree, .node n => do return .node (← Tree.iterDecrement n)
  | .treeR, .node n => do return .node (← Tree.revDecrement n)
  | .vec, .pos b i | .deq, .pos b i => if i = 0 then ub else pure (.pos b (i - 1))
  | .vecR, .pos b i | .deqR, .pos b i => pure (.pos b (i + 1))
  | _, _ => ub

/-- the element an iterator refers to: `iter_dereference` c_list.c:127-133, c_forward_list.c:91-97, c_vector.c:136-142, c_deque.c:150-156, c_tree.c:728-734;
`reverse_iter_dereference` c_list.c:239-245, c_vector.c:233-239, c_deque.c:251-257, c_tree.c:846-854 -/
def derefP : Kind → Pay → M V Loc
  | .fwd, .node n => SList.iterDereference n
  | .list, .node n => CList.iterDereference n
  | .listR, .node n => CList.revDereference n
  | .tree, .node n => Tree.iterDereference n
  | .treeR, .node n => Tree.revDereference n
  | .vec, .pos b i | .deq, .pos b i => pure (b, i)
  | .vecR, .pos b i | .deqR, .pos b i => if i = 0 then ub else pure (b, i - 1)
  | _, _ => ub

/-- a loop `while (n--)` moving a payload -/
def advLoop (f : Pay → M V Pay) : Pay → Nat → M V Pay
  | p, 0 => pure p
  | p, n + 1 => do
    let p ← f p
    advLoop f p n

/-- where `advance` moves the payload: `iter_advance` c_list.c:146-158, c_forward_list.c:110-117 (no effect if `n ≤ 0`), c_vector.c:161-165, c_deque.c:175-179,
c_tree.c:747-757; `reverse_iter_advance` c_list.c:258-270, c_vector.c:258-262, c_deque.c:276-280, c_tree.c:867-877.  (For vectors and deques the offset `n * size()` is computed in
`size_t`; adding it to the address wraps around, so that a negative `n` moves back.) -/
def advP : Kind → Pay → Int → M V Pay
  | .fwd, p, n => advLoop (fwdP .fwd) p n.toNat
  | .vec, .pos b i, n | .deq, .pos b i, n => if (i : Int) + n < 0 then ub else pure (.pos b ((i : Int) + n).toNat)
  | .vecR, .pos b i, n | .deqR, .pos b i, n => if (i : Int) - n < 0 then ub else pure (.pos b ((i : Int) - n).toNat)
  | k, p, n => if n > 0 then advLoop (fwdP k) p n.toNat else advLoop (bwdP k) p (-n).toNat

/-- a loop `while (first != last) { ++first; ++n; }` -/
def distLoop (f : Pay → M V Pay) (p q : Pay) (n : Nat) : M V Nat :=
  if p ≠ q then do
    let p ← f p
    distLoop f p q (n + 1)
  else pure n
partial_fixpoint

/-- `(ptrdiff_t)d / size` where `size` is a `size_t`: the byte offset `d` is converted to `size_t` (64 bits), the division is unsigned, and the quotient is converted back to
`ptrdiff_t`: the last line of `iter_distance`, c_vector.c:167-171, c_deque.c:181-185 -/
def quot (d : Int) (size : Nat) : Int :=
  let u := (d % 2 ^ 64) / (size : Int)
  if u < 2 ^ 63 then u else u - 2 ^ 64

/-- `iter_distance`: c_list.c:160-173, c_forward_list.c:119-132, c_vector.c:167-171, c_deque.c:181-185, c_tree.c:759-772; `reverse_iter_distance`: c_list.c:272-285,
c_vector.c:264-268, c_deque.c:282-286, c_tree.c:879-892.  `size` is `first->value_type->size()` -/
def distP (size : Nat) : Kind → Pay → Pay → M V Int
  | .vec, .pos b i, .pos b' j | .deq, .pos b i, .pos b' j => if b ≠ b' ∨ size = 0 then ub else pure (quot (((j : Int) - i) * size) size)
  | .vecR, .pos b i, .pos b' j | .deqR, .pos b i, .pos b' j => if b ≠ b' ∨ size = 0 then ub else pure (quot (((i : Int) - j) * size) size)
  | k, p, q => do return (← distLoop (fwdP k) p q 0)

/-- `iter_less` / `reverse_iter_less`: c_vector.c:155-159, 252-256; c_deque.c:169-173, 270-274; the other tables have `.less = 0` (a call is undefined behaviour).  Pointers into
different blocks cannot be compared. -/
def lessP : Kind → Pay → Pay → M V Bool
  | .vec, .pos b i, .pos b' j | .deq, .pos b i, .pos b' j => if b ≠ b' then ub else pure (decide (i < j))
  | .vecR, .pos b i, .pos b' j | .deqR, .pos b i, .pos b' j => if b ≠ b' then ub else pure (decide (i > j))
  | _, _, _ => ub

/-- `iter_increment` / `reverse_iter_increment` (lines: see `fwdP`) -/
def increment (k : Kind) (x : Addr) : M V Addr := do
  let b ← isIter k x
  if b then do
    let p ← ldPay x
    let p ← fwdP k p
    stPay x p
    pure x
  else pure x

/-- `iter_decrement` / `reverse_iter_decrement` (lines: see `bwdP`) -/
def decrement (k : Kind) (x : Addr) : M V Addr := do
  let b ← isIter k x
  if b then do
    let p ← ldPay x
    let p ← bwdP k p
    stPay x p
    pure x
  else pure x

/-- saving the old value in `*tmp`, the common part of post-increment and post-decrement -/
def saveOld (k : Kind) (x : Addr) (tmp : Loc) : M V Unit := do
  let t ← ldN tmp
  if t = 0 then allocAndCopy k tmp x
  else do
    let b ← isIter k t
    cassert b
    let _ ← assign k t x
    pure ()

/-- `iter_post_increment` c_list.c:95-109, c_forward_list.c:75-89, c_vector.c:106-119, c_deque.c:118-132, c_tree.c:696-710; `reverse_iter_post_increment` c_list.c:207-221,
c_vector.c:203-216, c_deque.c:219-233, c_tree.c:810-826 -/
def postIncrement (k : Kind) (x : Addr) (tmp : Loc) : M V Addr := do
  cassert (tmp.1 != 0)
  let b ← isIter k x
  if b then do
    saveOld k x tmp
    let p ← ldPay x
    let p ← fwdP k p
    stPay x p
    ldN tmp
  else ldN tmp

/-- `iter_post_decrement` c_list.c:111-125, c_vector.c:121-134, c_deque.c:134-148, c_tree.c:712-726; `reverse_iter_post_decrement` c_list.c:223-237, c_vector.c:218-231,
c_deque.c:235-249, c_tree.c:828-844 -/
def postDecrement (k : Kind) (x : Addr) (tmp : Loc) : M V Addr := do
  cassert (tmp.1 != 0)
  let b ← isIter k x
  if b then do
    saveOld k x tmp
    let p ← ldPay x
    let p ← bwdP k p
    stPay x p
    ldN tmp
  else ldN tmp

/-- `iter_dereference` / `reverse_iter_dereference` (lines: see `derefP`); NULL for an iterator of another kind -/
def dereference (k : Kind) (x : Addr) : M V Loc := do
  let b ← isIter k x
  if b then do
    let p ← ldPay x
    derefP k p
  else pure (0, 0)

/-- `iter_equal` / `reverse_iter_equal`: c_list.c:135-139, 247-251; c_forward_list.c:99-103; c_vector.c:144-148, 241-245; c_deque.c:158-162, 259-263; c_tree.c:736-740, 856-860 -/
def equal (k : Kind) (x y : Addr) : M V Bool := do
  let b ← isIter k x
  if !b then pure false else do
  let b ← isIter k y
  if !b then pure false else do
  let p ← ldPay x
  let q ← ldPay y
  pure (decide (p = q))

/-- `iter_not_equal` / `reverse_iter_not_equal`: c_list.c:141-144, 253-256; c_forward_list.c:105-108; c_vector.c:150-153, 247-250; c_deque.c:164-167, 265-268; c_tree.c:742-745, 862-865 -/
def notEqual (k : Kind) (x y : Addr) : M V Bool := do
  let b ← equal k x y
  pure (!b)

/-- `iter_less` / `reverse_iter_less` (lines: see `lessP`) -/
def less (k : Kind) (x y : Addr) : M V Bool := do
  let b ← isIter k x
  if !b then pure false else do
  let b ← isIter k y
  if !b then pure false else do
  let p ← ldPay x
  let q ← ldPay y
  lessP k p q

/-- `iter_advance` / `reverse_iter_advance` (lines: see `advP`) -/
def advance (k : Kind) (x : Addr) (n : Int) : M V Unit := do
  let b ← isIter k x
  if b then do
    let p ← ldPay x
    let p ← advP k p n
    stPay x p
  else pure ()

/-- `iter_distance` / `reverse_iter_distance` (lines: see `distP`); `Z` gives `size()` of a type -/
def distance (Z : Nat → Nat) (k : Kind) (x y : Addr) : M V Int := do
  let b ← isIter k x
  if !b then pure 0 else do
  let b ← isIter k y
  if !b then pure 0 else do
  let p ← ldPay x
  let q ← ldPay y
  let ty ← ldN (x, 4)
  distP (Z ty) k p q

/-! ## The macros: calls through the table of the first iterator, c_def.h:294-303 -/

/-- `C_ITER_T(x)->iterator_ops`; undefined behaviour if `x` is NULL -/
def opsOf (x : Addr) : M V Kind :=
  if x = 0 then ub else do
  let o ← ldN (x, 3)
  tableAt o

/-- `C_ITER_COPY(x, y)`, c_def.h:294 -/
def cCopy (x : Loc) (y : Addr) : M V Unit := do
  let k ← opsOf y
  allocAndCopy k x y
/-- `C_ITER_ASSIGN(x, y)`, c_def.h:295 -/
def cAssign (x y : Addr) : M V Addr := do
  let k ← opsOf x
  assign k x y
/-- `C_ITER_INC(x)`, c_def.h:296 -/
def cInc (x : Addr) : M V Addr := do
  let k ← opsOf x
  increment k x
/-- `C_ITER_DEC(x)`, c_def.h:297; the table of forward lists has no `decrement` -/
def cDec (x : Addr) : M V Addr := do
  let k ← opsOf x
  if k = .fwd then ub else decrement k x
/-- `C_ITER_T(x)->iterator_ops->post_increment(x, tmp)`, c_def.h:155-160 -/
def cPostInc (x : Addr) (tmp : Loc) : M V Addr := do
  let k ← opsOf x
  postIncrement k x tmp
/-- `C_ITER_T(x)->iterator_ops->post_decrement(x, tmp)`, c_def.h:161-165; the table of forward lists has none -/
def cPostDec (x : Addr) (tmp : Loc) : M V Addr := do
  let k ← opsOf x
  if k = .fwd then ub else postDecrement k x tmp
/-- `C_ITER_DEREF(x)`, c_def.h:298 -/
def cDeref (x : Addr) : M V Loc := do
  let k ← opsOf x
  dereference k x
/-- `C_ITER_EQ(x, y)`, c_def.h:299 -/
def cEq (x y : Addr) : M V Bool := do
  let k ← opsOf x
  equal k x y
/-- `C_ITER_NE(x, y)`, c_def.h:300 -/
def cNe (x y : Addr) : M V Bool := do
  let k ← opsOf x
  notEqual k x y
/-- `C_ITER_LESS(x, y)`, c_def.h:301; only the tables of vectors and deques have `less` -/
def cLess (x y : Addr) : M V Bool := do
  let k ← opsOf x
  if k.cate ≠ 4 then ub else less k x y
/-- `C_ITER_ADVANCE(x, n)`, c_def.h:302 -/
def cAdvance (x : Addr) (n : Int) : M V Unit := do
  let k ← opsOf x
  advance k x n
/-- `C_ITER_DISTANCE(x, y)`, c_def.h:303 -/
def cDistance (Z : Nat → Nat) (x y : Addr) : M V Int := do
  let k ← opsOf x
  distance Z k x y

/-- `__c_iter_copy_or_assign`, c_internal.h:79-89 -/
def copyOrAssign (dst : Loc) (src : Addr) : M V Unit :=
  if dst.1 = 0 then pure () else do
  let p ← ldN dst
  if p = 0 then cCopy dst src
  else do
    let _ ← cAssign p src
    pure ()

/-- storing an iterator in an iterator variable (`it = c_list_begin(l)`): the struct built by `__create_iterator` / `__create_reverse_iterator`, c_list.c:302-318, 335-351;
c_forward_list.c:149-164; c_vector.c:285-300, 317-332; c_deque.c:303-318, 335-350; c_tree.c:909-925, 942-958 (whose `assert`s on `value_type` and `node` are included) -/
def setIter (x : Addr) (k : Kind) (ty : Nat) (p : Pay) : M V Unit := do
  cassert (ty != 0)
  (match p with
    | .node n => cassert (n != 0)
    | .pos _ _ => pure ())
  stN (x, 1) k.cate
  stN (x, 2) k.type
  stN (x, 3) k.ops
  stN (x, 4) ty
  stPay x p

end CC.Iter
