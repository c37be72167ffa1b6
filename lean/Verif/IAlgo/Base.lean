import Verif.Iter.Model
import Verif.Algo.Base
/-!
# Model: what the algorithms do with iterator objects

The programs of Verif/IAlgo/*.lean follow the text of `/repo/algorithm` with iterators as objects in memory: shadow copies are allocated and freed, the macros `C_ITER_*` go through the tables of
operations, arguments are checked by `assert`.

Simplifications: callbacks are not NULL; predicates and comparisons are pure functions of values; the operations of the element types are those of Verif/Algo/Base.lean, except that temporaries for elements
are allocated.  Functions that return a result in `c_iterator_t**` parameters take an `Out`.
-/
namespace CC.IAlgo
open CC CC.Iter CC.Algo
variable {V : Type}

/-- `C_ITER_COPY(&p, y)`, c_def.h:294, where `p` is a local variable that is NULL: its new value (see `Iter.allocAndCopy`) -/
def newCopy (y : Addr) : M V Addr := do
  let k ← opsOf y
  let b ← isIter k y
  if b then do
    let q ← mallocS 5
    (if q ≠ 0 then memcpy (q, 1) (y, 1) 5 else pure ())
    pure q
  else pure 0

/-- `assert(C_ITER_AT_LEAST(x, c))`, c_def.h:305 -/
def atLeast (x : Addr) (c : Nat) : M V Unit :=
  if x = 0 then ub else do
  let k ← ldN (x, 1)
  cassert (decide (c ≤ k))

/-- `assert(C_ITER_EXACT(x, c))`, c_def.h:306 -/
def exactly (x : Addr) (c : Nat) : M V Unit :=
  if x = 0 then ub else do
  let k ← ldN (x, 1)
  cassert (decide (k = c))

/-- `assert(C_ITER_MUTABLE(x))`, c_def.h:307; `C_ITER_TYPE_NONMUTABLE` is 7, c_def.h:59 -/
def isMutable (x : Addr) : M V Unit :=
  if x = 0 then ub else do
  let t ← ldN (x, 2)
  cassert (decide (t < 7))

/-- a parameter `c_iterator_t** found`: a variable in memory (`(0, _)` is NULL), or the address of a local variable of the caller with its value -/
inductive Out where
  | var (l : Loc)
  | val (p : Addr)

/-- `found == NULL` -/
def Out.isNull : Out → Bool
  | .var l => l.1 == 0
  | .val _ => false

/-- `assert(found == 0 || *found == 0 || C_ITER_AT_LEAST(*found, c))` -/
def Out.atLeast (o : Out) (c : Nat) : M V Unit :=
  match o with
  | .var l => if l.1 = 0 then pure () else do
    let p ← ldN l
    if p = 0 then pure () else IAlgo.atLeast p c
  | .val p => if p = 0 then pure () else IAlgo.atLeast p c

/-- `assert(until == 0 || *until == 0 || C_ITER_EXACT(*until, c))` -/
def Out.exactly (o : Out) (c : Nat) : M V Unit :=
  match o with
  | .var l => if l.1 = 0 then pure () else do
    let p ← ldN l
    if p = 0 then pure () else IAlgo.exactly p c
  | .val p => if p = 0 then pure () else IAlgo.exactly p c

/-- `assert(d_last == 0 || *d_last == 0 || C_ITER_AT_LEAST(d_last, c))`, as c_modifying.c has it: the address `d_last` of the variable is taken for the address of an iterator object, so the category
that is compared is read from the bits of the pointer `*d_last`.  `low q` stands for these bits of the pointer `q`. -/
def Out.lowCheck (low : Addr → Nat) (o : Out) (c : Nat) : M V Unit :=
  match o with
  | .var l => if l.1 = 0 then pure () else do
    let p ← ldN l
    if p = 0 then pure () else cassert (decide (c ≤ low p))
  | .val p => if p = 0 then pure () else cassert (decide (c ≤ low p))

/-- `__c_iter_copy_or_assign(found, src)`, c_internal.h:79-89; returns the new value of the local variable -/
def Out.set (o : Out) (src : Addr) : M V Addr :=
  match o with
  | .var l => do
    copyOrAssign l src
    pure 0
  | .val p => if p = 0 then newCopy src else do
    let _ ← cAssign p src
    pure p

/-- `__c_iter_copy_and_move(&p, src, n)`, c_internal.h:91-96, for a local variable with value `p`: its new value -/
def copyMove (p src : Addr) (n : Int) : M V Addr := do
  let p ← Out.set (.val p) src
  cAdvance p n
  pure p

/-- `C_ITER_T(x)->value_type` -/
def typeOf (x : Addr) : M V Nat := if x = 0 then ub else ldN (x, 4)

/-- `pred(C_ITER_DEREF(x))` -/
def testAt (pred : V → Bool) (x : Addr) : M V Bool := do
  let l ← cDeref x
  test pred l

/-- `pred(C_ITER_DEREF(x), value)` -/
def cmpV (comp : V → V → Bool) (x : Addr) (v : Loc) : M V Bool := do
  let l ← cDeref x
  cmp comp l v

/-- `comp(value, C_ITER_DEREF(x))` -/
def vCmp (comp : V → V → Bool) (v : Loc) (x : Addr) : M V Bool := do
  let l ← cDeref x
  cmp comp v l

/-- `pred(C_ITER_DEREF(x), C_ITER_DEREF(y))` -/
def cmpAt (comp : V → V → Bool) (x y : Addr) : M V Bool := do
  let l ← cDeref x
  let l' ← cDeref y
  cmp comp l l'

/-- `C_ITER_DEREF_EQUAL_V(x, v)`, c_def.h:314: the equality of the value type of `x` -/
def equalV (E : Nat → V → V → Bool) (x : Addr) (v : Loc) : M V Bool := do
  let t ← typeOf x
  let l ← cDeref x
  cmp (E t) l v

/-- `C_ITER_DEREF_ASSIGN(x, y)`, c_def.h:312 -/
def assignAt (x y : Addr) : M V Unit := do
  let _ ← typeOf x
  let l ← cDeref x
  let l' ← cDeref y
  asg l l'

/-- `C_ITER_DEREF_ASSIGN_V(x, v)`, c_def.h:311 -/
def assignV (x : Addr) (v : Loc) : M V Unit := do
  let _ ← typeOf x
  let l ← cDeref x
  asg l v

/-- `algo_swap`, c_modifying.c:580-592 -/
def swap (x y : Loc) : M V Unit :=
  if x.1 = 0 ∨ y.1 = 0 then pure () else do
  let t ← mallocO 1
  if t = 0 then ub else do
  let v ← ldV x
  construct (t, 1) v
  asg x y
  asg y (t, 1)
  destroyV (t, 1)
  freeV t

/-- `algo_swap(x->value_type, C_ITER_DEREF(x), C_ITER_DEREF(y))` -/
def swapAt (x y : Addr) : M V Unit := do
  let _ ← typeOf x
  let l ← cDeref x
  let l' ← cDeref y
  swap l l'

/-- `algo_iter_swap`, c_modifying.c:621-631 -/
def iterSwap (x y : Addr) : M V Unit :=
  if x = 0 ∨ y = 0 then pure () else do
  atLeast x 2
  atLeast y 2
  isMutable x
  isMutable y
  let t ← typeOf x
  let t' ← typeOf y
  cassert (decide (t = t'))
  swapAt x y

end CC.IAlgo
