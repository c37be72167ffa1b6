import Verif.Vec.Spec2
/-!
# Model of container/c_deque.c

A deque object is a block of five slots: 1 `start_of_storage`, 2 `start`, 3 `finish`, 4 `end_of_storage`, 5 `value_type`
(c_deque.c:35-41).  Pointers, element slots, iterators and callbacks are modelled as for vectors (Vec/Model.lean).
`__check_deque_state` is constantly true (ENABLE_CHECK_DEQUE_STATE is not defined), so the assertions on it are omitted (with the check compiled in: C93).
-/
namespace CC.Deq
open CC
open CC.Vec (nullP freeStorage)

variable {V : Type} (T : Nat → Ops V)

/-- `__is_valid_pos`, c_deque.c:61-71 -/
def isValidPos (v : Addr) (pos : Loc) : M V Bool :=
  if v = 0 then pure false else do
  let start ← ldP (v, 2)
  let finish ← ldP (v, 3)
  pure (pge pos start && pge finish pos)

/-- `__begin`, c_deque.c:352-356 -/
def begin_ (v : Addr) : M V Loc := do
  cassert (v != 0)
  ldP (v, 2)

/-- `__end`, c_deque.c:358-362 -/
def end_ (v : Addr) : M V Loc := do
  cassert (v != 0)
  ldP (v, 3)

/-- `__sos`, c_deque.c:364-368 -/
def sos (v : Addr) : M V Loc := do
  cassert (v != 0)
  ldP (v, 1)

/-- `__eos`, c_deque.c:370-374 -/
def eos (v : Addr) : M V Loc := do
  cassert (v != 0)
  ldP (v, 4)

/-- `__available_start`, c_deque.c:376-381 -/
def availableStart (v : Addr) : M V Nat := do
  cassert (v != 0)
  let s ← ldP (v, 2)
  let t ← ldP (v, 1)
  psub s t

/-- `__available_end`, c_deque.c:383-388 -/
def availableEnd (v : Addr) : M V Nat := do
  cassert (v != 0)
  let e ← ldP (v, 4)
  let f ← ldP (v, 3)
  psub e f

/-- `__available`, c_deque.c:390-393 -/
def available (v : Addr) : M V Nat := do
  let s ← availableStart v
  let e ← availableEnd v
  pure (s + e)

/-- `__capacity`, c_deque.c:395-400 -/
def capacity (v : Addr) : M V Nat := do
  cassert (v != 0)
  let e ← eos v
  let s ← sos v
  psub e s

/-- `__destroy`, c_deque.c:530-536 -/
def destroyLoop (o : Ops V) (first last : Loc) : M V Unit :=
  if first ≠ last then do
    o.destroy first
    destroyLoop o (padd first 1) last
  else pure ()
partial_fixpoint

/-- body of the loop of `__fill`, c_deque.c:542-549: copy the value, or create a default one -/
def put (o : Ops V) (pos value : Loc) : M V Unit :=
  if value.1 ≠ 0 then o.copy pos value else o.create pos

/-- `__fill`, c_deque.c:538-554 -/
def fill (o : Ops V) (pos : Loc) : Nat → Loc → M V Unit
  | 0, _ => pure ()
  | n+1, value => do
    put o pos value
    fill o (padd pos 1) n value

/-- `c_deque_begin`, c_deque.c:717-721 -/
def dbegin (v : Addr) : M V Loc := do
  cassert (v != 0)
  begin_ v

/-- `c_deque_end`, c_deque.c:729-733 -/
def dend (v : Addr) : M V Loc := do
  cassert (v != 0)
  end_ v

/-- `c_deque_empty`, c_deque.c:744-747 -/
def empty (v : Addr) : M V Bool :=
  if v = 0 then pure true else do
  let b ← begin_ v
  let e ← end_ v
  pure (decide (b = e))

/-- `c_deque_size`, c_deque.c:749-754 -/
def size (v : Addr) : M V Nat :=
  if v = 0 then pure 0 else do
  let e ← end_ v
  let b ← begin_ v
  psub e b

/-- `__insert_aux`, c_deque.c:556-596 -/
def insertAux (v : Addr) (pos : Loc) (n : Nat) (value : Loc) : M V Loc := do
  cassert (v != 0)
  let ty ← ldN (v, 5)
  let ae ← availableEnd v
  if n ≤ ae then do
    let f ← ldP (v, 3)
    let len ← psub f pos
    memmove (padd pos n) pos len
    fill (T ty) pos n value
    let f ← ldP (v, 3)
    stP (v, 3) (padd f n)
    pure pos
  else do
  let as ← availableStart v
  if n ≤ as then do
    let s ← ldP (v, 2)
    let len ← psub pos s
    let d ← pminus s n
    memmove d s len
    let s ← ldP (v, 2)
    let d ← pminus s n
    stP (v, 2) d
    let pos ← pminus pos n
    fill (T ty) pos n value
    pure pos
  else do
    let s ← ldP (v, 2)
    let h1 ← psub pos s
    let f ← ldP (v, 3)
    let h2 ← psub f pos
    let t ← ldP (v, 1)
    let s ← ldP (v, 2)
    memmove t s h1
    let t ← ldP (v, 1)
    stP (v, 2) t
    let s ← ldP (v, 2)
    memmove (padd (padd s h1) n) pos h2
    let s ← ldP (v, 2)
    let pos := padd s h1
    fill (T ty) pos n value
    stP (v, 3) (padd (padd pos n) h2)
    pure pos

/-- `__reallocate_and_move`, c_deque.c:598-622; `true` is the result `-1` (failure) -/
def reallocateAndMove (v : Addr) (n : Nat) : M V Bool := do
  cassert (v != 0)
  let sz ← size v
  let cap ← capacity v
  let cap := if cap * 2 < n + sz then n + sz else cap * 2
  let st ← mallocO cap
  if st = 0 then pure true else do
  let start := padd (st, 1) ((cap - sz) / 2)
  let s0 ← ldP (v, 2)
  let f0 ← ldP (v, 3)
  let len ← psub f0 s0
  memcpy start s0 len
  let ty ← ldN (v, 5)
  let b ← dbegin v
  let e ← dend v
  destroyLoop (T ty) b e
  let t ← ldP (v, 1)
  freeStorage t
  stP (v, 1) (st, 1)
  stP (v, 2) start
  stP (v, 3) (padd start sz)
  stP (v, 4) (padd (st, 1) cap)
  pure false

/-- `c_deque_create`, c_deque.c:627-642 -/
def create (ty : Nat) : M V Addr :=
  if ty = 0 then pure 0 else do
  let v ← mallocS 5
  if v = 0 then pure 0 else do
  stP (v, 1) nullP
  stP (v, 2) nullP
  stP (v, 3) nullP
  stP (v, 4) nullP
  stN (v, 5) ty
  pure v

/-- `c_deque_resize_with_value`, c_deque.c:933-954 -/
def resizeWithValue (v : Addr) (count : Nat) (value : Loc) : M V Unit :=
  if v = 0 then pure () else do
  let sz ← size v
  if sz < count then do
    let sz ← size v
    let count := count - sz
    let av ← available v
    let failed ← (if av < count then reallocateAndMove T v (count * 2) else pure false)
    if failed then pure () else do
    let e ← dend v
    let _ ← insertAux T v e count value
    pure ()
  else do
    let s ← ldP (v, 2)
    let pos := padd s count
    let ty ← ldN (v, 5)
    let e ← dend v
    destroyLoop (T ty) pos e
    stP (v, 3) pos

/-- `c_deque_resize`, c_deque.c:928-931 -/
def resize (v : Addr) (count : Nat) : M V Unit := resizeWithValue T v count (0, 0)

/-- `__reserve`, c_deque.c:402-406 -/
def reserve (v : Addr) (newCap : Nat) : M V Unit := do
  cassert (v != 0)
  let cap ← capacity v
  if cap < newCap then resize T v newCap else pure ()

/-- `c_deque_create_from`, c_deque.c:644-655 -/
def createFrom (ty : Nat) (values : Loc) (length : Nat) : M V Addr :=
  if ty = 0 ∨ values.1 = 0 ∨ length = 0 then pure 0 else do
  let v ← create ty
  if v = 0 then pure 0 else do
  reserve T v length
  let s ← ldP (v, 2)
  memcpy s values length
  pure v

/-- `c_deque_clear`, c_deque.c:791-801 -/
def clear (v : Addr) : M V Unit := do
  let em ← empty v
  if em then pure () else do
  let ty ← ldN (v, 5)
  let b ← dbegin v
  let e ← dend v
  destroyLoop (T ty) b e
  let es ← eos v
  let so ← sos v
  let cap ← psub es so
  let so ← sos v
  stP (v, 2) (padd so (cap / 2))
  let s ← ldP (v, 2)
  stP (v, 3) s

/-- `c_deque_copy`, c_deque.c:657-668 -/
def copy (other : Addr) : M V Addr :=
  if other = 0 then pure 0 else do
  let ty ← ldN (other, 5)
  let v ← create ty
  if v = 0 then pure 0 else do
  let cap ← capacity other
  reserve T v cap
  let s ← ldP (v, 2)
  let os ← ldP (other, 2)
  let n ← size other
  memcpy s os n
  pure v

/-- `c_deque_assign`, c_deque.c:670-682 -/
def assign (self other : Addr) : M V Addr :=
  if self = 0 ∨ other = 0 then pure self else
  if self ≠ other then do
    clear T self
    let ty ← ldN (other, 5)
    stN (self, 5) ty
    let cap ← capacity other
    reserve T self cap
    let s ← ldP (self, 2)
    let os ← ldP (other, 2)
    let n ← size other
    memcpy s os n
    pure self
  else pure self

/-- `c_deque_destroy`, c_deque.c:684-691 -/
def destroy (v : Addr) : M V Unit :=
  if v = 0 then pure () else do
  clear T v
  let s ← ldP (v, 1)
  freeStorage s
  stP (v, 1) nullP
  free v

/-- `c_deque_at`, c_deque.c:696-700 (no bounds check) -/
def at_ (v : Addr) (pos : Nat) : M V Loc :=
  if v = 0 then pure (0, 0) else do
  let b ← begin_ v
  pure (padd b pos)

/-- `c_deque_front`, c_deque.c:702-705 -/
def front (v : Addr) : M V Loc := do
  let em ← empty v
  if em then pure (0, 0) else begin_ v

/-- `c_deque_back`, c_deque.c:707-712 -/
def back (v : Addr) : M V Loc := do
  let em ← empty v
  if em then pure (0, 0) else do
  let e ← end_ v
  pminus e 1

/-- `c_deque_shrink_to_fit`, c_deque.c:761-786 -/
def shrinkToFit (v : Addr) : M V Unit :=
  if v = 0 then pure () else do
  let es ← eos v
  let en ← end_ v
  let so ← sos v
  let be ← begin_ v
  if es = en ∧ so = be then pure () else do
  let f0 ← ldP (v, 3)
  let s0 ← ldP (v, 2)
  let size ← psub f0 s0
  if size = 0 then do
    let t ← ldP (v, 1)
    freeStorage t
    stP (v, 1) nullP
    stP (v, 2) nullP
    stP (v, 3) nullP
    stP (v, 4) nullP
  else do
  let st ← mallocO size
  if st = 0 then pure () else do
  memcpy (st, 1) s0 size
  let ty ← ldN (v, 5)
  let b ← dbegin v
  let e ← dend v
  destroyLoop (T ty) b e
  let t ← ldP (v, 1)
  freeStorage t
  stP (v, 1) (st, 1)
  stP (v, 2) (st, 1)
  stP (v, 3) (padd (st, 1) size)
  stP (v, 4) (padd (st, 1) size)

/-- making room in `c_deque_insert_n`, c_deque.c:815-822: the (possibly moved) position, or `none` if the allocation failed -/
def insertRoom (v : Addr) (pos : Loc) (count : Nat) : M V (Option Loc) := do
  let av ← available v
  if av < count then do
    let s ← ldP (v, 2)
    let diff ← psub pos s
    let av ← available v
    let failed ← reallocateAndMove T v ((count - av) * 2)
    if failed then pure none else do
    let s ← ldP (v, 2)
    pure (some (padd s diff))
  else pure (some pos)

/-- `c_deque_insert_n`, c_deque.c:808-825 -/
def insertN (v : Addr) (pos : Loc) (count : Nat) (value : Loc) : M V Loc :=
  if v = 0 ∨ value.1 = 0 then pure pos else do
  let ok ← isValidPos v pos
  if !ok then dend v else do
  let r ← insertRoom T v pos count
  match r with
  | none => dend v
  | some pos => insertAux T v pos count value

/-- `c_deque_insert`, c_deque.c:803-806 -/
def insert (v : Addr) (pos : Loc) (value : Loc) : M V Loc := insertN T v pos 1 value

/-- `c_deque_erase`, c_deque.c:845-860 -/
def erase (v : Addr) (pos : Loc) : M V Loc :=
  if v = 0 then pure pos else do
  let ok ← isValidPos v pos
  let f ← ldP (v, 3)
  if !ok ∨ pos = f then dend v else do
  let next := padd pos 1
  let ty ← ldN (v, 5)
  (T ty).destroy pos
  let f ← ldP (v, 3)
  let n ← psub f next
  memmove pos next n
  let f ← ldP (v, 3)
  let f' ← pminus f 1
  stP (v, 3) f'
  pure pos

/-- `c_deque_erase_range`, c_deque.c:862-882 -/
def eraseRange (v : Addr) (first last : Loc) : M V Loc :=
  if v = 0 then pure last else do
  let ok1 ← isValidPos v first
  let ok2 ← isValidPos v last
  if !ok1 ∨ !ok2 ∨ (pge first last ∧ first ≠ last) then dend v else
  if first = last then pure last else do
  let ty ← ldN (v, 5)
  destroyLoop (T ty) first last
  let f ← ldP (v, 3)
  let n ← psub f last
  memmove first last n
  let d ← psub last first
  let f ← ldP (v, 3)
  let f' ← pminus f d
  stP (v, 3) f'
  pure first

/-- `c_deque_push_back`, c_deque.c:884-895 -/
def pushBack (v : Addr) (value : Loc) : M V Unit :=
  if v = 0 ∨ value.1 = 0 then pure () else do
  let f ← ldP (v, 3)
  let e ← ldP (v, 4)
  let failed ← (if f = e then reallocateAndMove T v (1 * 2) else pure false)
  if failed then pure () else do
  let ty ← ldN (v, 5)
  let f ← ldP (v, 3)
  (T ty).copy f value
  let f ← ldP (v, 3)
  stP (v, 3) (padd f 1)

/-- `c_deque_pop_back`, c_deque.c:897-904 -/
def popBack (v : Addr) : M V Unit := do
  let em ← empty v
  if em then pure () else do
  let ty ← ldN (v, 5)
  let b ← back v
  (T ty).destroy b
  let f ← ldP (v, 3)
  let f' ← pminus f 1
  stP (v, 3) f'

/-- `c_deque_push_front`, c_deque.c:906-917 -/
def pushFront (v : Addr) (value : Loc) : M V Unit :=
  if v = 0 ∨ value.1 = 0 then pure () else do
  let s ← ldP (v, 2)
  let t ← ldP (v, 1)
  let failed ← (if s = t then reallocateAndMove T v (1 * 2) else pure false)
  if failed then pure () else do
  let s ← ldP (v, 2)
  let s' ← pminus s 1
  stP (v, 2) s'
  let ty ← ldN (v, 5)
  let s ← ldP (v, 2)
  (T ty).copy s value

/-- `c_deque_pop_front`, c_deque.c:919-926 -/
def popFront (v : Addr) : M V Unit := do
  let em ← empty v
  if em then pure () else do
  let ty ← ldN (v, 5)
  let b ← front v
  (T ty).destroy b
  let s ← ldP (v, 2)
  stP (v, 2) (padd s 1)

/-- `c_deque_swap`, c_deque.c:956-963 -/
def swap (v other : Addr) : M V Unit :=
  if v = 0 ∨ other = 0 then pure () else do
  let t1 ← ldP (v, 1)
  let t2 ← ldP (v, 2)
  let t3 ← ldP (v, 3)
  let t4 ← ldP (v, 4)
  let t5 ← ldN (v, 5)
  let o1 ← ldP (other, 1)
  let o2 ← ldP (other, 2)
  let o3 ← ldP (other, 3)
  let o4 ← ldP (other, 4)
  let o5 ← ldN (other, 5)
  stP (v, 1) o1
  stP (v, 2) o2
  stP (v, 3) o3
  stP (v, 4) o4
  stN (v, 5) o5
  stP (other, 1) t1
  stP (other, 2) t2
  stP (other, 3) t3
  stP (other, 4) t4
  stN (other, 5) t5

end CC.Deq
