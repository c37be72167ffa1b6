import Verif.Core.Elem
/-!
# Model of container/c_vector.c

A vector object is a block of four slots: 1 `start`, 2 `finish`, 3 `end_of_storage`, 4 `value_type` (c_vector.c:34-39).  The three pointers are
(block, slot) pairs into the element storage, one slot per element (simplification: byte offsets that are multiples of
`value_type->size()` are counted in elements, so the alignment test of `__is_valid_pos` always succeeds for pointers into the storage).
NULL is `(0, 1)`.  An iterator is its `pos` field; the iterator's type tag and `value_type` are taken to be the vector's
(precondition of the API).  `T` gives the callbacks of every value type.
-/
namespace CC.Vec
open CC

variable {V : Type} (T : Nat → Ops V)

/-- the NULL element pointer -/
abbrev nullP : Loc := (0, 1)

/-- `__c_free` applied to element storage (include/c_internal.h:113-119): only the pointer malloc returned may be freed -/
def freeStorage (p : Loc) : M V Unit :=
  if p.1 = 0 then pure () else
  if p.2 = 1 then free p.1 else ub

/-- `__is_valid_pos`, c_vector.c:47-58 -/
def isValidPos (v : Addr) (pos : Loc) : M V Bool :=
  if v = 0 then pure false else do
  let start ← ldP (v, 1)
  let finish ← ldP (v, 2)
  pure (pge pos start && pge finish pos)

/-- `__begin`, c_vector.c:334-338 -/
def begin_ (v : Addr) : M V Loc := do
  cassert (v != 0)
  ldP (v, 1)

/-- `__end`, c_vector.c:340-344 -/
def end_ (v : Addr) : M V Loc := do
  cassert (v != 0)
  ldP (v, 2)

/-- `__eos`, c_vector.c:346-350 -/
def eos (v : Addr) : M V Loc := do
  cassert (v != 0)
  ldP (v, 3)

/-- `__available`, c_vector.c:352-357 -/
def available (v : Addr) : M V Nat := do
  cassert (v != 0)
  let e ← ldP (v, 3)
  let f ← ldP (v, 2)
  psub e f

/-- `__destroy`, c_vector.c:465-471 -/
def destroyLoop (o : Ops V) (first last : Loc) : M V Unit :=
  if first ≠ last then do
    o.destroy first
    destroyLoop o (padd first 1) last
  else pure ()
partial_fixpoint

/-- body of the loop of `__fill`, c_vector.c:476-483: copy the value, or create a default one -/
def put (o : Ops V) (pos value : Loc) : M V Unit :=
  if value.1 ≠ 0 then o.copy pos value else o.create pos

/-- `__fill`, c_vector.c:473-486 -/
def fill (o : Ops V) (pos : Loc) : Nat → Loc → M V Unit
  | 0, _ => pure ()
  | n+1, value => do
    put o pos value
    fill o (padd pos 1) n value

/-- `c_vector_empty`, c_vector.c:647-650 -/
def empty (v : Addr) : M V Bool :=
  if v = 0 then pure true else do
  let b ← begin_ v
  let e ← end_ v
  pure (decide (b = e))

/-- `c_vector_size`, c_vector.c:652-657 -/
def size (v : Addr) : M V Nat :=
  if v = 0 then pure 0 else do
  let e ← end_ v
  let b ← begin_ v
  psub e b

/-- `c_vector_capacity`, c_vector.c:670-675 -/
def capacity (v : Addr) : M V Nat :=
  if v = 0 then pure 0 else do
  let e ← eos v
  let b ← begin_ v
  psub e b

/-- `__reallocate_and_move`, c_vector.c:488-509; `true` is the result `-1` (failure) -/
def reallocateAndMove (v : Addr) (n : Nat) : M V Bool := do
  cassert (v != 0)
  let sz ← size v
  let cap ← capacity v
  let cap := if cap * 2 < n + sz then n + sz else cap * 2
  let start ← mallocO cap
  if start = 0 then pure true else do
  let s0 ← ldP (v, 1)
  let f0 ← ldP (v, 2)
  let len ← psub f0 s0
  memcpy (start, 1) s0 len
  let ty ← ldN (v, 4)
  let b ← begin_ v
  let e ← end_ v
  destroyLoop (T ty) b e
  let s1 ← ldP (v, 1)
  freeStorage s1
  stP (v, 1) (start, 1)
  stP (v, 2) (padd (start, 1) sz)
  stP (v, 3) (padd (start, 1) cap)
  pure false

/-- `c_vector_create`, c_vector.c:514-528 -/
def create (ty : Nat) : M V Addr :=
  if ty = 0 then pure 0 else do
  let v ← mallocS 4
  if v = 0 then pure 0 else do
  stP (v, 1) nullP
  stP (v, 2) nullP
  stP (v, 3) nullP
  stN (v, 4) ty
  pure v

/-- `c_vector_resize_with_value`, c_vector.c:816-836 -/
def resizeWithValue (v : Addr) (count : Nat) (value : Loc) : M V Unit :=
  if v = 0 then pure () else do
  let sz ← size v
  if sz < count then do
    let sz ← size v
    let count := count - sz
    let av ← available v
    let failed ← (if av < count then reallocateAndMove T v count else pure false)
    if failed then pure () else do
    let e ← end_ v
    let ty ← ldN (v, 4)
    fill (T ty) e count value
    let f ← ldP (v, 2)
    stP (v, 2) (padd f count)
  else do
    let s ← ldP (v, 1)
    let pos := padd s count
    let ty ← ldN (v, 4)
    let e ← end_ v
    destroyLoop (T ty) pos e
    stP (v, 2) pos

/-- `c_vector_resize`, c_vector.c:811-814 -/
def resize (v : Addr) (count : Nat) : M V Unit := resizeWithValue T v count (0, 0)

/-- `c_vector_reserve`, c_vector.c:664-668 -/
def reserve (v : Addr) (newCap : Nat) : M V Unit :=
  if v = 0 then pure () else do
  let cap ← capacity v
  if newCap ≤ cap then pure () else
  resize T v newCap

/-- `c_vector_create_from_array`, c_vector.c:530-541 -/
def createFromArray (ty : Nat) (values : Loc) (length : Nat) : M V Addr :=
  if values.1 = 0 ∨ length = 0 then pure 0 else do
  let v ← create ty
  if v = 0 then pure 0 else do
  reserve T v length
  let s ← ldP (v, 1)
  memcpy s values length
  pure v

/-- `c_vector_create_n`, c_vector.c:543-552 -/
def createN (ty : Nat) (count : Nat) (value : Loc) : M V Addr :=
  if value.1 = 0 ∨ count = 0 then pure 0 else do
  let v ← create ty
  if v = 0 then pure 0 else do
  resizeWithValue T v count value
  pure v

/-- `c_vector_clear`, c_vector.c:702-707 -/
def clear (v : Addr) : M V Unit := do
  let em ← empty v
  if em then pure () else do
  let ty ← ldN (v, 4)
  let b ← begin_ v
  let e ← end_ v
  destroyLoop (T ty) b e
  let s ← ldP (v, 1)
  stP (v, 2) s

/-- `c_vector_copy`, c_vector.c:554-565 -/
def copy (other : Addr) : M V Addr :=
  if other = 0 then pure 0 else do
  let ty ← ldN (other, 4)
  let v ← create ty
  if v = 0 then pure 0 else do
  let cap ← capacity other
  reserve T v cap
  let s ← ldP (v, 1)
  let os ← ldP (other, 1)
  let n ← size other
  memcpy s os n
  pure v

/-- `c_vector_assign`, c_vector.c:567-579 -/
def assign (self other : Addr) : M V Addr :=
  if self = 0 ∨ other = 0 then pure self else
  if self ≠ other then do
    clear T self
    let ty ← ldN (other, 4)
    stN (self, 4) ty
    let cap ← capacity other
    reserve T self cap
    let s ← ldP (self, 1)
    let os ← ldP (other, 1)
    let n ← size other
    memcpy s os n
    pure self
  else pure self

/-- `c_vector_destroy`, c_vector.c:581-588 -/
def destroy (v : Addr) : M V Unit :=
  if v = 0 then pure () else do
  clear T v
  let s ← ldP (v, 1)
  freeStorage s
  stP (v, 1) nullP
  free v

/-- `c_vector_at`, c_vector.c:593-597 (no bounds check) -/
def at_ (v : Addr) (pos : Nat) : M V Loc :=
  if v = 0 then pure (0, 0) else do
  let b ← begin_ v
  pure (padd b pos)

/-- `c_vector_front`, c_vector.c:599-602 -/
def front (v : Addr) : M V Loc := do
  let em ← empty v
  if em then pure (0, 0) else begin_ v

/-- `c_vector_back`, c_vector.c:604-609 -/
def back (v : Addr) : M V Loc := do
  let em ← empty v
  if em then pure (0, 0) else do
  let e ← end_ v
  pminus e 1

/-- `c_vector_data`, c_vector.c:611-615 -/
def data (v : Addr) : M V Loc :=
  if v = 0 then pure (0, 0) else begin_ v

/-- `c_vector_begin`, c_vector.c:620-624 -/
def vbegin (v : Addr) : M V Loc := do
  cassert (v != 0)
  begin_ v

/-- `c_vector_end`, c_vector.c:632-636 -/
def vend (v : Addr) : M V Loc := do
  cassert (v != 0)
  end_ v

/-- `c_vector_shrink_to_fit`, c_vector.c:677-697 -/
def shrinkToFit (v : Addr) : M V Unit :=
  if v = 0 then pure () else do
  let es ← eos v
  let en ← end_ v
  if es = en then pure () else do
  let f0 ← ldP (v, 2)
  let s0 ← ldP (v, 1)
  let size ← psub f0 s0
  if size = 0 then do
    freeStorage s0
    stP (v, 1) nullP
    stP (v, 2) nullP
    stP (v, 3) nullP
  else do
  let start ← mallocO size
  if start = 0 then pure () else do
  memcpy (start, 1) s0 size
  let ty ← ldN (v, 4)
  let b ← vbegin v
  let e ← vend v
  destroyLoop (T ty) b e
  let s1 ← ldP (v, 1)
  freeStorage s1
  stP (v, 1) (start, 1)
  stP (v, 2) (padd (start, 1) size)
  stP (v, 3) (padd (start, 1) size)

/-- making room in `c_vector_insert_n`, c_vector.c:721-727: the (possibly moved) position, or `none` if the allocation failed -/
def insertRoom (v : Addr) (pos : Loc) (count : Nat) : M V (Option Loc) := do
  let av ← available v
  if av < count then do
    let s ← ldP (v, 1)
    let diff ← psub pos s
    let av ← available v
    let failed ← reallocateAndMove T v (count - av)
    if failed then pure none else do
    let s ← ldP (v, 1)
    pure (some (padd s diff))
  else pure (some pos)

/-- `c_vector_insert_n`, c_vector.c:714-734 -/
def insertN (v : Addr) (pos : Loc) (count : Nat) (value : Loc) : M V Loc :=
  if v = 0 ∨ value.1 = 0 then pure pos else do
  let ok ← isValidPos v pos
  if !ok then vend v else do
  let r ← insertRoom T v pos count
  match r with
  | none => vend v
  | some pos => do
    let f ← ldP (v, 2)
    let n ← psub f pos
    memmove (padd pos count) pos n
    let ty ← ldN (v, 4)
    fill (T ty) pos count value
    let f ← ldP (v, 2)
    stP (v, 2) (padd f count)
    pure pos

/-- `c_vector_insert`, c_vector.c:709-712 -/
def insert (v : Addr) (pos : Loc) (value : Loc) : M V Loc := insertN T v pos 1 value

/-- `c_vector_erase`, c_vector.c:755-768 -/
def erase (v : Addr) (pos : Loc) : M V Loc :=
  if v = 0 then pure pos else do
  let ok ← isValidPos v pos
  let f ← ldP (v, 2)
  if !ok ∨ pos = f then vend v else do
  let ty ← ldN (v, 4)
  (T ty).destroy pos
  let next := padd pos 1
  let f ← ldP (v, 2)
  let n ← psub f next
  memmove pos next n
  let f ← ldP (v, 2)
  let f' ← pminus f 1
  stP (v, 2) f'
  pure pos

/-- `c_vector_erase_range`, c_vector.c:770-788 -/
def eraseRange (v : Addr) (first last : Loc) : M V Loc :=
  if v = 0 then pure last else do
  let ok1 ← isValidPos v first
  let ok2 ← isValidPos v last
  if !ok1 ∨ !ok2 ∨ (pge first last ∧ first ≠ last) then vend v else
  if first = last then pure last else do
  let ty ← ldN (v, 4)
  destroyLoop (T ty) first last
  let f ← ldP (v, 2)
  let n ← psub f last
  memmove first last n
  let d ← psub last first
  let f ← ldP (v, 2)
  let f' ← pminus f d
  stP (v, 2) f'
  pure first

/-- `c_vector_push_back`, c_vector.c:790-801 -/
def pushBack (v : Addr) (value : Loc) : M V Unit :=
  if v = 0 ∨ value.1 = 0 then pure () else do
  let f ← ldP (v, 2)
  let e ← ldP (v, 3)
  let failed ← (if f = e then reallocateAndMove T v 1 else pure false)
  if failed then pure () else do
  let ty ← ldN (v, 4)
  let f ← ldP (v, 2)
  (T ty).copy f value
  let f ← ldP (v, 2)
  stP (v, 2) (padd f 1)

/-- `c_vector_pop_back`, c_vector.c:803-809 -/
def popBack (v : Addr) : M V Unit := do
  let em ← empty v
  if em then pure () else do
  let ty ← ldN (v, 4)
  let b ← back v
  (T ty).destroy b
  let f ← ldP (v, 2)
  let f' ← pminus f 1
  stP (v, 2) f'

/-- `c_vector_swap`, c_vector.c:838-845 -/
def swap (v other : Addr) : M V Unit :=
  if v = 0 ∨ other = 0 then pure () else do
  let t1 ← ldP (v, 1)
  let t2 ← ldP (v, 2)
  let t3 ← ldP (v, 3)
  let t4 ← ldN (v, 4)
  let o1 ← ldP (other, 1)
  let o2 ← ldP (other, 2)
  let o3 ← ldP (other, 3)
  let o4 ← ldN (other, 4)
  stP (v, 1) o1
  stP (v, 2) o2
  stP (v, 3) o3
  stN (v, 4) o4
  stP (other, 1) t1
  stP (other, 2) t2
  stP (other, 3) t3
  stN (other, 4) t4

end CC.Vec
