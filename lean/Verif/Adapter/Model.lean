import Verif.Algo.Heap
import Verif.Algo.Link
/-!
# Model of container/c_stack.c, c_queue.c, c_priority_queue.c and of the backend wrappers of the containers

An adapter owns a *backend* object through a pointer to its table of operations (`c_backend_operation_t`, include/c_def.h:193-218).

Memory layout:
* backend object (c_list.c:45-48, c_vector.c:41-44, c_deque.c:42-45): slots `1 = interface.ops` (address of the table), `2 = impl`;
* `c_stack_t` (c_stack.c:30-32), `c_queue_t` (c_queue.c:30-32): slot `1 = backend`;
* `c_priority_queue_t` (c_priority_queue.c:31-34): slots `1 = backend`, `2 = comp`.

The tables are static objects of the program; `tables` gives them by address.  Elements are plain data (`Ty`).
The iterators of the priority queue are local variables here (simplification: the code allocates and frees copies of them; Verif/Adapter/PqIter.lean models that).
-/
namespace CC.Adapter
open CC CC.Algo
variable {V : Type}

/-- the functions of a container a backend wraps; a missing one is a NULL entry in the table -/
structure Impl (V : Type) where
  create : Nat → M V Addr
  destroy : Addr → M V Unit
  front : Addr → M V Loc
  back : Addr → M V Loc
  /-- slots, first and last position of the range `begin`, `end`; none if the iterators are not random access iterators -/
  range : Addr → M V (Option (Slots × Nat × Nat))
  empty : Addr → M V Bool
  size : Addr → M V Nat
  pushBack : Addr → Loc → M V Unit
  popBack : Addr → M V Unit
  pushFront : Option (Addr → Loc → M V Unit)
  popFront : Option (Addr → M V Unit)
  swap : Addr → Addr → M V Unit

/-- `c_backend_operation_t`, c_def.h:193-218 -/
structure BOps (V : Type) where
  destroy : Addr → M V Unit
  front : Addr → M V Loc
  back : Addr → M V Loc
  range : Addr → M V (Option (Slots × Nat × Nat))
  empty : Addr → M V Bool
  size : Addr → M V Nat
  pushBack : Addr → Loc → M V Unit
  popBack : Addr → M V Unit
  pushFront : Option (Addr → Loc → M V Unit)
  popFront : Option (Addr → M V Unit)
  swap : Addr → Addr → M V Unit

/-- the `backend_*` functions, c_list.c:426-545, c_vector.c:359-463, c_deque.c:408-528 (the same text in the three files) -/
def wrap (I : Impl V) : BOps V where
  destroy c := if c = 0 then pure () else do
    let impl ← ldN (c, 2)
    I.destroy impl
    free c
  front c := if c = 0 then pure (0, 0) else do
    let impl ← ldN (c, 2)
    I.front impl
  back c := if c = 0 then pure (0, 0) else do
    let impl ← ldN (c, 2)
    I.back impl
  range c := if c = 0 then pure none else do
    let impl ← ldN (c, 2)
    I.range impl
  empty c := if c = 0 then pure true else do
    let impl ← ldN (c, 2)
    I.empty impl
  size c := if c = 0 then pure 0 else do
    let impl ← ldN (c, 2)
    I.size impl
  pushBack c value := if c = 0 ∨ value.1 = 0 then pure () else do
    let impl ← ldN (c, 2)
    I.pushBack impl value
  popBack c := if c = 0 then pure () else do
    let impl ← ldN (c, 2)
    I.popBack impl
  pushFront := I.pushFront.map fun f c value => if c = 0 ∨ value.1 = 0 then pure () else do
    let impl ← ldN (c, 2)
    f impl value
  popFront := I.popFront.map fun f c => if c = 0 then pure () else do
    let impl ← ldN (c, 2)
    f impl
  swap c other := if c = 0 ∨ other = 0 then pure () else do
    let tmp ← ldN (c, 1)
    let i1 ← ldN (c, 2)
    let i2 ← ldN (other, 2)
    I.swap i1 i2
    let o2 ← ldN (other, 1)
    stN (c, 1) o2
    stN (other, 1) tmp

/-- the list functions behind `backend_list_ops`, c_list.c:983-1000 -/
def listImpl (E : Types V) : Impl V where
  create := CList.create
  destroy := CList.destroy
  front := CList.front
  back := CList.back
  range l := do
    let _ ← CList.begin_ l
    let _ ← CList.end_ l
    pure none
  empty := CList.empty
  size := CList.size
  pushBack := CList.pushBack E
  popBack := CList.popBack
  pushFront := some (CList.pushFront E)
  popFront := some CList.popFront
  swap := CList.swap

/-- the vector functions behind `backend_vector_ops`, c_vector.c:850-866: `push_front` and `pop_front` are NULL -/
def vectorImpl (E : Types V) : Impl V where
  create := Vec.create
  destroy := Vec.destroy fun ty => plainOps (E ty)
  front := Vec.front
  back := Vec.back
  range v := do
    let p ← Vec.vbegin v
    let q ← Vec.vend v
    pure (some (aslots p.1 p.2, 0, q.2 - p.2))
  empty := Vec.empty
  size := Vec.size
  pushBack := Vec.pushBack fun ty => plainOps (E ty)
  popBack := Vec.popBack fun ty => plainOps (E ty)
  pushFront := none
  popFront := none
  swap := Vec.swap

/-- the deque functions behind `backend_deque_ops`, c_deque.c:968-984 -/
def dequeImpl (E : Types V) : Impl V where
  create := Deq.create
  destroy := Deq.destroy fun ty => plainOps (E ty)
  front := Deq.front
  back := Deq.back
  range v := do
    let p ← Deq.dbegin v
    let q ← Deq.dend v
    pure (some (aslots p.1 p.2, 0, q.2 - p.2))
  empty := Deq.empty
  size := Deq.size
  pushBack := Deq.pushBack fun ty => plainOps (E ty)
  popBack := Deq.popBack fun ty => plainOps (E ty)
  pushFront := some (Deq.pushFront fun ty => plainOps (E ty))
  popFront := some (Deq.popFront fun ty => plainOps (E ty))
  swap := Deq.swap

/-- the three kinds of backends the library offers -/
inductive Kind where
  | list | vector | deque
deriving DecidableEq

/-- the (distinct, non-NULL) addresses of the static tables -/
def Kind.addr : Kind → Nat
  | .list => 1
  | .vector => 2
  | .deque => 3

def Kind.impl (E : Types V) : Kind → Impl V
  | .list => listImpl E
  | .vector => vectorImpl E
  | .deque => dequeImpl E

/-- the static tables of operations by address -/
def tables (E : Types V) : Nat → BOps V
  | 1 => wrap (listImpl E)
  | 2 => wrap (vectorImpl E)
  | _ => wrap (dequeImpl E)

theorem tables_addr {E : Types V} (k : Kind) : tables E k.addr = wrap (k.impl E) := by cases k <;> rfl

/-- `c_list_create_backend`, c_list.c:983-1013; `c_vector_create_backend`, c_vector.c:850-880; `c_deque_create_backend`, c_deque.c:968-998 -/
def createBackend (E : Types V) (k : Kind) (ty : Nat) : M V Addr := do
  let backend ← mallocS 2
  if backend = 0 then pure 0 else do
  let impl ← (k.impl E).create ty
  stN (backend, 2) impl
  if impl = 0 then do
    free backend
    pure 0
  else do
    stN (backend, 1) k.addr
    pure backend

/-- the table of operations of a backend object: `backend->ops` -/
def ops (E : Types V) (backend : Addr) : M V (BOps V) := do
  let t ← ldN (backend, 1)
  if t = 0 then ub else pure (tables E t)

/-! ## c_stack.c (and the common part of c_queue.c) -/

/-- `c_stack_create`, c_stack.c:37-52; `c_queue_create`, c_queue.c:37-52.  `creator` is NULL or one of the library's creators. -/
def create (E : Types V) (ty : Nat) (creator : Option Kind) : M V Addr :=
  match creator with
  | none => pure 0
  | some k =>
    if ty = 0 then pure 0 else do
    let stack ← mallocS 1
    if stack = 0 then pure 0 else do
    let backend ← createBackend E k ty
    stN (stack, 1) backend
    if backend = 0 then do
      free stack
      pure 0
    else pure stack

/-- `c_stack_destroy`, c_stack.c:54-59; `c_queue_destroy`, c_queue.c:54-59; `c_priority_queue_destroy`, c_priority_queue.c:58-63 -/
def destroy (E : Types V) (a : Addr) : M V Unit :=
  if a = 0 then pure () else do
  let b ← ldN (a, 1)
  let o ← ops E b
  o.destroy b
  free a

/-- `c_stack_top`, c_stack.c:64-68; `c_queue_back`, c_queue.c:70-74 -/
def back (E : Types V) (a : Addr) : M V Loc :=
  if a = 0 then pure (0, 0) else do
  let b ← ldN (a, 1)
  let o ← ops E b
  o.back b

/-- `c_queue_front`, c_queue.c:64-68; `c_priority_queue_top`, c_priority_queue.c:68-72 -/
def front (E : Types V) (a : Addr) : M V Loc :=
  if a = 0 then pure (0, 0) else do
  let b ← ldN (a, 1)
  let o ← ops E b
  o.front b

/-- `c_stack_empty`, c_stack.c:73-77; `c_queue_empty`, c_queue.c:79-83; `c_priority_queue_empty`, c_priority_queue.c:77-81 -/
def empty (E : Types V) (a : Addr) : M V Bool :=
  if a = 0 then pure true else do
  let b ← ldN (a, 1)
  let o ← ops E b
  o.empty b

/-- `c_queue_size`, c_queue.c:85-89; `c_priority_queue_size`, c_priority_queue.c:83-87 -/
def size (E : Types V) (a : Addr) : M V Nat :=
  if a = 0 then pure 0 else do
  let b ← ldN (a, 1)
  let o ← ops E b
  o.size b

/-- `c_stack_push`, c_stack.c:88-92; `c_queue_push`, c_queue.c:94-98 -/
def push (E : Types V) (a : Addr) (value : Loc) : M V Unit :=
  if a = 0 ∨ value.1 = 0 then pure () else do
  let b ← ldN (a, 1)
  let o ← ops E b
  o.pushBack b value

/-- `c_stack_pop`, c_stack.c:94-98 -/
def popB (E : Types V) (a : Addr) : M V Unit :=
  if a = 0 then pure () else do
  let b ← ldN (a, 1)
  let o ← ops E b
  o.popBack b

/-- calling a function pointer; NULL is undefined behaviour -/
def callFn {β : Type} (f : Option β) (k : β → M V Unit) : M V Unit :=
  match f with
  | none => ub
  | some f => k f

/-- `c_queue_pop`, c_queue.c:100-104 -/
def popF (E : Types V) (a : Addr) : M V Unit :=
  if a = 0 then pure () else do
  let b ← ldN (a, 1)
  let o ← ops E b
  callFn o.popFront fun f => f b

/-- `c_stack_swap`, c_stack.c:100-104; `c_queue_swap`, c_queue.c:106-110; `c_priority_queue_swap`, c_priority_queue.c:125-129 -/
def swap (E : Types V) (a other : Addr) : M V Unit :=
  if a = 0 ∨ other = 0 then pure () else do
  let b ← ldN (a, 1)
  let b2 ← ldN (other, 1)
  let o ← ops E b
  o.swap b b2

/-! ## c_priority_queue.c

Comparison functions are addresses; `F` gives the function at an address, `less ty` is the address `value_type->less`. -/

/-- `c_priority_queue_create`, c_priority_queue.c:39-56 -/
def pqCreate (E : Types V) (less : Nat → Nat) (ty : Nat) (creator : Option Kind) (comp : Nat) : M V Addr :=
  match creator with
  | none => pure 0
  | some k =>
    if ty = 0 then pure 0 else do
    let queue ← mallocS 2
    if queue = 0 then pure 0 else do
    let backend ← createBackend E k ty
    stN (queue, 1) backend
    if backend = 0 then do
      free queue
      pure 0
    else do
      stN (queue, 2) (if comp ≠ 0 then comp else less ty)
      pure queue

/-- the call `algo_push_heap_by(first, last, comp)` / `algo_pop_heap_by`, c_heap.c:186-192, 229-235: iterators that are not random access fail the assertion -/
def heapCall (r : Option (Slots × Nat × Nat)) (f : Slots → Nat → Nat → M V Unit) : M V Unit :=
  match r with
  | none => cassert false
  | some (c, first, last) => f c first last

/-- `c_priority_queue_push`, c_priority_queue.c:92-106 -/
def pqPush (E : Types V) (F : Nat → V → V → Bool) (a : Addr) (value : Loc) : M V Unit :=
  if a = 0 ∨ value.1 = 0 then pure () else do
  let b ← ldN (a, 1)
  let o ← ops E b
  o.pushBack b value
  let r ← o.range b
  let comp ← ldN (a, 2)
  heapCall r fun c first last => pushHeap c first last (F comp)

/-- `c_priority_queue_pop`, c_priority_queue.c:108-122 -/
def pqPop (E : Types V) (F : Nat → V → V → Bool) (a : Addr) : M V Unit :=
  if a = 0 then pure () else do
  let b ← ldN (a, 1)
  let o ← ops E b
  let r ← o.range b
  let comp ← ldN (a, 2)
  heapCall r fun c first last => popHeap c first last (F comp)
  o.popBack b

end CC.Adapter
