import Verif.Adapter.PqIter
import Verif.List.Spec4
import Verif.SList.Spec3
import Verif.Tree.Whole
/-!
# Type descriptors in memory, and their validation

`c_type_info_t` (include/c_def.h:93-126) is a table of nine function pointers, here a memory object with one slot per entry; NULL is 0.  In the rest of the model a descriptor is an id with
given callbacks (Verif/Core/Ty.lean); here the programs look into the table: the constructors check its required entries, and the functions that use an optional entry read it.
-/
namespace CC.Info
open CC
variable {V α β : Type}

/-- the entries of a `c_type_info_t`, include/c_def.h:93-126 -/
structure Table where
  size : Nat
  allocate : Nat
  create : Nat
  copy : Nat
  destroy : Nat
  deallocate : Nat
  assign : Nat
  less : Nat
  equal : Nat

/-- the table at address `t` -/
def info (t : Nat) (i : Table) : HProp V :=
  fld t 1 i.size ∗ fld t 2 i.allocate ∗ fld t 3 i.create ∗ fld t 4 i.copy ∗ fld t 5 i.destroy ∗ fld t 6 i.deallocate ∗ fld t 7 i.assign ∗ fld t 8 i.less ∗ fld t 9 i.equal

/-- `validate_type_info`, c_util.c:28-35 -/
def validate (t : Addr) : M V Unit := do
  let f ← ldN (t, 1)
  cassert (f != 0)
  let f ← ldN (t, 3)
  cassert (f != 0)
  let f ← ldN (t, 4)
  cassert (f != 0)
  let f ← ldN (t, 5)
  cassert (f != 0)
  let f ← ldN (t, 7)
  cassert (f != 0)

/-- `validate_type_info_ex`, c_util.c:37-42 -/
def validateEx (t : Addr) : M V Unit := do
  validate t
  let f ← ldN (t, 8)
  cassert (f != 0)
  let f ← ldN (t, 9)
  cassert (f != 0)

/-- `c_list_create`, c_list.c:550-570, with the validation of line 553 -/
def listCreate (t : Addr) : M V Addr :=
  if t = 0 then pure 0 else do
  validate t
  CList.create t

/-- `c_slist_create`, c_forward_list.c:244-272, with the validation of line 247 -/
def slistCreate (t : Addr) : M V Addr :=
  if t = 0 then pure 0 else do
  validate t
  SList.create t

/-- `c_vector_create`, c_vector.c:514-528, with the validation of line 517 -/
def vectorCreate (t : Addr) : M V Addr :=
  if t = 0 then pure 0 else do
  validate t
  Vec.create t

/-- `c_deque_create`, c_deque.c:627-642, with the validation of line 630 -/
def dequeCreate (t : Addr) : M V Addr :=
  if t = 0 then pure 0 else do
  validate t
  Deq.create t

/-- `c_stack_create`, c_stack.c:37-52, and `c_queue_create`, c_queue.c:37-52, with the validation of line 40.  Simplification: the second validation of the same table, by the constructor of the
backend's container, is left out: it cannot fail. -/
def adapterCreate (E : Types V) (t : Addr) (creator : Option Adapter.Kind) : M V Addr :=
  if t = 0 ∨ creator = none then pure 0 else do
  validate t
  Adapter.create E t creator

/-- `c_priority_queue_create`, c_priority_queue.c:39-56, with the validation of line 43; the entry `less` (line 54) is read from the table -/
def pqCreate (E : Types V) (t : Addr) (creator : Option Adapter.Kind) (comp : Nat) : M V Addr :=
  if t = 0 ∨ creator = none then pure 0 else do
  validate t
  let less ← ldN (t, 8)
  Adapter.pqCreate E (fun _ => less) t creator comp

/-- `c_tree_create`, c_tree.c:960-993, with the validations of lines 967 and 968 -/
def treeCreate (kt vt mt kov cmp : Nat) : M V Addr :=
  if kt = 0 ∨ vt = 0 ∨ kov = 0 ∨ cmp = 0 then pure 0 else do
  validateEx kt
  validate vt
  Tree.create kt vt mt kov cmp

/-- the function at an address, NULL as `none` -/
def fn (F : Nat → V → V → Bool) (f : Nat) : Option (V → V → Bool) := if f = 0 then none else some (F f)

section
variable (F : Nat → V → V → Bool)

/-- `c_list_merge`, c_list.c:815-819 -/
def listMerge (l other : Addr) : M V Unit :=
  if l = 0 then pure () else do
  let ty ← CList.ltype l
  let f ← ldN (ty, 8)
  CList.mergeBy l other (fn F f)

/-- `c_list_sort`, c_list.c:898-903 -/
def listSort (l : Addr) : M V Unit := do
  let e ← CList.empty l
  if e then pure () else do
  let n ← CList.size l
  if n = 1 then pure () else do
  let ty ← CList.ltype l
  let f ← ldN (ty, 8)
  CList.sortBy l (fn F f)

/-- `c_list_unique`, c_list.c:959-963 -/
def listUnique (l : Addr) : M V Unit :=
  if l = 0 then pure () else do
  let ty ← CList.ltype l
  let f ← ldN (ty, 9)
  CList.uniqueIf l (fn F f)

/-- loop of `c_list_remove`, c_list.c:872-879: calling a NULL entry is undefined behaviour -/
def listRemoveLoop (l : Addr) (value : Loc) (node last : Addr) : M V Unit :=
  if node ≠ last then do
    let ty ← CList.ltype l
    let f ← ldN (ty, 9)
    let x ← CList.valOf node
    if f = 0 then ub else do
    let vx ← ldV x
    let v ← ldV value
    if F f vx v then do
      let node ← CList.popNode l node
      listRemoveLoop l value node last
    else do
      let node ← CList.nxt node
      listRemoveLoop l value node last
  else pure ()
partial_fixpoint

/-- `c_list_remove`, c_list.c:866-880 -/
def listRemove (l : Addr) (value : Loc) : M V Unit := do
  let e ← CList.empty l
  if e ∨ value.1 = 0 then pure () else do
  let node ← CList.begin_ l
  let last ← CList.end_ l
  listRemoveLoop F l value node last

/-- `c_slist_merge`, c_forward_list.c:485-489 -/
def slistMerge (l other : Addr) : M V Unit :=
  if l = 0 then pure () else do
  let ty ← SList.ltype l
  let f ← ldN (ty, 8)
  SList.mergeBy l other (fn F f)

/-- `c_slist_sort`, c_forward_list.c:570-574 -/
def slistSort (l : Addr) : M V Unit :=
  if l = 0 then pure () else do
  let ty ← SList.ltype l
  let f ← ldN (ty, 8)
  SList.sortBy l (fn F f)

/-- `c_slist_unique`, c_forward_list.c:629-633 -/
def slistUnique (l : Addr) : M V Unit :=
  if l = 0 then pure () else do
  let ty ← SList.ltype l
  let f ← ldN (ty, 9)
  SList.uniqueIf l (fn F f)

/-- loop of `c_slist_remove`, c_forward_list.c:541-549 -/
def slistRemoveLoop (l : Addr) (value : Loc) (prev node last : Addr) : M V Unit :=
  if node ≠ last ∧ prev ≠ last then do
    let ty ← SList.ltype l
    let f ← ldN (ty, 9)
    let x ← SList.valOf node
    if f = 0 then ub else do
    let vx ← ldV x
    let v ← ldV value
    if F f vx v then do
      let node ← SList.popNodeAfter l prev
      slistRemoveLoop l value prev node last
    else do
      let prev ← SList.nxt prev
      let node ← SList.nxt prev
      slistRemoveLoop l value prev node last
  else pure ()
partial_fixpoint

/-- `c_slist_remove`, c_forward_list.c:534-550 -/
def slistRemove (l : Addr) (value : Loc) : M V Unit := do
  let e ← SList.empty l
  if e ∨ value.1 = 0 then pure () else do
  let prev ← SList.beforeBegin l
  let node ← SList.nxt prev
  let last ← SList.end_ l
  slistRemoveLoop F l value prev node last

end

end CC.Info
