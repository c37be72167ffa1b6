import Verif.Core.Elem
/-!
# Model of container/c_pair.c

Memory layout of a `c_pair_t` (include/c_def.h:226-231), in a block of its own: slots `1 = first_type`, `2 = second_type`, `3 = first`, `4 = second`.  The components are objects in blocks of
their own with one object slot `1`.  `T` gives the callbacks of the component types by their (non-zero) ids as arbitrary programs; types with a user-defined `allocate` / `deallocate` are not modelled.
-/
namespace CC.Pair
variable {V : Type}

/-- `__c_allocate(type)`, include/c_internal.h:207-216 -/
def allocate (t : Nat) : M V Addr := do
  cassert (t != 0)
  mallocO 1

/-- `__c_deallocate(type, value)`, include/c_internal.h:218-227 (`value` is passed by value: the caller's pointer is not reset) -/
def deallocate (t : Nat) (p : Addr) : M V Unit := do
  cassert (t != 0)
  free p

section
variable (T : Nat → Ops V)

/-- `c_pair_create`, container/c_pair.c:40-60 -/
def pairCreate (p : Addr) : M V Unit := do
  let f ← ldN (p, 3)
  cassert (f == 0)
  let s ← ldN (p, 4)
  cassert (s == 0)
  let t₁ ← ldN (p, 1)
  cassert (t₁ != 0)
  let t₂ ← ldN (p, 2)
  cassert (t₂ != 0)
  let x ← allocate t₁
  stN (p, 3) x
  let y ← allocate t₂
  stN (p, 4) y
  if x = 0 ∨ y = 0 then do
    deallocate t₁ x
    deallocate t₂ y
  else do
    (T t₁).create (x, 1)
    (T t₂).create (y, 1)

/-- `c_pair_copy`, container/c_pair.c:62-86 -/
def pairCopy (d s : Addr) : M V Unit := do
  let t₁ ← ldN (s, 1)
  stN (d, 1) t₁
  let t₂ ← ldN (s, 2)
  stN (d, 2) t₂
  let f ← ldN (d, 3)
  cassert (f == 0)
  let g ← ldN (d, 4)
  cassert (g == 0)
  let t₁ ← ldN (d, 1)
  cassert (t₁ != 0)
  let t₂ ← ldN (d, 2)
  cassert (t₂ != 0)
  let x ← allocate t₁
  stN (d, 3) x
  let y ← allocate t₂
  stN (d, 4) y
  if x = 0 ∨ y = 0 then do
    deallocate t₁ x
    deallocate t₂ y
  else do
    let sx ← ldN (s, 3)
    (T t₁).copy (x, 1) (sx, 1)
    let sy ← ldN (s, 4)
    (T t₂).copy (y, 1) (sy, 1)

/-- `c_pair_destroy`, container/c_pair.c:88-99 -/
def pairDestroy (p : Addr) : M V Unit := do
  let t₁ ← ldN (p, 1)
  cassert (t₁ != 0)
  let x ← ldN (p, 3)
  (T t₁).destroy (x, 1)
  deallocate t₁ x
  let t₂ ← ldN (p, 2)
  cassert (t₂ != 0)
  let y ← ldN (p, 4)
  (T t₂).destroy (y, 1)
  deallocate t₂ y

/-- `__create_node` with a value, for a tree of pairs (maps), container/c_tree.c:253-285: `malloc` of the node, `__c_allocate` of the pair, the fields, `copy` -/
def createNode (value : Addr) : M V Addr := do
  let n ← mallocS 5
  if n = 0 then pure 0 else do
  let p ← mallocS 4
  stN (n, 5) p
  if p = 0 then do
    free n
    pure 0
  else do
    stN (n, 2) 0
    stN (n, 3) 0
    stN (n, 4) 0
    stN (n, 1) 0
    pairCopy T p value
    pure n

/-- `__destroy_node` for a tree of pairs, container/c_tree.c:287-295 -/
def destroyNode (n : Addr) : M V Unit := do
  let p ← ldN (n, 5)
  pairDestroy T p
  free p
  free n

end

section
variable (T : Types V)

/-- `assign` of a component type with plain values: overwrite the object at `d` with the value of the one at `s` -/
def assignV (d s : Loc) : M V Unit := do
  let v ← ldV s
  let _ ← ldV d
  store d (.obj (some v))

/-- `c_pair_assign`, container/c_pair.c:101-111 (components are plain values) -/
def pairAssign (d s : Addr) : M V Unit := do
  let t₁ ← ldN (d, 1)
  cassert (t₁ != 0)
  let x ← ldN (d, 3)
  let sx ← ldN (s, 3)
  assignV (x, 1) (sx, 1)
  let t₂ ← ldN (d, 2)
  cassert (t₂ != 0)
  let y ← ldN (d, 4)
  let sy ← ldN (s, 4)
  assignV (y, 1) (sy, 1)

/-- `less` of a component type on two objects -/
def lessV (t : Nat) (x y : Loc) : M V Bool := do
  let v ← ldV x
  let w ← ldV y
  pure ((T t).less v w)

/-- `equal` of a component type on two objects -/
def equalV (t : Nat) (x y : Loc) : M V Bool := do
  let v ← ldV x
  let w ← ldV y
  pure ((T t).equal v w)

/-- `c_pair_less`, container/c_pair.c:113-121 -/
def pairLess (x y : Addr) : M V Bool := do
  let t₁ ← ldN (x, 1)
  cassert (t₁ != 0)
  let t₂ ← ldN (x, 2)
  cassert (t₂ != 0)
  let a ← ldN (x, 3)
  let b ← ldN (y, 3)
  let r ← lessV T t₁ (a, 1) (b, 1)
  if r then pure true else do
  let r ← lessV T t₁ (b, 1) (a, 1)
  if r then pure false else do
  let a ← ldN (x, 4)
  let b ← ldN (y, 4)
  lessV T t₂ (a, 1) (b, 1)

/-- `c_pair_equal`, container/c_pair.c:123-130 -/
def pairEqual (x y : Addr) : M V Bool := do
  let t₁ ← ldN (x, 1)
  cassert (t₁ != 0)
  let t₂ ← ldN (x, 2)
  cassert (t₂ != 0)
  let a ← ldN (x, 3)
  let b ← ldN (y, 3)
  let r ← equalV T t₁ (a, 1) (b, 1)
  if r then do
    let a ← ldN (x, 4)
    let b ← ldN (y, 4)
    equalV T t₂ (a, 1) (b, 1)
  else pure false

end
end CC.Pair
