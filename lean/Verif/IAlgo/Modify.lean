import Verif.IAlgo.NonMod
/-!
# Model of `algorithm/c_modifying.c` with iterator objects

`low` gives the bits of a pointer that the misplaced category checks of this file look at (see `Out.lowCheck`), `E` the equality and `D` the value made by `create` of the value types.
-/
namespace CC.IAlgo
open CC CC.Iter CC.Algo
variable {V : Type}

/-- loop of `algo_copy`, c_modifying.c:73-78 -/
def copyLoop (f l d : Addr) (n : Nat) : M V Nat := do
  let b ← cNe f l
  if b then do
    assignAt d f
    let _ ← cInc f
    let _ ← cInc d
    copyLoop f l d (n + 1)
  else pure n
partial_fixpoint

/-- `algo_copy`, c_modifying.c:57-85 -/
def copy (low : Addr → Nat) (first last dFirst : Addr) (dLast : Out) : M V (Nat × Addr) :=
  if first = 0 ∨ last = 0 ∨ dFirst = 0 then pure (0, 0) else do
  atLeast first 2
  atLeast last 2
  atLeast dFirst 2
  dLast.lowCheck low 2
  isMutable dFirst
  let f ← newCopy first
  let l ← newCopy last
  let d ← newCopy dFirst
  let n ← copyLoop f l d 0
  let o ← dLast.set d
  free f
  free l
  free d
  pure (n, o)

/-- loop of `algo_copy_if`, c_modifying.c:104-111, `algo_remove_copy` (402-409) and `algo_remove_copy_if` (434-441) -/
def copyIfLoop (cond : Addr → M V Bool) (f l d : Addr) (n : Nat) : M V Nat := do
  let b ← cNe f l
  if b then do
    let b ← cond f
    if b then do
      assignAt d f
      let _ ← cInc d
      let _ ← cInc f
      copyIfLoop cond f l d (n + 1)
    else do
      let _ ← cInc f
      copyIfLoop cond f l d n
  else pure n
partial_fixpoint

/-- `algo_copy_if`, c_modifying.c:87-118 -/
def copyIf (low : Addr → Nat) (first last dFirst : Addr) (dLast : Out) (pred : V → Bool) : M V (Nat × Addr) :=
  if first = 0 ∨ last = 0 ∨ dFirst = 0 then pure (0, 0) else do
  atLeast first 2
  atLeast last 2
  atLeast dFirst 2
  dLast.lowCheck low 2
  isMutable dFirst
  let f ← newCopy first
  let l ← newCopy last
  let d ← newCopy dFirst
  let n ← copyIfLoop (testAt pred) f l d 0
  let o ← dLast.set d
  free f
  free l
  free d
  pure (n, o)

/-- loop of `algo_copy_backward`, c_modifying.c:137-142 -/
def copyBackwardLoop (f l d : Addr) (n : Nat) : M V Nat := do
  let b ← cNe l f
  if b then do
    let _ ← cDec l
    let _ ← cDec d
    assignAt d l
    copyBackwardLoop f l d (n + 1)
  else pure n
partial_fixpoint

/-- `algo_copy_backward`, c_modifying.c:120-149 -/
def copyBackward (low : Addr → Nat) (first last dLast : Addr) (dLastCopied : Out) : M V (Nat × Addr) :=
  if first = 0 ∨ last = 0 ∨ dLast = 0 then pure (0, 0) else do
  atLeast first 3
  atLeast last 3
  atLeast dLast 3
  dLastCopied.lowCheck low 3
  isMutable dLast
  let f ← newCopy first
  let l ← newCopy last
  let d ← newCopy dLast
  let n ← copyBackwardLoop f l d 0
  let o ← dLastCopied.set d
  free f
  free l
  free d
  pure (n, o)

/-- loop of `algo_fill`, c_modifying.c:164-168 -/
def fillLoop (value : Loc) (f l : Addr) (n : Nat) : M V Nat := do
  let b ← cNe f l
  if b then do
    assignV f value
    let _ ← cInc f
    fillLoop value f l (n + 1)
  else pure n
partial_fixpoint

/-- `algo_fill`, c_modifying.c:151-173 -/
def fill (first last : Addr) (value : Loc) : M V Nat :=
  if first = 0 ∨ last = 0 ∨ value.1 = 0 then pure 0 else do
  atLeast first 2
  atLeast last 2
  isMutable first
  let f ← newCopy first
  let l ← newCopy last
  let n ← fillLoop value f l 0
  free f
  free l
  pure n

/-- loop of `algo_fill_n`, c_modifying.c:187-190 -/
def fillNLoop (value : Loc) (f : Addr) : Nat → M V Unit
  | 0 => pure ()
  | n + 1 => do
    assignV f value
    let _ ← cInc f
    fillNLoop value f n

/-- `algo_fill_n`, c_modifying.c:175-195 -/
def fillN (low : Addr → Nat) (first : Addr) (n : Nat) (value : Loc) (last : Out) : M V Addr :=
  if first = 0 ∨ value.1 = 0 then pure 0 else do
  atLeast first 2
  last.lowCheck low 2
  isMutable first
  let f ← newCopy first
  fillNLoop value f n
  let o ← last.set f
  free f
  pure o

/-- loop of `algo_transform`, c_modifying.c:217-224; the temporary is at `t` -/
def transformLoop (op : V → V) (t : Addr) (f l d : Addr) (n : Nat) : M V Nat := do
  let b ← cNe f l
  if b then do
    let _ ← typeOf f
    let x ← cDeref f
    asg (t, 1) x
    let v ← ldV (t, 1)
    wr (t, 1) (op v)
    assignV d (t, 1)
    let _ ← cInc f
    let _ ← cInc d
    transformLoop op t f l d (n + 1)
  else pure n
partial_fixpoint

/-- `algo_transform`, c_modifying.c:197-232 -/
def transform (D : Nat → V) (first last dFirst : Addr) (op : V → V) : M V Nat :=
  if first = 0 ∨ last = 0 ∨ dFirst = 0 then pure 0 else do
  atLeast first 2
  atLeast last 2
  atLeast dFirst 2
  isMutable dFirst
  let f ← newCopy first
  let l ← newCopy last
  let d ← newCopy dFirst
  let ty ← typeOf f
  let t ← mallocO 1
  if t = 0 then ub else do
  construct (t, 1) (D ty)
  let n ← transformLoop op t f l d 0
  destroyV (t, 1)
  freeV t
  free f
  free l
  free d
  pure n

/-- loop of `algo_generate`, c_modifying.c:252-258.  `gen n` is the value made by the `n`-th call of the generator; memset leaves raw memory. -/
def generateLoop (gen : Nat → V) (t : Addr) (f l : Addr) (n : Nat) : M V Nat := do
  let b ← cNe f l
  if b then do
    store (t, 1) (.obj none)
    construct (t, 1) (gen n)
    assignV f (t, 1)
    let _ ← cInc f
    generateLoop gen t f l (n + 1)
  else pure n
partial_fixpoint

/-- `algo_generate`, c_modifying.c:234-266 -/
def generate (first last : Addr) (gen : Nat → V) : M V Nat :=
  if first = 0 ∨ last = 0 then pure 0 else do
  atLeast first 2
  atLeast last 2
  isMutable first
  let f ← newCopy first
  let l ← newCopy last
  let _ ← typeOf f
  let t ← mallocO 1
  if t = 0 then ub else do
  let n ← generateLoop gen t f l 0
  destroyV (t, 1)
  freeV t
  free f
  free l
  pure n

/-- loop of `algo_generate_n`, c_modifying.c:289-294 -/
def generateNLoop (gen : Nat → V) (t : Addr) (f : Addr) (k : Nat) : Nat → M V Unit
  | 0 => pure ()
  | n + 1 => do
    store (t, 1) (.obj none)
    construct (t, 1) (gen k)
    assignV f (t, 1)
    let _ ← cInc f
    generateNLoop gen t f (k + 1) n

/-- `algo_generate_n`, c_modifying.c:268-302 -/
def generateN (low : Addr → Nat) (first : Addr) (n : Nat) (gen : Nat → V) (last : Out) : M V Addr :=
  if first = 0 then pure 0 else do
  atLeast first 2
  last.lowCheck low 2
  isMutable first
  if n = 0 then last.set first else do
  let f ← newCopy first
  let _ ← typeOf f
  let t ← mallocO 1
  if t = 0 then ub else do
  generateNLoop gen t f 0 n
  let o ← last.set f
  destroyV (t, 1)
  freeV t
  free f
  pure o

/-- loop of `algo_remove`, c_modifying.c:324-334, and of `algo_remove_if` (365-374) -/
def removeLoop (gone : Addr → M V Bool) (f i l : Addr) (n : Nat) : M V Nat := do
  let b ← cNe i l
  if b then do
    let g ← gone i
    if !g then do
      assignAt f i
      let _ ← cInc f
      let _ ← cInc i
      removeLoop gone f i l n
    else do
      let _ ← cInc i
      removeLoop gone f i l (n + 1)
  else pure n
partial_fixpoint

/-- `algo_remove`, c_modifying.c:304-343; `c_algo_find` is `algo_find_by` with the equality of the value type (c_algorithm.h:221) -/
def remove (low : Addr → Nat) (E : Nat → V → V → Bool) (first last : Addr) (value : Loc) (newLast : Out) : M V (Nat × Addr) :=
  if first = 0 ∨ last = 0 ∨ value.1 = 0 then pure (0, 0) else do
  atLeast first 2
  atLeast last 2
  newLast.lowCheck low 2
  isMutable first
  let f ← newCopy first
  let l ← newCopy last
  let ty ← typeOf f
  let r ← findBy f l (.val f) value (E ty)
  let f := r.2
  let b ← cNe f l
  let n ← (if b then do
    let i ← copyMove 0 f 1
    let n ← removeLoop (fun x => equalV E x value) f i l 1
    free i
    pure n
  else pure 0)
  let o ← newLast.set f
  free f
  free l
  pure (n, o)

/-- `algo_remove_if`, c_modifying.c:345-383 -/
def removeIf (low : Addr → Nat) (first last : Addr) (newLast : Out) (pred : V → Bool) : M V (Nat × Addr) :=
  if first = 0 ∨ last = 0 then pure (0, 0) else do
  atLeast first 2
  atLeast last 2
  newLast.lowCheck low 2
  isMutable first
  let f ← newCopy first
  let l ← newCopy last
  let r ← findIf f l (.val f) pred
  let f := r.2
  let b ← cNe f l
  let n ← (if b then do
    let i ← copyMove 0 f 1
    let n ← removeLoop (testAt pred) f i l 1
    free i
    pure n
  else pure 0)
  let o ← newLast.set f
  free f
  free l
  pure (n, o)

/-- `algo_remove_copy`, c_modifying.c:385-416 -/
def removeCopy (low : Addr → Nat) (E : Nat → V → V → Bool) (first last dFirst : Addr) (value : Loc) (dLast : Out) : M V (Nat × Addr) :=
  if first = 0 ∨ last = 0 ∨ dFirst = 0 ∨ value.1 = 0 then pure (0, 0) else do
  atLeast first 2
  atLeast last 2
  atLeast dFirst 2
  dLast.lowCheck low 2
  isMutable dFirst
  let f ← newCopy first
  let l ← newCopy last
  let d ← newCopy dFirst
  let n ← copyIfLoop (fun x => notM (equalV E x value)) f l d 0
  let o ← dLast.set d
  free f
  free l
  free d
  pure (n, o)

/-- `algo_remove_copy_if`, c_modifying.c:418-448 -/
def removeCopyIf (low : Addr → Nat) (first last dFirst : Addr) (dLast : Out) (pred : V → Bool) : M V (Nat × Addr) :=
  if first = 0 ∨ last = 0 ∨ dFirst = 0 then pure (0, 0) else do
  atLeast first 2
  atLeast last 2
  atLeast dFirst 2
  dLast.lowCheck low 2
  let f ← newCopy first
  let l ← newCopy last
  let d ← newCopy dFirst
  let n ← copyIfLoop (fun x => notM (testAt pred x)) f l d 0
  let o ← dLast.set d
  free f
  free l
  free d
  pure (n, o)

/-- loop of `algo_replace`, c_modifying.c:465-471, and of `algo_replace_if` (493-499) -/
def replaceLoop (cond : Addr → M V Bool) (new : Loc) (f l : Addr) (n : Nat) : M V Nat := do
  let b ← cNe f l
  if b then do
    let b ← cond f
    if b then do
      assignV f new
      let _ ← cInc f
      replaceLoop cond new f l (n + 1)
    else do
      let _ ← cInc f
      replaceLoop cond new f l n
  else pure n
partial_fixpoint

/-- `algo_replace`, c_modifying.c:450-476 -/
def replace (E : Nat → V → V → Bool) (first last : Addr) (old new : Loc) : M V Nat :=
  if first = 0 ∨ last = 0 ∨ old.1 = 0 ∨ new.1 = 0 then pure 0 else do
  atLeast first 2
  atLeast last 2
  isMutable first
  let f ← newCopy first
  let l ← newCopy last
  let ty ← typeOf f
  let r ← findBy f l (.val f) old (E ty)
  let f := r.2
  let n ← replaceLoop (fun x => equalV E x old) new f l 0
  free f
  free l
  pure n

/-- `algo_replace_if`, c_modifying.c:478-504 -/
def replaceIf (first last : Addr) (pred : V → Bool) (new : Loc) : M V Nat :=
  if first = 0 ∨ last = 0 ∨ new.1 = 0 then pure 0 else do
  atLeast first 2
  atLeast last 2
  isMutable first
  let f ← newCopy first
  let l ← newCopy last
  let r ← findIf f l (.val f) pred
  let f := r.2
  let n ← replaceLoop (testAt pred) new f l 0
  free f
  free l
  pure n

/-- loop of `algo_replace_copy`, c_modifying.c:524-534, and of `algo_replace_copy_if` (561-571) -/
def replaceCopyLoop (cond : Addr → M V Bool) (new : Loc) (f l d : Addr) (n : Nat) : M V Nat := do
  let b ← cNe f l
  if b then do
    let b ← cond f
    (if b then assignV d new else assignAt d f)
    let _ ← cInc d
    let _ ← cInc f
    replaceCopyLoop cond new f l d (n + 1)
  else pure n
partial_fixpoint

/-- `algo_replace_copy`, c_modifying.c:506-541 -/
def replaceCopy (low : Addr → Nat) (E : Nat → V → V → Bool) (first last dFirst : Addr) (old new : Loc) (dLast : Out) : M V (Nat × Addr) :=
  if first = 0 ∨ last = 0 ∨ dFirst = 0 ∨ old.1 = 0 ∨ new.1 = 0 then pure (0, 0) else do
  atLeast first 2
  atLeast last 2
  atLeast dFirst 2
  dLast.lowCheck low 2
  isMutable dFirst
  let f ← newCopy first
  let l ← newCopy last
  let d ← newCopy dFirst
  let n ← replaceCopyLoop (fun x => equalV E x old) new f l d 0
  let o ← dLast.set d
  free f
  free l
  free d
  pure (n, o)

/-- `algo_replace_copy_if`, c_modifying.c:543-578 -/
def replaceCopyIf (low : Addr → Nat) (first last dFirst : Addr) (pred : V → Bool) (new : Loc) (dLast : Out) : M V (Nat × Addr) :=
  if first = 0 ∨ last = 0 ∨ dFirst = 0 ∨ new.1 = 0 then pure (0, 0) else do
  atLeast first 2
  atLeast last 2
  atLeast dFirst 2
  dLast.lowCheck low 2
  isMutable dFirst
  let f ← newCopy first
  let l ← newCopy last
  let d ← newCopy dFirst
  let n ← replaceCopyLoop (testAt pred) new f l d 0
  let o ← dLast.set d
  free f
  free l
  free d
  pure (n, o)

/-- loop of `algo_swap_range`, c_modifying.c:609-614 -/
def swapRangeLoop (f l s : Addr) (n : Nat) : M V Nat := do
  let b ← cNe f l
  if b then do
    swapAt f s
    let _ ← cInc f
    let _ ← cInc s
    swapRangeLoop f l s (n + 1)
  else pure n
partial_fixpoint

/-- `algo_swap_range`, c_modifying.c:594-619 -/
def swapRange (first1 last1 first2 : Addr) : M V Nat :=
  if first1 = 0 ∨ last1 = 0 ∨ first2 = 0 then pure 0 else do
  atLeast first1 2
  atLeast last1 2
  atLeast first2 2
  isMutable first1
  isMutable first2
  let f ← newCopy first1
  let l ← newCopy last1
  let s ← newCopy first2
  let n ← swapRangeLoop f l s 0
  free f
  free l
  free s
  pure n

/-- loop of `algo_reverse`, c_modifying.c:646-654 -/
def reverseLoop (f l : Addr) (n : Nat) : M V Nat := do
  let b ← cNe f l
  if b then do
    let _ ← cDec l
    let b ← cNe f l
    if b then do
      swapAt f l
      let _ ← cInc f
      reverseLoop f l (n + 1 + 1)
    else reverseLoop f l (n + 1)
  else pure n
partial_fixpoint

/-- `algo_reverse`, c_modifying.c:633-659 -/
def reverse (first last : Addr) : M V Nat :=
  if first = 0 ∨ last = 0 then pure 0 else do
  atLeast first 3
  atLeast last 3
  isMutable first
  isMutable last
  let f ← newCopy first
  let l ← newCopy last
  let n ← reverseLoop f l 0
  free f
  free l
  pure n

/-- loop of `algo_reverse_copy`, c_modifying.c:677-682 -/
def reverseCopyLoop (f l d : Addr) (n : Nat) : M V Nat := do
  let b ← cNe f l
  if b then do
    let _ ← cDec l
    assignAt d l
    let _ ← cInc d
    reverseCopyLoop f l d (n + 1)
  else pure n
partial_fixpoint

/-- `algo_reverse_copy`, c_modifying.c:661-689 -/
def reverseCopy (low : Addr → Nat) (first last dFirst : Addr) (dLast : Out) : M V (Nat × Addr) :=
  if first = 0 ∨ last = 0 ∨ dFirst = 0 then pure (0, 0) else do
  atLeast first 3
  atLeast last 3
  atLeast dFirst 2
  dLast.lowCheck low 2
  isMutable dFirst
  let f ← newCopy first
  let l ← newCopy last
  let d ← newCopy dFirst
  let n ← reverseCopyLoop f l d 0
  let o ← dLast.set d
  free f
  free l
  free d
  pure (n, o)

/-- first loop of `algo_rotate` (do … while), c_modifying.c:721-726 -/
def rotateLoop1 (f nf next l : Addr) : M V Unit := do
  iterSwap f next
  let _ ← cInc f
  let _ ← cInc next
  let b ← cEq f nf
  (if b then do
    let _ ← cAssign nf next
    pure ()
  else pure ())
  let b ← cNe next l
  if b then rotateLoop1 f nf next l else pure ()
partial_fixpoint

/-- second loop of `algo_rotate`, c_modifying.c:731-737 -/
def rotateLoop2 (f nf next l : Addr) : M V Unit := do
  let b ← cNe next l
  if b then do
    iterSwap f next
    let _ ← cInc f
    let _ ← cInc next
    let b ← cEq f nf
    (if b then do
      let _ ← cAssign nf next
      pure ()
    else pure ())
    let b ← cEq next l
    (if b then do
      let _ ← cAssign next nf
      pure ()
    else pure ())
    rotateLoop2 f nf next l
  else pure ()
partial_fixpoint

/-- `algo_rotate`, c_modifying.c:691-742 -/
def rotate (low : Addr → Nat) (first nFirst last : Addr) (point : Out) : M V Addr :=
  if first = 0 ∨ nFirst = 0 ∨ last = 0 then pure 0 else do
  atLeast first 2
  atLeast nFirst 2
  atLeast last 2
  point.lowCheck low 2
  isMutable first
  isMutable nFirst
  let b ← cEq first nFirst
  if b then point.set last else do
  let b ← cEq nFirst last
  if b then point.set first else do
  let f ← newCopy first
  let nf ← newCopy nFirst
  let l ← newCopy last
  let next ← newCopy nf
  rotateLoop1 f nf next l
  let o ← point.set f
  let _ ← cAssign next nf
  rotateLoop2 f nf next l
  free next
  free f
  free nf
  free l
  pure o

/-- `algo_rotate_copy`, c_modifying.c:744-769 -/
def rotateCopy (low : Addr → Nat) (first nFirst last dFirst : Addr) (dLast : Out) : M V (Nat × Addr) :=
  if first = 0 ∨ nFirst = 0 ∨ last = 0 ∨ dFirst = 0 then pure (0, 0) else do
  atLeast first 2
  atLeast nFirst 2
  atLeast last 2
  atLeast dFirst 2
  dLast.lowCheck low 2
  isMutable dFirst
  let f ← newCopy first
  let nf ← newCopy nFirst
  let l ← newCopy last
  let d ← newCopy dFirst
  let r1 ← copy low nf l d (.val d)
  let d := r1.2
  let r2 ← copy low f nf d (.val d)
  let d := r2.2
  let o ← dLast.set d
  free f
  free nf
  free l
  free d
  pure (r1.1 + r2.1, o)

/-- loop of `algo_random_shuffle_by`, c_modifying.c:792-796, for `__i` from `i` down to 1; `x`, `y` are the values of `__x`, `__y`.  `r i` is the result of `r(__i + 1)`. -/
def shuffleLoop (r : Nat → Nat) (f : Addr) : Nat → Addr → Addr → M V (Addr × Addr)
  | 0, x, y => pure (x, y)
  | i + 1, x, y => do
    let x ← copyMove x f ((i + 1 : Nat) : Int)
    let y ← copyMove y f (r (i + 1) : Int)
    iterSwap x y
    shuffleLoop r f i x y

/-- `algo_random_shuffle_by`, c_modifying.c:777-802 -/
def shuffle (Z : Nat → Nat) (first last : Addr) (r : Nat → Nat) : M V Unit :=
  if first = 0 ∨ last = 0 then pure () else do
  exactly first 4
  exactly last 4
  isMutable first
  let f ← newCopy first
  let l ← newCopy last
  let n ← cDistance Z f l
  let p ← shuffleLoop r f (n - 1).toNat 0 0
  free p.2
  free p.1
  free f
  free l

/-- loop of `algo_unique_by`, c_modifying.c:827-834 -/
def uniqueLoop (pred : V → V → Bool) (f next l : Addr) (n : Nat) : M V Nat := do
  let b ← cNe next l
  if b then do
    let b ← cmpAt pred f next
    if !b then do
      let _ ← cInc f
      assignAt f next
      let _ ← cInc next
      uniqueLoop pred f next l (n + 1)
    else do
      let _ ← cInc next
      uniqueLoop pred f next l n
  else pure n
partial_fixpoint

/-- `algo_unique_by`, c_modifying.c:804-844 -/
def unique (low : Addr → Nat) (first last : Addr) (newLast : Out) (pred : V → V → Bool) : M V (Nat × Addr) :=
  if first = 0 ∨ last = 0 then pure (0, 0) else do
  atLeast first 2
  atLeast last 2
  newLast.lowCheck low 2
  isMutable first
  let b ← cEq first last
  if b then do
    let o ← newLast.set last
    pure (0, o)
  else do
  let f ← newCopy first
  let l ← newCopy last
  let next ← copyMove 0 f 1
  let n ← uniqueLoop pred f next l 1
  let _ ← cInc f
  let o ← newLast.set f
  free next
  free f
  free l
  pure (n, o)

/-- loop of `algo_unique_copy_by`, c_modifying.c:871-878 -/
def uniqueCopyLoop (pred : V → V → Bool) (f l d : Addr) (n : Nat) : M V Nat := do
  let b ← cNe f l
  if b then do
    let b ← cmpAt pred d f
    if !b then do
      let _ ← cInc d
      assignAt d f
      let _ ← cInc f
      uniqueCopyLoop pred f l d (n + 1)
    else do
      let _ ← cInc f
      uniqueCopyLoop pred f l d n
  else pure n
partial_fixpoint

/-- `algo_unique_copy_by`, c_modifying.c:846-886 -/
def uniqueCopy (low : Addr → Nat) (first last dFirst : Addr) (dLast : Out) (pred : V → V → Bool) : M V (Nat × Addr) :=
  if first = 0 ∨ last = 0 ∨ dFirst = 0 ∨ dLast.isNull = true then pure (0, 0) else do
  atLeast first 2
  atLeast last 2
  atLeast dFirst 2
  dLast.lowCheck low 2
  isMutable dFirst
  let b ← cEq first last
  if b then do
    let o ← dLast.set dFirst
    pure (0, o)
  else do
  let f ← newCopy first
  let l ← newCopy last
  let d ← newCopy dFirst
  assignAt d f
  let _ ← cInc f
  let n ← uniqueCopyLoop pred f l d 1
  let _ ← cInc d
  let o ← dLast.set d
  free f
  free l
  free d
  pure (n, o)

end CC.IAlgo
