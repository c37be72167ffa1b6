import Verif.Algo.NonMod
/-!
# Model of `algorithm/c_modifying.c`
-/
namespace CC.Algo
open CC
variable {V : Type}

/-- loop of `algo_copy`, c_modifying.c:73-78 -/
def copyLoop (c d : Slots) (first last dFirst n : Nat) : M V (Nat × Nat) :=
  if first ≠ last then do
    asg (d dFirst) (c first)
    copyLoop c d (first + 1) last (dFirst + 1) (n + 1)
  else pure (n, dFirst)
partial_fixpoint

/-- `algo_copy`, c_modifying.c:57-85; returns the result and `*d_last` -/
def copy (c : Slots) (first last : Nat) (d : Slots) (dFirst : Nat) : M V (Nat × Nat) := copyLoop c d first last dFirst 0

/-- loop of `algo_copy_if`, c_modifying.c:104-111, `algo_remove_copy` (402-409) and `algo_remove_copy_if` (434-441): copy the elements that satisfy a condition -/
def copyIfLoop (cond : Nat → M V Bool) (c d : Slots) (first last dFirst n : Nat) : M V (Nat × Nat) :=
  if first ≠ last then do
    if ← cond first then do
      asg (d dFirst) (c first)
      copyIfLoop cond c d (first + 1) last (dFirst + 1) (n + 1)
    else copyIfLoop cond c d (first + 1) last dFirst n
  else pure (n, dFirst)
partial_fixpoint

/-- `algo_copy_if`, c_modifying.c:87-118 -/
def copyIf (c : Slots) (first last : Nat) (d : Slots) (dFirst : Nat) (pred : V → Bool) : M V (Nat × Nat) :=
  copyIfLoop (fun i => test pred (c i)) c d first last dFirst 0

/-- loop of `algo_copy_backward`, c_modifying.c:137-142 -/
def copyBackwardLoop (c d : Slots) (first last dLast n : Nat) : M V (Nat × Nat) :=
  if last ≠ first then do
    let last ← dec last
    let dLast ← dec dLast
    asg (d dLast) (c last)
    copyBackwardLoop c d first last dLast (n + 1)
  else pure (n, dLast)
partial_fixpoint

/-- `algo_copy_backward`, c_modifying.c:120-149; returns the result and `*d_last_copied` -/
def copyBackward (c : Slots) (first last : Nat) (d : Slots) (dLast : Nat) : M V (Nat × Nat) := copyBackwardLoop c d first last dLast 0

/-- loop of `algo_fill`, c_modifying.c:164-168 -/
def fillLoop (c : Slots) (value : Loc) (first last n : Nat) : M V Nat :=
  if first ≠ last then do
    asg (c first) value
    fillLoop c value (first + 1) last (n + 1)
  else pure n
partial_fixpoint

/-- `algo_fill`, c_modifying.c:151-173 -/
def fill (c : Slots) (first last : Nat) (value : Loc) : M V Nat := fillLoop c value first last 0

/-- `algo_fill_n`, c_modifying.c:175-195; returns `*last` -/
def fillN (c : Slots) (first : Nat) : Nat → Loc → M V Nat
  | 0, _ => pure first
  | n + 1, value => do
    asg (c first) value
    fillN c (first + 1) n value

/-- loop of `algo_transform`, c_modifying.c:217-224; the operation modifies a temporary copy of the element -/
def transformLoop (c d : Slots) (op : V → V) (first last dFirst n : Nat) : M V Nat :=
  if first ≠ last then do
    let v ← ldV (c first)
    wr (d dFirst) (op v)
    transformLoop c d op (first + 1) last (dFirst + 1) (n + 1)
  else pure n
partial_fixpoint

/-- `algo_transform`, c_modifying.c:197-232 -/
def transform (c : Slots) (first last : Nat) (d : Slots) (dFirst : Nat) (op : V → V) : M V Nat := transformLoop c d op first last dFirst 0

/-- loop of `algo_generate`, c_modifying.c:252-258.  `gen n` is the value made by the `n`-th call of the generator; memset leaves raw memory. -/
def generateLoop (c : Slots) (gen : Nat → V) (t : Addr) (first last n : Nat) : M V Nat :=
  if first ≠ last then do
    store (t, 1) (.obj none)
    construct (t, 1) (gen n)
    asg (c first) (t, 1)
    generateLoop c gen t (first + 1) last (n + 1)
  else pure n
partial_fixpoint

/-- `algo_generate`, c_modifying.c:234-266, with its temporary `__value` -/
def generate (c : Slots) (first last : Nat) (gen : Nat → V) : M V Nat := do
  let t ← mallocO 1
  if t = 0 then ub else do
  let n ← generateLoop c gen t first last 0
  destroyV (t, 1)
  freeV t
  pure n

/-- loop of `algo_generate_n`, c_modifying.c:289-294 -/
def generateNLoop (c : Slots) (gen : Nat → V) (t : Addr) (first k : Nat) : Nat → M V Nat
  | 0 => pure first
  | n + 1 => do
    store (t, 1) (.obj none)
    construct (t, 1) (gen k)
    asg (c first) (t, 1)
    generateNLoop c gen t (first + 1) (k + 1) n

/-- `algo_generate_n`, c_modifying.c:268-302; returns `*last` -/
def generateN (c : Slots) (first n : Nat) (gen : Nat → V) : M V Nat :=
  if n = 0 then pure first else do
  let t ← mallocO 1
  if t = 0 then ub else do
  let last ← generateNLoop c gen t first 0 n
  destroyV (t, 1)
  freeV t
  pure last

/-- loop of `algo_remove`, c_modifying.c:324-334, and of `algo_remove_if` (365-374): `gone i` tells whether element `i` goes -/
def removeLoop (gone : Nat → M V Bool) (c : Slots) (first i last n : Nat) : M V (Nat × Nat) :=
  if i ≠ last then do
    let g ← gone i
    if !g then do
      asg (c first) (c i)
      removeLoop gone c (first + 1) (i + 1) last n
    else removeLoop gone c first (i + 1) last (n + 1)
  else pure (n, first)
partial_fixpoint

/-- `algo_remove`, c_modifying.c:304-343; returns the result and `*new_last` -/
def remove (c : Slots) (first last : Nat) (value : Loc) (eq : V → V → Bool) : M V (Nat × Nat) := do
  let r ← findBy c first last value eq
  if r.2 ≠ last then removeLoop (fun i => cmp eq (c i) value) c r.2 (r.2 + 1) last 1
  else pure (0, r.2)

/-- `algo_remove_if`, c_modifying.c:345-383 -/
def removeIf (c : Slots) (first last : Nat) (pred : V → Bool) : M V (Nat × Nat) := do
  let r ← findIf c first last pred
  if r.2 ≠ last then removeLoop (fun i => test pred (c i)) c r.2 (r.2 + 1) last 1
  else pure (0, r.2)

/-- `algo_remove_copy`, c_modifying.c:385-416 (loop 402-409) -/
def removeCopy (c : Slots) (first last : Nat) (d : Slots) (dFirst : Nat) (value : Loc) (eq : V → V → Bool) : M V (Nat × Nat) :=
  copyIfLoop (fun i => do pure (!(← cmp eq (c i) value))) c d first last dFirst 0

/-- `algo_remove_copy_if`, c_modifying.c:418-448 (loop 434-441) -/
def removeCopyIf (c : Slots) (first last : Nat) (d : Slots) (dFirst : Nat) (pred : V → Bool) : M V (Nat × Nat) :=
  copyIfLoop (fun i => do pure (!(← test pred (c i)))) c d first last dFirst 0

/-- loop of `algo_replace`, c_modifying.c:465-471, and of `algo_replace_if` (493-499) -/
def replaceLoop (cond : Nat → M V Bool) (c : Slots) (new : Loc) (first last n : Nat) : M V Nat :=
  if first ≠ last then do
    if ← cond first then do
      asg (c first) new
      replaceLoop cond c new (first + 1) last (n + 1)
    else replaceLoop cond c new (first + 1) last n
  else pure n
partial_fixpoint

/-- `algo_replace`, c_modifying.c:450-476 -/
def replace (c : Slots) (first last : Nat) (old new : Loc) (eq : V → V → Bool) : M V Nat := do
  let r ← findBy c first last old eq
  replaceLoop (fun i => cmp eq (c i) old) c new r.2 last 0

/-- `algo_replace_if`, c_modifying.c:478-504 -/
def replaceIf (c : Slots) (first last : Nat) (pred : V → Bool) (new : Loc) : M V Nat := do
  let r ← findIf c first last pred
  replaceLoop (fun i => test pred (c i)) c new r.2 last 0

/-- loop of `algo_replace_copy`, c_modifying.c:524-534, and of `algo_replace_copy_if` (561-571) -/
def replaceCopyLoop (cond : Nat → M V Bool) (c d : Slots) (new : Loc) (first last dFirst n : Nat) : M V (Nat × Nat) :=
  if first ≠ last then do
    let b ← cond first
    asg (d dFirst) (if b then new else c first)
    replaceCopyLoop cond c d new (first + 1) last (dFirst + 1) (n + 1)
  else pure (n, dFirst)
partial_fixpoint

/-- `algo_replace_copy`, c_modifying.c:506-541 -/
def replaceCopy (c : Slots) (first last : Nat) (d : Slots) (dFirst : Nat) (old new : Loc) (eq : V → V → Bool) : M V (Nat × Nat) :=
  replaceCopyLoop (fun i => cmp eq (c i) old) c d new first last dFirst 0

/-- `algo_replace_copy_if`, c_modifying.c:543-578 -/
def replaceCopyIf (c : Slots) (first last : Nat) (d : Slots) (dFirst : Nat) (pred : V → Bool) (new : Loc) : M V (Nat × Nat) :=
  replaceCopyLoop (fun i => test pred (c i)) c d new first last dFirst 0

/-- `algo_swap`, c_modifying.c:580-592 (and `algo_iter_swap`, 621-631, which applies it to the elements) -/
def swp (x y : Loc) : M V Unit := do
  let tmp ← ldV x
  asg x y
  wr y tmp

/-- loop of `algo_swap_range`, c_modifying.c:609-614 -/
def swapRangeLoop (c d : Slots) (first1 last1 first2 n : Nat) : M V Nat :=
  if first1 ≠ last1 then do
    swp (c first1) (d first2)
    swapRangeLoop c d (first1 + 1) last1 (first2 + 1) (n + 1)
  else pure n
partial_fixpoint

/-- `algo_swap_range`, c_modifying.c:594-619 -/
def swapRange (c : Slots) (first1 last1 : Nat) (d : Slots) (first2 : Nat) : M V Nat := swapRangeLoop c d first1 last1 first2 0

/-- loop of `algo_reverse`, c_modifying.c:646-654 -/
def reverseLoop (c : Slots) (first last n : Nat) : M V Nat :=
  if first ≠ last then do
    let last ← dec last
    if first ≠ last then do
      swp (c first) (c last)
      reverseLoop c (first + 1) last (n + 1 + 1)
    else reverseLoop c first last (n + 1)
  else pure n
partial_fixpoint

/-- `algo_reverse`, c_modifying.c:633-659 -/
def reverse (c : Slots) (first last : Nat) : M V Nat := reverseLoop c first last 0

/-- loop of `algo_reverse_copy`, c_modifying.c:677-682 -/
def reverseCopyLoop (c d : Slots) (first last dFirst n : Nat) : M V (Nat × Nat) :=
  if first ≠ last then do
    let last ← dec last
    asg (d dFirst) (c last)
    reverseCopyLoop c d first last (dFirst + 1) (n + 1)
  else pure (n, dFirst)
partial_fixpoint

/-- `algo_reverse_copy`, c_modifying.c:661-689 -/
def reverseCopy (c : Slots) (first last : Nat) (d : Slots) (dFirst : Nat) : M V (Nat × Nat) := reverseCopyLoop c d first last dFirst 0

/-- first loop of `algo_rotate` (do … while), c_modifying.c:721-726: the final values of `__first` and `__n_first` -/
def rotateLoop1 (c : Slots) (first nFirst next last : Nat) : M V (Nat × Nat) := do
  swp (c first) (c next)
  let first := first + 1
  let next := next + 1
  let nFirst := if first = nFirst then next else nFirst
  if next ≠ last then rotateLoop1 c first nFirst next last else pure (first, nFirst)
partial_fixpoint

/-- second loop of `algo_rotate`, c_modifying.c:731-737 -/
def rotateLoop2 (c : Slots) (first nFirst next last : Nat) : M V Unit :=
  if next ≠ last then do
    swp (c first) (c next)
    let first := first + 1
    let next := next + 1
    let nFirst := if first = nFirst then next else nFirst
    let next := if next = last then nFirst else next
    rotateLoop2 c first nFirst next last
  else pure ()
partial_fixpoint

/-- `algo_rotate`, c_modifying.c:691-742; returns `*rotate_point` -/
def rotate (c : Slots) (first nFirst last : Nat) : M V Nat :=
  if first = nFirst then pure last
  else if nFirst = last then pure first
  else do
    let r ← rotateLoop1 c first nFirst nFirst last
    rotateLoop2 c r.1 r.2 r.2 last
    pure r.1

/-- `algo_rotate_copy`, c_modifying.c:744-769 -/
def rotateCopy (c : Slots) (first nFirst last : Nat) (d : Slots) (dFirst : Nat) : M V (Nat × Nat) := do
  let r1 ← copy c nFirst last d dFirst
  let r2 ← copy c first nFirst d r1.2
  pure (r1.1 + r2.1, r2.2)

/-- loop of `algo_random_shuffle_by`, c_modifying.c:792-796, for `__i` from `i` down to 1.  The generator is called once for each `__i`, and `r i` is the result of
that call `r(__i + 1)`: for generators with internal state any sequence of results is such a function. -/
def shuffleLoop (c : Slots) (first : Nat) (r : Nat → Nat) : Nat → M V Unit
  | 0 => pure ()
  | i + 1 => do
    swp (c (first + (i + 1))) (c (first + r (i + 1)))
    shuffleLoop c first r i

/-- `algo_random_shuffle_by`, c_modifying.c:777-802 -/
def shuffle (c : Slots) (first last : Nat) (r : Nat → Nat) : M V Unit := shuffleLoop c first r (last - first - 1)

/-- `__uniform` with `min == 0`, `uniform` and `algo_uniform`, c_modifying.c:31-55, for a result `seed` of `rand()`; the floating point computation
`(c_random_int_t)(n * (seed / 1048576.0))` is taken as exact -/
def uniform (seed n : Nat) : Nat :=
  let seed := 2045 * seed + 1
  let seed := seed - (seed / 1048576) * 1048576
  n * seed / 1048576

/-- loop of `algo_unique_by`, c_modifying.c:827-834 -/
def uniqueLoop (c : Slots) (pred : V → V → Bool) (first next last n : Nat) : M V (Nat × Nat) :=
  if next ≠ last then do
    let b ← cmp pred (c first) (c next)
    if !b then do
      asg (c (first + 1)) (c next)
      uniqueLoop c pred (first + 1) (next + 1) last (n + 1)
    else uniqueLoop c pred first (next + 1) last n
  else pure (n, first + 1)
partial_fixpoint

/-- `algo_unique_by`, c_modifying.c:804-844; returns the result (the number of remaining elements) and `*new_last` -/
def unique (c : Slots) (first last : Nat) (pred : V → V → Bool) : M V (Nat × Nat) :=
  if first = last then pure (0, last) else uniqueLoop c pred first (first + 1) last 1

/-- loop of `algo_unique_copy_by`, c_modifying.c:871-878 -/
def uniqueCopyLoop (c d : Slots) (pred : V → V → Bool) (first last dFirst n : Nat) : M V (Nat × Nat) :=
  if first ≠ last then do
    let b ← cmp pred (d dFirst) (c first)
    if !b then do
      asg (d (dFirst + 1)) (c first)
      uniqueCopyLoop c d pred (first + 1) last (dFirst + 1) (n + 1)
    else uniqueCopyLoop c d pred (first + 1) last dFirst n
  else pure (n, dFirst + 1)
partial_fixpoint

/-- `algo_unique_copy_by`, c_modifying.c:846-886, with `d_last` not NULL -/
def uniqueCopy (c : Slots) (first last : Nat) (d : Slots) (dFirst : Nat) (pred : V → V → Bool) : M V (Nat × Nat) :=
  if first = last then pure (0, dFirst) else do
  asg (d dFirst) (c first)
  uniqueCopyLoop c d pred (first + 1) last dFirst 1

end CC.Algo
