import Verif.IAlgo.Base
/-!
# Model of `algorithm/c_bsearch.c` with iterator objects

`Z` gives the sizes of the value types, which `C_ITER_DISTANCE` divides by.
-/
namespace CC.IAlgo
open CC CC.Iter CC.Algo
variable {V : Type}

/-- The loop of `algo_lower_bound_by`, c_bsearch.c:48-60, and of `algo_upper_bound_by` (87-99): `right it` is the condition of the `if`.  `ptrdiff_t` is `Int`. -/
def boundLoop (right : Addr → M V Bool) (f it : Addr) (count : Int) : M V Unit :=
  if count > 0 then do
    let _ ← cAssign it f
    let step := count / 2
    cAdvance it step
    let b ← right it
    if b then do
      let _ ← cInc it
      let _ ← cAssign f it
      boundLoop right f it (count - (step + 1))
    else boundLoop right f it step
  else pure ()
partial_fixpoint

/-- `algo_lower_bound_by`, c_bsearch.c:30-67 -/
def lowerBound (Z : Nat → Nat) (first last : Addr) (value : Loc) (bound : Out) (comp : V → V → Bool) : M V Addr :=
  if first = 0 ∨ last = 0 ∨ value.1 = 0 ∨ bound.isNull = true then pure 0 else do
  atLeast first 2
  atLeast last 2
  bound.atLeast 2
  let f ← newCopy first
  let l ← newCopy last
  let count ← cDistance Z f l
  let it ← newCopy f
  boundLoop (fun it => cmpV comp it value) f it count
  let o ← bound.set f
  free it
  free f
  free l
  pure o

/-- `algo_upper_bound_by`, c_bsearch.c:69-106 -/
def upperBound (Z : Nat → Nat) (first last : Addr) (value : Loc) (bound : Out) (comp : V → V → Bool) : M V Addr :=
  if first = 0 ∨ last = 0 ∨ value.1 = 0 ∨ bound.isNull = true then pure 0 else do
  atLeast first 2
  atLeast last 2
  bound.atLeast 2
  let f ← newCopy first
  let l ← newCopy last
  let count ← cDistance Z f l
  let it ← newCopy f
  boundLoop (fun it => do pure (!(← vCmp comp value it))) f it count
  let o ← bound.set f
  free it
  free f
  free l
  pure o

/-- `algo_binary_search_by`, c_bsearch.c:108-127 -/
def binarySearch (Z : Nat → Nat) (first last : Addr) (value : Loc) (comp : V → V → Bool) : M V Bool :=
  if first = 0 ∨ last = 0 ∨ value.1 = 0 then pure false else do
  atLeast first 2
  atLeast last 2
  let f ← newCopy first
  let l ← newCopy last
  let f ← lowerBound Z f l value (.val f) comp
  let b ← cNe f l
  let ret ← (if b then do pure (!(← vCmp comp value f)) else pure false)
  free f
  free l
  pure ret

/-- `algo_equal_range_by`, c_bsearch.c:129-146 -/
def equalRange (Z : Nat → Nat) (first last : Addr) (value : Loc) (lower upper : Out) (comp : V → V → Bool) : M V (Addr × Addr) :=
  if first = 0 ∨ last = 0 ∨ value.1 = 0 ∨ lower.isNull = true ∨ upper.isNull = true then pure (0, 0) else do
  atLeast first 2
  atLeast last 2
  let f ← newCopy first
  let l ← newCopy last
  let lo ← lowerBound Z f l value lower comp
  let up ← upperBound Z f l value upper comp
  free f
  free l
  pure (lo, up)

end CC.IAlgo
