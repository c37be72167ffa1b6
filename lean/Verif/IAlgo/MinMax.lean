import Verif.IAlgo.Base
/-!
# Model of `algorithm/c_min_max.c` with iterator objects
-/
namespace CC.IAlgo
open CC CC.Iter CC.Algo
variable {V : Type}

/-- The loop of `algo_max_element_by`, c_min_max.c:75-82, and of `algo_min_element_by` (106-113): `better best first` is the comparison. -/
def extLoop (better : Addr → Addr → M V Bool) (best f l : Addr) : M V Unit := do
  let b ← cNe f l
  if b then do
    let _ ← cInc f
    let b ← cNe f l
    if b then do
      let b ← better best f
      if b then do
        let _ ← cAssign best f
        extLoop better best f l
      else extLoop better best f l
    else extLoop better best f l
  else pure ()
partial_fixpoint

/-- `algo_max_element_by`, c_min_max.c:60-89 -/
def maxElement (first last : Addr) (max : Out) (comp : V → V → Bool) : M V Addr :=
  if first = 0 ∨ last = 0 ∨ max.isNull = true then pure 0 else do
  atLeast first 2
  atLeast last 2
  max.atLeast 2
  let f ← newCopy first
  let l ← newCopy last
  let m ← newCopy f
  extLoop (fun best cur => cmpAt comp best cur) m f l
  let o ← max.set m
  free m
  free f
  free l
  pure o

/-- `algo_min_element_by`, c_min_max.c:91-120 -/
def minElement (first last : Addr) (min : Out) (comp : V → V → Bool) : M V Addr :=
  if first = 0 ∨ last = 0 ∨ min.isNull = true then pure 0 else do
  atLeast first 2
  atLeast last 2
  min.atLeast 2
  let f ← newCopy first
  let l ← newCopy last
  let m ← newCopy f
  extLoop (fun best cur => cmpAt comp cur best) m f l
  let o ← min.set m
  free m
  free f
  free l
  pure o

/-- loop of `algo_minmax_element_by`, c_min_max.c:141-152 -/
def minmaxLoop (comp : V → V → Bool) (mn mx f l : Addr) : M V Unit := do
  let b ← cNe f l
  if b then do
    let _ ← cInc f
    let b ← cNe f l
    if b then do
      let b ← cmpAt comp f mn
      (if b then do
        let _ ← cAssign mn f
        pure ()
      else pure ())
      let b ← cmpAt comp mx f
      (if b then do
        let _ ← cAssign mx f
        pure ()
      else pure ())
      minmaxLoop comp mn mx f l
    else minmaxLoop comp mn mx f l
  else pure ()
partial_fixpoint

/-- `algo_minmax_element_by`, c_min_max.c:122-161 -/
def minmaxElement (first last : Addr) (min max : Out) (comp : V → V → Bool) : M V (Addr × Addr) :=
  if first = 0 ∨ last = 0 ∨ min.isNull = true ∨ max.isNull = true then pure (0, 0) else do
  atLeast first 2
  atLeast last 2
  min.atLeast 2
  max.atLeast 2
  let f ← newCopy first
  let l ← newCopy last
  let mn ← newCopy f
  let mx ← newCopy f
  minmaxLoop comp mn mx f l
  let o1 ← min.set mn
  let o2 ← max.set mx
  free mx
  free mn
  free f
  free l
  pure (o1, o2)

/-- loop of `algo_lexicographical_compare_by`, c_min_max.c:192-203: `ret` -/
def lexLoop (comp : V → V → Bool) (f1 l1 f2 l2 : Addr) : M V Bool := do
  let b ← cNe f1 l1
  let b ← (if b then cNe f2 l2 else pure false)
  if b then do
    let b ← cmpAt comp f1 f2
    if b then pure true else do
    let b ← cmpAt comp f2 f1
    if b then pure false else do
    let _ ← cInc f1
    let _ ← cInc f2
    lexLoop comp f1 l1 f2 l2
  else pure false
partial_fixpoint

/-- `algo_lexicographical_compare_by`, c_min_max.c:176-212 -/
def lexCompare (first1 last1 first2 last2 : Addr) (comp : V → V → Bool) : M V Bool :=
  if first1 = 0 ∨ last1 = 0 ∨ first2 = 0 ∨ last2 = 0 then pure false else do
  atLeast first1 2
  atLeast last1 2
  atLeast first2 2
  atLeast last2 2
  let f1 ← newCopy first1
  let l1 ← newCopy last1
  let f2 ← newCopy first2
  let l2 ← newCopy last2
  let ret ← lexLoop comp f1 l1 f2 l2
  let b ← cEq f1 l1
  let b ← (if b then cNe f2 l2 else pure false)
  let ret := if b then true else ret
  free f1
  free l1
  free f2
  free l2
  pure ret

end CC.IAlgo
