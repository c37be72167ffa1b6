import Verif.IAlgo.Modify
/-!
# Model of `algorithm/c_set_op.c` with iterator objects
-/
namespace CC.IAlgo
open CC CC.Iter CC.Algo
variable {V : Type}

/-- loop of `algo_merge_by`, c_set_op.c:52-63 -/
def mergeLoop (comp : V → V → Bool) (f1 l1 f2 l2 d : Addr) (n : Nat) : M V Nat := do
  let b ← cNe f1 l1
  if b then do
    let b ← cNe f2 l2
    if b then do
      let b ← cmpAt comp f1 f2
      if b then do
        assignAt d f1
        let _ ← cInc f1
        let _ ← cInc d
        mergeLoop comp f1 l1 f2 l2 d (n + 1)
      else do
        assignAt d f2
        let _ ← cInc f2
        let _ ← cInc d
        mergeLoop comp f1 l1 f2 l2 d (n + 1)
    else pure n
  else pure n
partial_fixpoint

/-- `algo_merge_by`, c_set_op.c:31-73 -/
def merge (low : Addr → Nat) (first1 last1 first2 last2 dFirst : Addr) (dLast : Out) (comp : V → V → Bool) : M V (Nat × Addr) :=
  if first1 = 0 ∨ last1 = 0 ∨ first2 = 0 ∨ last2 = 0 ∨ dFirst = 0 then pure (0, 0) else do
  atLeast first1 2
  atLeast last1 2
  atLeast first2 2
  atLeast last2 2
  atLeast dFirst 2
  dLast.atLeast 2
  isMutable dFirst
  let f1 ← newCopy first1
  let l1 ← newCopy last1
  let f2 ← newCopy first2
  let l2 ← newCopy last2
  let d ← newCopy dFirst
  let n ← mergeLoop comp f1 l1 f2 l2 d 0
  let r1 ← copy low f1 l1 d (.val d)
  let d := r1.2
  let r2 ← copy low f2 l2 d (.val d)
  let d := r2.2
  let o ← dLast.set d
  free f1
  free l1
  free f2
  free l2
  free d
  pure (n + r1.1 + r2.1, o)

/-- loop of `algo_set_difference_by`, c_set_op.c:134-145 -/
def differenceLoop (comp : V → V → Bool) (f1 l1 f2 l2 d : Addr) (n : Nat) : M V Nat := do
  let b ← cNe f1 l1
  if b then do
    let b ← cNe f2 l2
    if b then do
      let b ← cmpAt comp f1 f2
      if b then do
        assignAt d f1
        let _ ← cInc f1
        let _ ← cInc d
        differenceLoop comp f1 l1 f2 l2 d (n + 1)
      else do
        let _ ← cInc f1
        let _ ← cInc f2
        differenceLoop comp f1 l1 f2 l2 d n
    else pure n
  else pure n
partial_fixpoint

/-- `algo_set_difference_by`, c_set_op.c:113-154 -/
def setDifference (low : Addr → Nat) (first1 last1 first2 last2 dFirst : Addr) (dLast : Out) (comp : V → V → Bool) : M V (Nat × Addr) :=
  if first1 = 0 ∨ last1 = 0 ∨ first2 = 0 ∨ last2 = 0 ∨ dFirst = 0 then pure (0, 0) else do
  atLeast first1 2
  atLeast last1 2
  atLeast first2 2
  atLeast last2 2
  atLeast dFirst 2
  dLast.atLeast 2
  isMutable dFirst
  let f1 ← newCopy first1
  let l1 ← newCopy last1
  let f2 ← newCopy first2
  let l2 ← newCopy last2
  let d ← newCopy dFirst
  let n ← differenceLoop comp f1 l1 f2 l2 d 0
  let r1 ← copy low f1 l1 d (.val d)
  let d := r1.2
  let o ← dLast.set d
  free f1
  free l1
  free f2
  free l2
  free d
  pure (n + r1.1, o)

/-- loop of `algo_set_intersection_by`, c_set_op.c:177-191 -/
def intersectionLoop (comp : V → V → Bool) (f1 l1 f2 l2 d : Addr) (n : Nat) : M V Nat := do
  let b ← cNe f1 l1
  if b then do
    let b ← cNe f2 l2
    if b then do
      let b ← cmpAt comp f1 f2
      if b then do
        let _ ← cInc f1
        intersectionLoop comp f1 l1 f2 l2 d n
      else do
        let b ← cmpAt comp f2 f1
        if b then do
          let _ ← cInc f2
          intersectionLoop comp f1 l1 f2 l2 d n
        else do
          assignAt d f1
          let _ ← cInc d
          let _ ← cInc f1
          let _ ← cInc f2
          intersectionLoop comp f1 l1 f2 l2 d (n + 1)
    else pure n
  else pure n
partial_fixpoint

/-- `algo_set_intersection_by`, c_set_op.c:156-198 -/
def setIntersection (first1 last1 first2 last2 dFirst : Addr) (dLast : Out) (comp : V → V → Bool) : M V (Nat × Addr) :=
  if first1 = 0 ∨ last1 = 0 ∨ first2 = 0 ∨ last2 = 0 ∨ dFirst = 0 then pure (0, 0) else do
  atLeast first1 2
  atLeast last1 2
  atLeast first2 2
  atLeast last2 2
  atLeast dFirst 2
  dLast.atLeast 2
  isMutable dFirst
  let f1 ← newCopy first1
  let l1 ← newCopy last1
  let f2 ← newCopy first2
  let l2 ← newCopy last2
  let d ← newCopy dFirst
  let n ← intersectionLoop comp f1 l1 f2 l2 d 0
  let o ← dLast.set d
  free f1
  free l1
  free f2
  free l2
  free d
  pure (n, o)

/-- loop of `algo_set_symmetric_difference_by`, c_set_op.c:221-238 -/
def symDifferenceLoop (comp : V → V → Bool) (f1 l1 f2 l2 d : Addr) (n : Nat) : M V Nat := do
  let b ← cNe f1 l1
  if b then do
    let b ← cNe f2 l2
    if b then do
      let b ← cmpAt comp f1 f2
      if b then do
        assignAt d f1
        let _ ← cInc d
        let _ ← cInc f1
        symDifferenceLoop comp f1 l1 f2 l2 d (n + 1)
      else do
        let b ← cmpAt comp f2 f1
        if b then do
          assignAt d f2
          let _ ← cInc d
          let _ ← cInc f2
          symDifferenceLoop comp f1 l1 f2 l2 d (n + 1)
        else do
          let _ ← cInc f1
          let _ ← cInc f2
          symDifferenceLoop comp f1 l1 f2 l2 d n
    else pure n
  else pure n
partial_fixpoint

/-- `algo_set_symmetric_difference_by`, c_set_op.c:200-248 -/
def setSymDifference (low : Addr → Nat) (first1 last1 first2 last2 dFirst : Addr) (dLast : Out) (comp : V → V → Bool) : M V (Nat × Addr) :=
  if first1 = 0 ∨ last1 = 0 ∨ first2 = 0 ∨ last2 = 0 ∨ dFirst = 0 then pure (0, 0) else do
  atLeast first1 2
  atLeast last1 2
  atLeast first2 2
  atLeast last2 2
  atLeast dFirst 2
  dLast.atLeast 2
  isMutable dFirst
  let f1 ← newCopy first1
  let l1 ← newCopy last1
  let f2 ← newCopy first2
  let l2 ← newCopy last2
  let d ← newCopy dFirst
  let n ← symDifferenceLoop comp f1 l1 f2 l2 d 0
  let r1 ← copy low f1 l1 d (.val d)
  let d := r1.2
  let r2 ← copy low f2 l2 d (.val d)
  let d := r2.2
  let o ← dLast.set d
  free f1
  free l1
  free f2
  free l2
  free d
  pure (n + r1.1 + r2.1, o)

/-- loop of `algo_set_union_by`, c_set_op.c:271-291 -/
def unionLoop (comp : V → V → Bool) (f1 l1 f2 l2 d : Addr) (n : Nat) : M V Nat := do
  let b ← cNe f1 l1
  if b then do
    let b ← cNe f2 l2
    if b then do
      let b ← cmpAt comp f1 f2
      if b then do
        assignAt d f1
        let _ ← cInc d
        let _ ← cInc f1
        unionLoop comp f1 l1 f2 l2 d (n + 1)
      else do
        let b ← cmpAt comp f2 f1
        if b then do
          assignAt d f2
          let _ ← cInc d
          let _ ← cInc f2
          unionLoop comp f1 l1 f2 l2 d (n + 1)
        else do
          assignAt d f1
          let _ ← cInc d
          let _ ← cInc f1
          let _ ← cInc f2
          unionLoop comp f1 l1 f2 l2 d (n + 1)
    else pure n
  else pure n
partial_fixpoint

/-- `algo_set_union_by`, c_set_op.c:250-301 -/
def setUnion (low : Addr → Nat) (first1 last1 first2 last2 dFirst : Addr) (dLast : Out) (comp : V → V → Bool) : M V (Nat × Addr) :=
  if first1 = 0 ∨ last1 = 0 ∨ first2 = 0 ∨ last2 = 0 ∨ dFirst = 0 then pure (0, 0) else do
  atLeast first1 2
  atLeast last1 2
  atLeast first2 2
  atLeast last2 2
  atLeast dFirst 2
  dLast.atLeast 2
  isMutable dFirst
  let f1 ← newCopy first1
  let l1 ← newCopy last1
  let f2 ← newCopy first2
  let l2 ← newCopy last2
  let d ← newCopy dFirst
  let n ← unionLoop comp f1 l1 f2 l2 d 0
  let r1 ← copy low f1 l1 d (.val d)
  let d := r1.2
  let r2 ← copy low f2 l2 d (.val d)
  let d := r2.2
  let o ← dLast.set d
  free f1
  free l1
  free f2
  free l2
  free d
  pure (n + r1.1 + r2.1, o)

/-- loop of `algo_includes_by`, c_set_op.c:93-104 -/
def includesLoop (comp : V → V → Bool) (f1 l1 f2 l2 : Addr) : M V Unit := do
  let b ← cNe f1 l1
  if b then do
    let b ← cNe f2 l2
    if b then do
      let b ← cmpAt comp f2 f1
      if b then pure ()
      else do
        let b ← cmpAt comp f1 f2
        if b then do
          let _ ← cInc f1
          includesLoop comp f1 l1 f2 l2
        else do
          let _ ← cInc f1
          let _ ← cInc f2
          includesLoop comp f1 l1 f2 l2
    else pure ()
  else pure ()
partial_fixpoint

/-- `algo_includes_by`, c_set_op.c:75-111 -/
def includes (first1 last1 first2 last2 : Addr) (comp : V → V → Bool) : M V Bool :=
  if first1 = 0 ∨ last1 = 0 ∨ first2 = 0 ∨ last2 = 0 then pure false else do
  atLeast first1 2
  atLeast last1 2
  atLeast first2 2
  atLeast last2 2
  let b ← cEq first2 last2
  if b then pure true else do
  let f1 ← newCopy first1
  let l1 ← newCopy last1
  let f2 ← newCopy first2
  let l2 ← newCopy last2
  includesLoop comp f1 l1 f2 l2
  let b ← cNe f2 l2
  free f1
  free l1
  free f2
  free l2
  pure (!b)

end CC.IAlgo
