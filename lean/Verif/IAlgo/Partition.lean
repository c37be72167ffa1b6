import Verif.IAlgo.NonMod
/-!
# Model of `algorithm/c_partitioning.c` with iterator objects
-/
namespace CC.IAlgo
open CC CC.Iter CC.Algo
variable {V : Type}

/-- the second loop of `algo_is_partitioned`, c_partitioning.c:49-55 -/
def noneTrue (pred : V → Bool) (f l : Addr) : M V Bool := do
  let b ← cNe f l
  if b then do
    let b ← testAt pred f
    if b then pure false else do
    let _ ← cInc f
    noneTrue pred f l
  else pure true
partial_fixpoint

/-- `algo_is_partitioned`, c_partitioning.c:31-60 -/
def isPartitioned (first last : Addr) (pred : V → Bool) : M V Bool :=
  if first = 0 ∨ last = 0 then pure false else do
  atLeast first 2
  atLeast last 2
  let b ← cEq first last
  if b then pure true else do
  let f ← newCopy first
  let l ← newCopy last
  scan (testAt pred) f l
  let ret ← noneTrue pred f l
  free f
  free l
  pure ret

/-- loop of `algo_partition`, c_partitioning.c:81-87 -/
def partitionLoop (pred : V → Bool) (f next l : Addr) : M V Unit := do
  let b ← cNe next l
  if b then do
    let b ← testAt pred next
    (if b then do
      iterSwap f next
      let _ ← cInc f
      pure ()
    else pure ())
    let _ ← cInc next
    partitionLoop pred f next l
  else pure ()
partial_fixpoint

/-- `algo_partition`, c_partitioning.c:62-94 -/
def partition (first last : Addr) (second : Out) (pred : V → Bool) : M V Addr :=
  if first = 0 ∨ last = 0 then pure 0 else do
  atLeast first 2
  atLeast last 2
  second.atLeast 2
  isMutable first
  let f ← newCopy first
  let l ← newCopy last
  let r ← findIfNot f l (.val f) pred
  let f := r.2
  let b ← cNe f l
  (if b then do
    let next ← newCopy f
    let _ ← cInc next
    partitionLoop pred f next l
    free next
  else pure ())
  let o ← second.set f
  free f
  free l
  pure o

/-- loop of `algo_partition_copy`, c_partitioning.c:118-129 -/
def partitionCopyLoop (pred : V → Bool) (f l dt df : Addr) (n : Nat) : M V Nat := do
  let b ← cNe f l
  if b then do
    let b ← testAt pred f
    (if b then do
      assignAt dt f
      let _ ← cInc dt
      pure ()
    else do
      assignAt df f
      let _ ← cInc df
      pure ())
    let _ ← cInc f
    partitionCopyLoop pred f l dt df (n + 1)
  else pure n
partial_fixpoint

/-- `algo_partition_copy`, c_partitioning.c:96-137 -/
def partitionCopy (first last dFirstTrue dFirstFalse : Addr) (dLastTrue dLastFalse : Out) (pred : V → Bool) : M V (Nat × Addr × Addr) :=
  if first = 0 ∨ last = 0 ∨ dFirstTrue = 0 ∨ dFirstFalse = 0 then pure (0, 0, 0) else do
  atLeast first 2
  atLeast last 2
  atLeast dFirstTrue 2
  atLeast dFirstFalse 2
  dLastTrue.atLeast 2
  dLastFalse.atLeast 2
  isMutable dFirstTrue
  isMutable dFirstFalse
  let f ← newCopy first
  let l ← newCopy last
  let dt ← newCopy dFirstTrue
  let df ← newCopy dFirstFalse
  let n ← partitionCopyLoop pred f l dt df 0
  let o1 ← dLastTrue.set dt
  let o2 ← dLastFalse.set df
  free f
  free l
  free dt
  free df
  pure (n, o1, o2)

/-- `algo_partition_point`, c_partitioning.c:139-158 -/
def partitionPoint (first last : Addr) (point : Out) (pred : V → Bool) : M V Addr :=
  if first = 0 ∨ last = 0 ∨ point.isNull = true then pure 0 else do
  atLeast first 2
  atLeast last 2
  point.atLeast 2
  let f ← newCopy first
  let l ← newCopy last
  scan (testAt pred) f l
  let o ← point.set f
  free f
  free l
  pure o

end CC.IAlgo
