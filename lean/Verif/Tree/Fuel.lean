import Verif.Core.Cost
import Verif.Tree.Model
/-!
# The operations of the tree with a limit on the number of iterations of each loop

These copies serve to count steps: `xF N` is `x`, except that a loop that wants to start iteration `N + 1` is undefined behaviour.  The theorems `xF_le` say that whatever `xF N` does without an error
`x` does, too (so the copies cannot drift apart from the model), and `xF_cost` bounds the number of memory accesses of `xF N`.  (Generated from Tree/Model.lean by tools/fuel.py.)
-/
namespace CC.Tree
variable {V : Type}

/-- `minLoop` with the number of iterations of its loops limited by `N` (c_tree.c:177-186) -/
def minLoopF (N : Nat) (n : Addr) : M V Addr :=
  match N with
  | 0 => ub
  | N + 1 =>
    do
      let l ← left n
      if l ≠ 0 then minLoopF N l else pure n
theorem minLoopF_le (N : Nat) (n : Addr) : Le (minLoopF N n : M V Addr) (minLoop n) := by
  induction N generalizing n with
  | zero => exact Le.ub _
  | succ N ih =>
    rw [minLoopF, minLoop]
    repeat' first | le_step | apply ih | intro _
theorem minLoopF_cost (N : Nat) (n : Addr) : Cost (minLoopF N n : M V Addr) (1 * N) := by
  induction N generalizing n with
  | zero => exact Cost.ub
  | succ N ih =>
    rw [minLoopF]
    apply Cost.mono
    focus (repeat' first | apply ih | cost_step)
    omega
macro_rules | `(tactic| le_fn) => `(tactic| exact minLoopF_le _ _)
macro_rules | `(tactic| cost_fn) => `(tactic| exact minLoopF_cost _ _)

/-- `minimum` with the number of iterations of its loops limited by `N` (c_tree.c:177-186) -/
def minimumF (N : Nat) (n : Addr) : M V Addr :=
  if n = 0 then pure 0 else minLoopF N n
theorem minimumF_le (N : Nat) (n : Addr) : Le (minimumF N n : M V Addr) (minimum n) := by
  unfold minimumF minimum
  repeat' le_step
theorem minimumF_cost (N : Nat) (n : Addr) : Cost (minimumF N n : M V Addr) (1 * N) := by
  unfold minimumF
  cost
macro_rules | `(tactic| le_fn) => `(tactic| exact minimumF_le _ _)
macro_rules | `(tactic| cost_fn) => `(tactic| exact minimumF_cost _ _)

/-- `maxLoop` with the number of iterations of its loops limited by `N` (c_tree.c:188-197) -/
def maxLoopF (N : Nat) (n : Addr) : M V Addr :=
  match N with
  | 0 => ub
  | N + 1 =>
    do
      let r ← right n
      if r ≠ 0 then maxLoopF N r else pure n
theorem maxLoopF_le (N : Nat) (n : Addr) : Le (maxLoopF N n : M V Addr) (maxLoop n) := by
  induction N generalizing n with
  | zero => exact Le.ub _
  | succ N ih =>
    rw [maxLoopF, maxLoop]
    repeat' first | le_step | apply ih | intro _
theorem maxLoopF_cost (N : Nat) (n : Addr) : Cost (maxLoopF N n : M V Addr) (1 * N) := by
  induction N generalizing n with
  | zero => exact Cost.ub
  | succ N ih =>
    rw [maxLoopF]
    apply Cost.mono
    focus (repeat' first | apply ih | cost_step)
    omega
macro_rules | `(tactic| le_fn) => `(tactic| exact maxLoopF_le _ _)
macro_rules | `(tactic| cost_fn) => `(tactic| exact maxLoopF_cost _ _)

/-- `maximum` with the number of iterations of its loops limited by `N` (c_tree.c:188-197) -/
def maximumF (N : Nat) (n : Addr) : M V Addr :=
  if n = 0 then pure 0 else maxLoopF N n
theorem maximumF_le (N : Nat) (n : Addr) : Le (maximumF N n : M V Addr) (maximum n) := by
  unfold maximumF maximum
  repeat' le_step
theorem maximumF_cost (N : Nat) (n : Addr) : Cost (maximumF N n : M V Addr) (1 * N) := by
  unfold maximumF
  cost
macro_rules | `(tactic| le_fn) => `(tactic| exact maximumF_le _ _)
macro_rules | `(tactic| cost_fn) => `(tactic| exact maximumF_cost _ _)

/-- `insertLoop` with the number of iterations of its loops limited by `N` (c_tree.c:329-373) -/
def insertLoopF (N : Nat) (a node : Addr) : M V Unit :=
  match N with
  | 0 => ub
  | N + 1 =>
    do
      let rt ← root a
      if rt = node then pure () else do
      let p ← parent node
      let b ← isRed p
      if !b then pure () else do
      let b ← isLeft p
      if b then do
        let u ← uncle node
        let ur ← isRed u
        if ur then do
          let node ← insRecolor node
          insertLoopF N a node
        else do
          let node ← insTurnL a node
          let p ← parent node
          setColor p BLACK
          let g ← grandParent node
          setColor g RED
          let g ← grandParent node
          let rt ← root a
          rotateRight g rt
          insertLoopF N a node
      else do
        let u ← uncle node
        let ur ← isRed u
        if ur then do
          let node ← insRecolor node
          insertLoopF N a node
        else do
          let node ← insTurnR a node
          let p ← parent node
          setColor p BLACK
          let g ← grandParent node
          setColor g RED
          let g ← grandParent node
          let rt ← root a
          rotateLeft g rt
          insertLoopF N a node
theorem insertLoopF_le (N : Nat) (a node : Addr) : Le (insertLoopF N a node : M V Unit) (insertLoop a node) := by
  induction N generalizing a node with
  | zero => exact Le.ub _
  | succ N ih =>
    rw [insertLoopF, insertLoop]
    repeat' first | le_step | apply ih | intro _
theorem insertLoopF_cost (N : Nat) (a node : Addr) : Cost (insertLoopF N a node : M V Unit) (59 * N) := by
  induction N generalizing a node with
  | zero => exact Cost.ub
  | succ N ih =>
    rw [insertLoopF]
    apply Cost.mono
    focus (repeat' first | apply ih | cost_step)
    omega
macro_rules | `(tactic| le_fn) => `(tactic| exact insertLoopF_le _ _ _)
macro_rules | `(tactic| cost_fn) => `(tactic| exact insertLoopF_cost _ _ _)

/-- `rebalanceInsert` with the number of iterations of its loops limited by `N` (c_tree.c:329-373) -/
def rebalanceInsertF (N : Nat) (a node : Addr) : M V Unit :=
  if a = 0 ∨ node = 0 then pure () else do
  insertLoopF N a node
  let rt ← root a
  setColor rt BLACK
theorem rebalanceInsertF_le (N : Nat) (a node : Addr) : Le (rebalanceInsertF N a node : M V Unit) (rebalanceInsert a node) := by
  unfold rebalanceInsertF rebalanceInsert
  repeat' le_step
theorem rebalanceInsertF_cost (N : Nat) (a node : Addr) : Cost (rebalanceInsertF N a node : M V Unit) (59 * N + 3) := by
  unfold rebalanceInsertF
  cost
macro_rules | `(tactic| le_fn) => `(tactic| exact rebalanceInsertF_le _ _ _)
macro_rules | `(tactic| cost_fn) => `(tactic| exact rebalanceInsertF_cost _ _ _)

/-- `eraseLoop` with the number of iterations of its loops limited by `N` (c_tree.c:375-560) -/
def eraseLoopF (N : Nat) (a rn rp : Addr) : M V Addr :=
  match N with
  | 0 => ub
  | N + 1 =>
    do
      let rt ← root a
      if rn = rt then pure rn else do
      let b ← isBlack rn
      if !b then pure rn else do
      delAssert rn rp
      let l ← left rp
      if rn = l then do
        let s ← right rp
        let s ← delTurnL a rp s
        let b ← bothBlack s
        if b then do
          setColor s RED
          let p ← parent rp
          eraseLoopF N a rp p
        else do
          delFinishL a rp s
          pure rn
      else do
        let s ← left rp
        let s ← delTurnR a rp s
        let b ← bothBlack s
        if b then do
          setColor s RED
          let p ← parent rp
          eraseLoopF N a rp p
        else do
          delFinishR a rp s
          pure rn
theorem eraseLoopF_le (N : Nat) (a rn rp : Addr) : Le (eraseLoopF N a rn rp : M V Addr) (eraseLoop a rn rp) := by
  induction N generalizing a rn rp with
  | zero => exact Le.ub _
  | succ N ih =>
    rw [eraseLoopF, eraseLoop]
    repeat' first | le_step | apply ih | intro _
theorem eraseLoopF_cost (N : Nat) (a rn rp : Addr) : Cost (eraseLoopF N a rn rp : M V Addr) (86 * N) := by
  induction N generalizing a rn rp with
  | zero => exact Cost.ub
  | succ N ih =>
    rw [eraseLoopF]
    apply Cost.mono
    focus (repeat' first | apply ih | cost_step)
    omega
macro_rules | `(tactic| le_fn) => `(tactic| exact eraseLoopF_le _ _ _ _)
macro_rules | `(tactic| cost_fn) => `(tactic| exact eraseLoopF_cost _ _ _ _)

/-- `chooseErase` with the number of iterations of its loops limited by `N` (c_tree.c:381-402) -/
def chooseEraseF (N : Nat) (node : Addr) : M V (Addr × Addr) := do
  let h ← hasLeft node
  if !h then do
    let r ← right node
    pure (node, r)
  else do
    let h ← hasRight node
    if !h then do
      let l ← left node
      cassert (l != 0)
      pure (node, l)
    else do
      let r ← right node
      let e ← minimumF N r
      let r ← right e
      pure (e, r)
theorem chooseEraseF_le (N : Nat) (node : Addr) : Le (chooseEraseF N node : M V (Addr × Addr)) (chooseErase node) := by
  unfold chooseEraseF chooseErase
  repeat' le_step
theorem chooseEraseF_cost (N : Nat) (node : Addr) : Cost (chooseEraseF N node : M V (Addr × Addr)) (1 * N + 4) := by
  unfold chooseEraseF
  cost
macro_rules | `(tactic| le_fn) => `(tactic| exact chooseEraseF_le _ _)
macro_rules | `(tactic| cost_fn) => `(tactic| exact chooseEraseF_cost _ _)

/-- `fixLeftmost` with the number of iterations of its loops limited by `N` (c_tree.c:418-421) -/
def fixLeftmostF (N : Nat) (a en rn : Addr) : M V Unit := do
  let lm ← leftmost a
  if lm = en then do
    let x ← (if rn ≠ 0 then minimumF N rn else parent en)
    setLeftmost a x
  else pure ()
theorem fixLeftmostF_le (N : Nat) (a en rn : Addr) : Le (fixLeftmostF N a en rn : M V Unit) (fixLeftmost a en rn) := by
  unfold fixLeftmostF fixLeftmost
  repeat' le_step
theorem fixLeftmostF_cost (N : Nat) (a en rn : Addr) : Cost (fixLeftmostF N a en rn : M V Unit) (1 * N + 5) := by
  unfold fixLeftmostF
  cost
macro_rules | `(tactic| le_fn) => `(tactic| exact fixLeftmostF_le _ _ _ _)
macro_rules | `(tactic| cost_fn) => `(tactic| exact fixLeftmostF_cost _ _ _ _)

/-- `fixRightmost` with the number of iterations of its loops limited by `N` (c_tree.c:423-426) -/
def fixRightmostF (N : Nat) (a en rn : Addr) : M V Unit := do
  let rm ← rightmost a
  if rm = en then do
    let x ← (if rn ≠ 0 then maximumF N rn else parent en)
    setRightmost a x
  else pure ()
theorem fixRightmostF_le (N : Nat) (a en rn : Addr) : Le (fixRightmostF N a en rn : M V Unit) (fixRightmost a en rn) := by
  unfold fixRightmostF fixRightmost
  repeat' le_step
theorem fixRightmostF_cost (N : Nat) (a en rn : Addr) : Cost (fixRightmostF N a en rn : M V Unit) (1 * N + 5) := by
  unfold fixRightmostF
  cost
macro_rules | `(tactic| le_fn) => `(tactic| exact fixRightmostF_le _ _ _ _)
macro_rules | `(tactic| cost_fn) => `(tactic| exact fixRightmostF_cost _ _ _ _)

/-- `unlinkSelf` with the number of iterations of its loops limited by `N` (c_tree.c:405-433) -/
def unlinkSelfF (N : Nat) (a en rn : Addr) : M V Addr := do
  replaceChild a en rn
  fixLeftmostF N a en rn
  fixRightmostF N a en rn
  let p ← parent en
  adopt rn p
  parent en
theorem unlinkSelfF_le (N : Nat) (a en rn : Addr) : Le (unlinkSelfF N a en rn : M V Addr) (unlinkSelf a en rn) := by
  unfold unlinkSelfF unlinkSelf
  repeat' le_step
theorem unlinkSelfF_cost (N : Nat) (a en rn : Addr) : Cost (unlinkSelfF N a en rn : M V Addr) (2 * N + 19) := by
  unfold unlinkSelfF
  cost
macro_rules | `(tactic| le_fn) => `(tactic| exact unlinkSelfF_le _ _ _ _)
macro_rules | `(tactic| cost_fn) => `(tactic| exact unlinkSelfF_cost _ _ _ _)

/-- `rebalanceErase` with the number of iterations of its loops limited by `N` (c_tree.c:375-560) -/
def rebalanceEraseF (N : Nat) (a node : Addr) : M V Addr :=
  if a = 0 ∨ node = 0 then pure 0 else do
  let (en, rn) ← chooseEraseF N node
  cassert (en != 0)
  let rp ← (if en = node then unlinkSelfF N a en rn else unlinkSucc a node en rn)
  -- in both cases `erase_node` is now `node`
  let b ← isBlack node
  if b then do
    let rn ← eraseLoopF N a rn rp
    (if rn ≠ 0 then setColor rn BLACK else pure ())
    pure node
  else pure node
theorem rebalanceEraseF_le (N : Nat) (a node : Addr) : Le (rebalanceEraseF N a node : M V Addr) (rebalanceErase a node) := by
  unfold rebalanceEraseF rebalanceErase
  repeat' le_step
theorem rebalanceEraseF_cost (N : Nat) (a node : Addr) : Cost (rebalanceEraseF N a node : M V Addr) (89 * N + 32) := by
  unfold rebalanceEraseF
  cost
macro_rules | `(tactic| le_fn) => `(tactic| exact rebalanceEraseF_le _ _ _)
macro_rules | `(tactic| cost_fn) => `(tactic| exact rebalanceEraseF_cost _ _ _)

variable (E : Env V)

/-- `insert` with the number of iterations of its loops limited by `N` (c_tree.c:562-601) -/
def insertF (N : Nat) (a hint p : Addr) (value : Loc) : M V Addr := do
  cassert (a != 0)
  cassert (p != 0)
  cassert (value.1 != 0)
  let node ← createNode a value
  if node = 0 then pure 0 else do
  link E a hint p node value
  setParent node p
  rebalanceInsertF N a node
  let n ← count_ a
  stN (a, 7) (n + 1)
  pure node
theorem insertF_le (N : Nat) (a hint p : Addr) (value : Loc) : Le (insertF E N a hint p value : M V Addr) (insert E a hint p value) := by
  unfold insertF insert
  repeat' le_step
theorem insertF_cost (N : Nat) (a hint p : Addr) (value : Loc) : Cost (insertF E N a hint p value : M V Addr) (59 * N + 30) := by
  unfold insertF
  cost
macro_rules | `(tactic| le_fn) => `(tactic| exact insertF_le _ _ _ _ _ _)
macro_rules | `(tactic| cost_fn) => `(tactic| exact insertF_cost _ _ _ _ _ _)

/-- `climbRight` with the number of iterations of its loops limited by `N` (c_tree.c:651-671) -/
def climbRightF (N : Nat) (node p : Addr) : M V (Addr × Addr) :=
  match N with
  | 0 => ub
  | N + 1 =>
    do
      let r ← right p
      if r = node then do
        let g ← parent p
        climbRightF N p g
      else pure (node, p)
theorem climbRightF_le (N : Nat) (node p : Addr) : Le (climbRightF N node p : M V (Addr × Addr)) (climbRight node p) := by
  induction N generalizing node p with
  | zero => exact Le.ub _
  | succ N ih =>
    rw [climbRightF, climbRight]
    repeat' first | le_step | apply ih | intro _
theorem climbRightF_cost (N : Nat) (node p : Addr) : Cost (climbRightF N node p : M V (Addr × Addr)) (2 * N) := by
  induction N generalizing node p with
  | zero => exact Cost.ub
  | succ N ih =>
    rw [climbRightF]
    apply Cost.mono
    focus (repeat' first | apply ih | cost_step)
    omega
macro_rules | `(tactic| le_fn) => `(tactic| exact climbRightF_le _ _ _)
macro_rules | `(tactic| cost_fn) => `(tactic| exact climbRightF_cost _ _ _)

/-- `iterIncrement` with the number of iterations of its loops limited by `N` (c_tree.c:651-671) -/
def iterIncrementF (N : Nat) (node : Addr) : M V Addr := do
  let r ← right node
  if r ≠ 0 then do
    let r ← right node
    minimumF N r
  else do
    let p ← parent node
    let (node, p) ← climbRightF N node p
    let r ← right node
    if p ≠ r then pure p else pure node
theorem iterIncrementF_le (N : Nat) (node : Addr) : Le (iterIncrementF N node : M V Addr) (iterIncrement node) := by
  unfold iterIncrementF iterIncrement
  repeat' le_step
theorem iterIncrementF_cost (N : Nat) (node : Addr) : Cost (iterIncrementF N node : M V Addr) (2 * N + 3) := by
  unfold iterIncrementF
  cost
macro_rules | `(tactic| le_fn) => `(tactic| exact iterIncrementF_le _ _)
macro_rules | `(tactic| cost_fn) => `(tactic| exact iterIncrementF_cost _ _)

/-- `climbLeft` with the number of iterations of its loops limited by `N` (c_tree.c:673-694) -/
def climbLeftF (N : Nat) (node p : Addr) : M V Addr :=
  match N with
  | 0 => ub
  | N + 1 =>
    do
      let l ← left p
      if l = node then do
        let g ← parent p
        climbLeftF N p g
      else pure p
theorem climbLeftF_le (N : Nat) (node p : Addr) : Le (climbLeftF N node p : M V Addr) (climbLeft node p) := by
  induction N generalizing node p with
  | zero => exact Le.ub _
  | succ N ih =>
    rw [climbLeftF, climbLeft]
    repeat' first | le_step | apply ih | intro _
theorem climbLeftF_cost (N : Nat) (node p : Addr) : Cost (climbLeftF N node p : M V Addr) (2 * N) := by
  induction N generalizing node p with
  | zero => exact Cost.ub
  | succ N ih =>
    rw [climbLeftF]
    apply Cost.mono
    focus (repeat' first | apply ih | cost_step)
    omega
macro_rules | `(tactic| le_fn) => `(tactic| exact climbLeftF_le _ _ _)
macro_rules | `(tactic| cost_fn) => `(tactic| exact climbLeftF_cost _ _ _)

/-- `iterDecrement` with the number of iterations of its loops limited by `N` (c_tree.c:673-694) -/
def iterDecrementF (N : Nat) (node : Addr) : M V Addr := do
  let b ← isHeader node
  if b then right node else do
  let l ← left node
  if l ≠ 0 then do
    let l ← left node
    maximumF N l
  else do
    let p ← parent node
    climbLeftF N node p
theorem iterDecrementF_le (N : Nat) (node : Addr) : Le (iterDecrementF N node : M V Addr) (iterDecrement node) := by
  unfold iterDecrementF iterDecrement
  repeat' le_step
theorem iterDecrementF_cost (N : Nat) (node : Addr) : Cost (iterDecrementF N node : M V Addr) (2 * N + 5) := by
  unfold iterDecrementF
  cost
macro_rules | `(tactic| le_fn) => `(tactic| exact iterDecrementF_le _ _)
macro_rules | `(tactic| cost_fn) => `(tactic| exact iterDecrementF_cost _ _)

/-- `descend` with the number of iterations of its loops limited by `N` (c_tree.c:1052-1059) -/
def descendF (N : Nat) (a x y : Addr) (comp : Bool) (value : Loc) : M V (Addr × Bool) :=
  match N with
  | 0 => ub
  | N + 1 =>
      if x ≠ 0 then do
        let comp ← valLtNode E a value x
        let c ← (if comp then left x else right x)
        descendF N a c x comp value
      else pure (y, comp)
theorem descendF_le (N : Nat) (a x y : Addr) (comp : Bool) (value : Loc) : Le (descendF E N a x y comp value : M V (Addr × Bool)) (descend E a x y comp value) := by
  induction N generalizing a x y comp value with
  | zero => exact Le.ub _
  | succ N ih =>
    rw [descendF, descend]
    repeat' first | le_step | apply ih | intro _
theorem descendF_cost (N : Nat) (a x y : Addr) (comp : Bool) (value : Loc) : Cost (descendF E N a x y comp value : M V (Addr × Bool)) (7 * N) := by
  induction N generalizing a x y comp value with
  | zero => exact Cost.ub
  | succ N ih =>
    rw [descendF]
    apply Cost.mono
    focus (repeat' first | apply ih | cost_step)
    omega
macro_rules | `(tactic| le_fn) => `(tactic| exact descendF_le _ _ _ _ _ _ _)
macro_rules | `(tactic| cost_fn) => `(tactic| exact descendF_cost _ _ _ _ _ _ _)

/-- `insertIter` with the number of iterations of its loops limited by `N` -/
def insertIterF (N : Nat) (a hint p : Addr) (value : Loc) : M V Addr := do
  let n ← insertF E N a hint p value
  mkIter a n
theorem insertIterF_le (N : Nat) (a hint p : Addr) (value : Loc) : Le (insertIterF E N a hint p value : M V Addr) (insertIter E a hint p value) := by
  unfold insertIterF insertIter
  repeat' le_step
theorem insertIterF_cost (N : Nat) (a hint p : Addr) (value : Loc) : Cost (insertIterF E N a hint p value : M V Addr) (59 * N + 31) := by
  unfold insertIterF
  cost
macro_rules | `(tactic| le_fn) => `(tactic| exact insertIterF_le _ _ _ _ _ _)
macro_rules | `(tactic| cost_fn) => `(tactic| exact insertIterF_cost _ _ _ _ _ _)

/-- `insertUniqueValue` with the number of iterations of its loops limited by `N` (c_tree.c:1052-1083) -/
def insertUniqueValueF (N : Nat) (a : Addr) (value : Loc) : M V Addr := do
  cassert (a != 0)
  cassert (value.1 != 0)
  let y ← header a
  let x ← root a
  let (y, comp) ← descendF E N a x y true value
  let z ← mkIter a y
  let lm ← leftmost a
  if comp ∧ z = lm then insertIterF E N a 0 y value else do
  let z ← (if comp then iterDecrementF N z else pure z)
  let b ← nodeLtVal E a z value
  if b then insertIterF E N a 0 y value else pure z
theorem insertUniqueValueF_le (N : Nat) (a : Addr) (value : Loc) : Le (insertUniqueValueF E N a value : M V Addr) (insertUniqueValue E a value) := by
  unfold insertUniqueValueF insertUniqueValue
  repeat' le_step
theorem insertUniqueValueF_cost (N : Nat) (a : Addr) (value : Loc) : Cost (insertUniqueValueF E N a value : M V Addr) (68 * N + 48) := by
  unfold insertUniqueValueF
  cost
macro_rules | `(tactic| le_fn) => `(tactic| exact insertUniqueValueF_le _ _ _ _)
macro_rules | `(tactic| cost_fn) => `(tactic| exact insertUniqueValueF_cost _ _ _ _)

/-- `insertUnique` with the number of iterations of its loops limited by `N` (c_tree.c:1085-1122) -/
def insertUniqueF (N : Nat) (a hint : Addr) (value : Loc) : M V Addr := do
  cassert (a != 0)
  cassert (value.1 != 0)
  let lm ← leftmost a
  if hint = lm then do
    let n ← count_ a
    let b ← (if 0 < n then valLtNode E a value hint else pure false)
    if b then insertIterF E N a hint hint value else insertUniqueValueF E N a value
  else do
  let h ← header a
  if hint = h then do
    let rm ← rightmost a
    let b ← nodeLtVal E a rm value
    if b then do
      let rm ← rightmost a
      insertIterF E N a 0 rm value
    else insertUniqueValueF E N a value
  else do
    let before ← iterDecrementF N hint
    let b ← nodeLtVal E a before value
    let b ← (if b then valLtNode E a value hint else pure false)
    if b then do
      let hr ← hasRight before
      if !hr then insertIterF E N a 0 before value else insertIterF E N a hint hint value
    else insertUniqueValueF E N a value
theorem insertUniqueF_le (N : Nat) (a hint : Addr) (value : Loc) : Le (insertUniqueF E N a hint value : M V Addr) (insertUnique E a hint value) := by
  unfold insertUniqueF insertUnique
  repeat' le_step
theorem insertUniqueF_cost (N : Nat) (a hint : Addr) (value : Loc) : Cost (insertUniqueF E N a hint value : M V Addr) (70 * N + 68) := by
  unfold insertUniqueF
  cost
macro_rules | `(tactic| le_fn) => `(tactic| exact insertUniqueF_le _ _ _ _ _)
macro_rules | `(tactic| cost_fn) => `(tactic| exact insertUniqueF_cost _ _ _ _ _)

/-- `descendEq` with the number of iterations of its loops limited by `N` (c_tree.c:1162-1165) -/
def descendEqF (N : Nat) (a x y : Addr) (value : Loc) : M V Addr :=
  match N with
  | 0 => ub
  | N + 1 =>
      if x ≠ 0 then do
        let comp ← valLtNode E a value x
        let c ← (if comp then left x else right x)
        descendEqF N a c x value
      else pure y
theorem descendEqF_le (N : Nat) (a x y : Addr) (value : Loc) : Le (descendEqF E N a x y value : M V Addr) (descendEq E a x y value) := by
  induction N generalizing a x y value with
  | zero => exact Le.ub _
  | succ N ih =>
    rw [descendEqF, descendEq]
    repeat' first | le_step | apply ih | intro _
theorem descendEqF_cost (N : Nat) (a x y : Addr) (value : Loc) : Cost (descendEqF E N a x y value : M V Addr) (7 * N) := by
  induction N generalizing a x y value with
  | zero => exact Cost.ub
  | succ N ih =>
    rw [descendEqF]
    apply Cost.mono
    focus (repeat' first | apply ih | cost_step)
    omega
macro_rules | `(tactic| le_fn) => `(tactic| exact descendEqF_le _ _ _ _ _ _)
macro_rules | `(tactic| cost_fn) => `(tactic| exact descendEqF_cost _ _ _ _ _ _)

/-- `insertEqualValue` with the number of iterations of its loops limited by `N` (c_tree.c:1153-1169) -/
def insertEqualValueF (N : Nat) (a : Addr) (value : Loc) : M V Addr := do
  cassert (a != 0)
  cassert (value.1 != 0)
  let y ← header a
  let x ← root a
  let y ← descendEqF E N a x y value
  insertIterF E N a 0 y value
theorem insertEqualValueF_le (N : Nat) (a : Addr) (value : Loc) : Le (insertEqualValueF E N a value : M V Addr) (insertEqualValue E a value) := by
  unfold insertEqualValueF insertEqualValue
  repeat' le_step
theorem insertEqualValueF_cost (N : Nat) (a : Addr) (value : Loc) : Cost (insertEqualValueF E N a value : M V Addr) (66 * N + 34) := by
  unfold insertEqualValueF
  cost
macro_rules | `(tactic| le_fn) => `(tactic| exact insertEqualValueF_le _ _ _ _)
macro_rules | `(tactic| cost_fn) => `(tactic| exact insertEqualValueF_cost _ _ _ _)

/-- `insertEqual` with the number of iterations of its loops limited by `N` (c_tree.c:1171-1208) -/
def insertEqualF (N : Nat) (a hint : Addr) (value : Loc) : M V Addr := do
  cassert (a != 0)
  cassert (value.1 != 0)
  let lm ← leftmost a
  if hint = lm then do
    let n ← count_ a
    let b ← (if 0 < n then nodeLtVal E a hint value else pure true)
    if !b then insertIterF E N a hint hint value else insertEqualValueF E N a value
  else do
  let h ← header a
  if hint = h then do
    let rm ← rightmost a
    let b ← valLtNode E a value rm
    if !b then do
      let rm ← rightmost a
      insertIterF E N a 0 rm value
    else insertEqualValueF E N a value
  else do
    let before ← iterDecrementF N hint
    let b ← valLtNode E a value before
    let b ← (if !b then nodeLtVal E a hint value else pure true)
    if !b then do
      let hr ← hasRight before
      if !hr then insertIterF E N a 0 before value else insertIterF E N a hint hint value
    else insertEqualValueF E N a value
theorem insertEqualF_le (N : Nat) (a hint : Addr) (value : Loc) : Le (insertEqualF E N a hint value : M V Addr) (insertEqual E a hint value) := by
  unfold insertEqualF insertEqual
  repeat' le_step
theorem insertEqualF_cost (N : Nat) (a hint : Addr) (value : Loc) : Cost (insertEqualF E N a hint value : M V Addr) (68 * N + 54) := by
  unfold insertEqualF
  cost
macro_rules | `(tactic| le_fn) => `(tactic| exact insertEqualF_le _ _ _ _ _)
macro_rules | `(tactic| cost_fn) => `(tactic| exact insertEqualF_cost _ _ _ _ _)

/-- `erase` with the number of iterations of its loops limited by `N` (c_tree.c:1239-1252) -/
def eraseF (N : Nat) (a pos : Addr) : M V Addr := do
  cassert (a != 0)
  let next ← iterIncrementF N pos
  let en ← rebalanceEraseF N a pos
  destroyNode a en
  let n ← count_ a
  stN (a, 7) (n - 1)
  pure next
theorem eraseF_le (N : Nat) (a pos : Addr) : Le (eraseF N a pos : M V Addr) (erase a pos) := by
  unfold eraseF erase
  repeat' le_step
theorem eraseF_cost (N : Nat) (a pos : Addr) : Cost (eraseF N a pos : M V Addr) (91 * N + 46) := by
  unfold eraseF
  cost
macro_rules | `(tactic| le_fn) => `(tactic| exact eraseF_le _ _ _)
macro_rules | `(tactic| cost_fn) => `(tactic| exact eraseF_cost _ _ _)

/-- `lowerLoop` with the number of iterations of its loops limited by `N` (c_tree.c:1329-1351) -/
def lowerLoopF (N : Nat) (a x y : Addr) (key : Loc) : M V Addr :=
  match N with
  | 0 => ub
  | N + 1 =>
      if x ≠ 0 then do
        let b ← nodeLtRef E a x key
        if !b then do
          let l ← left x
          lowerLoopF N a l x key
        else do
          let r ← right x
          lowerLoopF N a r y key
      else pure y
theorem lowerLoopF_le (N : Nat) (a x y : Addr) (key : Loc) : Le (lowerLoopF E N a x y key : M V Addr) (lowerLoop E a x y key) := by
  induction N generalizing a x y key with
  | zero => exact Le.ub _
  | succ N ih =>
    rw [lowerLoopF, lowerLoop]
    repeat' first | le_step | apply ih | intro _
theorem lowerLoopF_cost (N : Nat) (a x y : Addr) (key : Loc) : Cost (lowerLoopF E N a x y key : M V Addr) (6 * N) := by
  induction N generalizing a x y key with
  | zero => exact Cost.ub
  | succ N ih =>
    rw [lowerLoopF]
    apply Cost.mono
    focus (repeat' first | apply ih | cost_step)
    omega
macro_rules | `(tactic| le_fn) => `(tactic| exact lowerLoopF_le _ _ _ _ _ _)
macro_rules | `(tactic| cost_fn) => `(tactic| exact lowerLoopF_cost _ _ _ _ _ _)

/-- `lowerBound` with the number of iterations of its loops limited by `N` (c_tree.c:1329-1351) -/
def lowerBoundF (N : Nat) (a : Addr) (key : Loc) : M V Addr := do
  cassert (a != 0)
  cassert (key.1 != 0)
  let y ← header a
  let x ← root a
  let y ← lowerLoopF E N a x y key
  mkIter a y
theorem lowerBoundF_le (N : Nat) (a : Addr) (key : Loc) : Le (lowerBoundF E N a key : M V Addr) (lowerBound E a key) := by
  unfold lowerBoundF lowerBound
  repeat' le_step
theorem lowerBoundF_cost (N : Nat) (a : Addr) (key : Loc) : Cost (lowerBoundF E N a key : M V Addr) (6 * N + 4) := by
  unfold lowerBoundF
  cost
macro_rules | `(tactic| le_fn) => `(tactic| exact lowerBoundF_le _ _ _ _)
macro_rules | `(tactic| cost_fn) => `(tactic| exact lowerBoundF_cost _ _ _ _)

/-- `upperLoop` with the number of iterations of its loops limited by `N` (c_tree.c:1353-1375) -/
def upperLoopF (N : Nat) (a x y : Addr) (key : Loc) : M V Addr :=
  match N with
  | 0 => ub
  | N + 1 =>
      if x ≠ 0 then do
        let b ← refLtNode E a key x
        if b then do
          let l ← left x
          upperLoopF N a l x key
        else do
          let r ← right x
          upperLoopF N a r y key
      else pure y
theorem upperLoopF_le (N : Nat) (a x y : Addr) (key : Loc) : Le (upperLoopF E N a x y key : M V Addr) (upperLoop E a x y key) := by
  induction N generalizing a x y key with
  | zero => exact Le.ub _
  | succ N ih =>
    rw [upperLoopF, upperLoop]
    repeat' first | le_step | apply ih | intro _
theorem upperLoopF_cost (N : Nat) (a x y : Addr) (key : Loc) : Cost (upperLoopF E N a x y key : M V Addr) (6 * N) := by
  induction N generalizing a x y key with
  | zero => exact Cost.ub
  | succ N ih =>
    rw [upperLoopF]
    apply Cost.mono
    focus (repeat' first | apply ih | cost_step)
    omega
macro_rules | `(tactic| le_fn) => `(tactic| exact upperLoopF_le _ _ _ _ _ _)
macro_rules | `(tactic| cost_fn) => `(tactic| exact upperLoopF_cost _ _ _ _ _ _)

/-- `upperBound` with the number of iterations of its loops limited by `N` (c_tree.c:1353-1375) -/
def upperBoundF (N : Nat) (a : Addr) (key : Loc) : M V Addr := do
  cassert (a != 0)
  cassert (key.1 != 0)
  let y ← header a
  let x ← root a
  let y ← upperLoopF E N a x y key
  mkIter a y
theorem upperBoundF_le (N : Nat) (a : Addr) (key : Loc) : Le (upperBoundF E N a key : M V Addr) (upperBound E a key) := by
  unfold upperBoundF upperBound
  repeat' le_step
theorem upperBoundF_cost (N : Nat) (a : Addr) (key : Loc) : Cost (upperBoundF E N a key : M V Addr) (6 * N + 4) := by
  unfold upperBoundF
  cost
macro_rules | `(tactic| le_fn) => `(tactic| exact upperBoundF_le _ _ _ _)
macro_rules | `(tactic| cost_fn) => `(tactic| exact upperBoundF_cost _ _ _ _)

/-- `findLoop` with the number of iterations of its loops limited by `N` (c_tree.c:1299-1320) -/
def findLoopF (N : Nat) (a node : Addr) (key : Loc) : M V Addr :=
  match N with
  | 0 => ub
  | N + 1 =>
      if node ≠ 0 then do
        let b ← refLtNode E a key node
        if b then do
          let l ← left node
          findLoopF N a l key
        else do
          let b ← nodeLtRef E a node key
          if !b then pure node
          else do
            let r ← right node
            findLoopF N a r key
      else pure 0
theorem findLoopF_le (N : Nat) (a node : Addr) (key : Loc) : Le (findLoopF E N a node key : M V Addr) (findLoop E a node key) := by
  induction N generalizing a node key with
  | zero => exact Le.ub _
  | succ N ih =>
    rw [findLoopF, findLoop]
    repeat' first | le_step | apply ih | intro _
theorem findLoopF_cost (N : Nat) (a node : Addr) (key : Loc) : Cost (findLoopF E N a node key : M V Addr) (11 * N) := by
  induction N generalizing a node key with
  | zero => exact Cost.ub
  | succ N ih =>
    rw [findLoopF]
    apply Cost.mono
    focus (repeat' first | apply ih | cost_step)
    omega
macro_rules | `(tactic| le_fn) => `(tactic| exact findLoopF_le _ _ _ _ _)
macro_rules | `(tactic| cost_fn) => `(tactic| exact findLoopF_cost _ _ _ _ _)

/-- `find` with the number of iterations of its loops limited by `N` (c_tree.c:1299-1320) -/
def findF (N : Nat) (a : Addr) (key : Loc) : M V Addr := do
  let e ← empty a
  if e ∨ key.1 = 0 then end_ a else do
  let r ← root a
  let n ← findLoopF E N a r key
  if n ≠ 0 then mkIter a n else end_ a
theorem findF_le (N : Nat) (a : Addr) (key : Loc) : Le (findF E N a key : M V Addr) (find E a key) := by
  unfold findF find
  repeat' le_step
theorem findF_cost (N : Nat) (a : Addr) (key : Loc) : Cost (findF E N a key : M V Addr) (11 * N + 5) := by
  unfold findF
  cost
macro_rules | `(tactic| le_fn) => `(tactic| exact findF_le _ _ _ _)
macro_rules | `(tactic| cost_fn) => `(tactic| exact findF_cost _ _ _ _)

/-- `equalRange` with the number of iterations of its loops limited by `N` (c_tree.c:1377-1401) -/
def equalRangeF (N : Nat) (a : Addr) (key lower upper : Loc) : M V Unit :=
  if a = 0 ∨ key.1 = 0 ∨ lower.1 = 0 ∨ upper.1 = 0 then pure () else do
  let l ← ldN lower
  (if l = 0 then do
    let p ← mallocS 2
    stN lower p
  else pure ())
  let u ← ldN upper
  (if u = 0 then do
    let p ← mallocS 2
    stN upper p
  else pure ())
  let l ← ldN lower
  let u ← ldN upper
  if l = 0 ∨ u = 0 then do
    free l
    stN lower 0
    free u
    stN upper 0
  else do
  let lo ← lowerBoundF E N a key
  let hi ← upperBoundF E N a key
  let l ← ldN lower
  stN (l, 2) lo
  let u ← ldN upper
  stN (u, 2) hi
theorem equalRangeF_le (N : Nat) (a : Addr) (key lower upper : Loc) : Le (equalRangeF E N a key lower upper : M V Unit) (equalRange E a key lower upper) := by
  unfold equalRangeF equalRange
  repeat' le_step
theorem equalRangeF_cost (N : Nat) (a : Addr) (key lower upper : Loc) : Cost (equalRangeF E N a key lower upper : M V Unit) (12 * N + 20) := by
  unfold equalRangeF
  cost
macro_rules | `(tactic| le_fn) => `(tactic| exact equalRangeF_le _ _ _ _ _ _)
macro_rules | `(tactic| cost_fn) => `(tactic| exact equalRangeF_cost _ _ _ _ _ _)

end CC.Tree
