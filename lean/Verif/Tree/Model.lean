import Verif.Core.Ty
/-!
# Model of container/c_tree.c

Memory layout (slot `0` of each block is the allocator's):
* `c_tree_node_t` (c_tree.c:34-40): slots `1 = color` (red `0`, black `1`), `2 = parent`, `3 = left`, `4 = right`, `5 = value`;
* `c_tree_t` (c_tree.c:42-50): slots `1 = key_type`, `2 = value_type`, `3 = mapped_type`, `4 = key_of_value`, `5 = key_comp`, `6 = header`, `7 = node_count`;
* the element storage `node->value` points to is a block with one object slot `1`.

A `c_ref_t` is a location (`Loc`); NULL is any location in block `0`.  A `c_tree_iterator_t` is the node it designates (the constant fields of the iterator struct are not
modelled; iterators of the right category are assumed, i.e. the `is_tree_iterator` checks succeed).  Copying and destroying an element are `construct` / `destroyV`;
key extraction and comparison are pure functions of element values (`Env`), elements and keys are values of one type `V`.
-/
namespace CC.Tree
variable {V : Type}

/-- The functions stored in trees, by id: `key_of_value` and `key_comp` (c_tree.c:46-47), as pure functions of values. -/
structure Env (V : Type) where
  kov : Nat → V → V
  cmp : Nat → V → V → Bool

abbrev colorOf (n : Addr) : M V Nat := ldN (n, 1)
abbrev setColor (n : Addr) (c : Nat) : M V Unit := stN (n, 1) c
/-- `__parent`, c_tree.c:110-113 -/
abbrev parent (n : Addr) : M V Addr := ldN (n, 2)
/-- `__left`, c_tree.c:100-103 -/
abbrev left (n : Addr) : M V Addr := ldN (n, 3)
/-- `__right`, c_tree.c:105-108 -/
abbrev right (n : Addr) : M V Addr := ldN (n, 4)
abbrev valp (n : Addr) : M V Addr := ldN (n, 5)
abbrev setParent (n x : Addr) : M V Unit := stN (n, 2) x
abbrev setLeft (n x : Addr) : M V Unit := stN (n, 3) x
abbrev setRight (n x : Addr) : M V Unit := stN (n, 4) x
/-- `s_rb_tree_color_red`, `s_rb_tree_color_black`, c_tree.c:52-53 -/
abbrev RED : Nat := 0
abbrev BLACK : Nat := 1

/-- `tree->header`, c_tree.c:143-146 -/
abbrev header (a : Addr) : M V Addr := ldN (a, 6)
/-- `tree->value_type` -/
abbrev vtype (a : Addr) : M V Nat := ldN (a, 2)
/-- `tree->key_of_value` -/
abbrev tkov (a : Addr) : M V Nat := ldN (a, 4)
/-- `tree->key_comp` -/
abbrev tcmp (a : Addr) : M V Nat := ldN (a, 5)
/-- `tree->node_count` -/
abbrev count_ (a : Addr) : M V Nat := ldN (a, 7)
/-- `__root`, c_tree.c:147-150 -/
def root (a : Addr) : M V Addr := do parent (← header a)
/-- `__leftmost`, c_tree.c:152-155 -/
def leftmost (a : Addr) : M V Addr := do left (← header a)
/-- `__rightmost`, c_tree.c:157-160 -/
def rightmost (a : Addr) : M V Addr := do right (← header a)
/-- `__set_root`, c_tree.c:162-165 -/
def setRoot (a x : Addr) : M V Unit := do setParent (← header a) x
/-- `__set_leftmost`, c_tree.c:167-170 -/
def setLeftmost (a x : Addr) : M V Unit := do setLeft (← header a) x
/-- `__set_rightmost`, c_tree.c:172-175 -/
def setRightmost (a x : Addr) : M V Unit := do setRight (← header a) x

/-- `__is_header`, c_tree.c:58-62 -/
def isHeader (n : Addr) : M V Bool :=
  if n = 0 then pure false else do
  let p ← parent n
  let g ← parent p
  if g = n then do
    let c ← colorOf n
    pure (c == RED)
  else pure false
/-- `__is_left`, c_tree.c:70-73 -/
def isLeft (n : Addr) : M V Bool :=
  if n = 0 then pure false else do
  let p ← parent n
  let l ← left p
  pure (l == n)
/-- `__is_right`, c_tree.c:75-78 -/
def isRight (n : Addr) : M V Bool :=
  if n = 0 then pure false else do
  let p ← parent n
  let r ← right p
  pure (r == n)
/-- `__is_black`, c_tree.c:80-83 -/
def isBlack (n : Addr) : M V Bool :=
  if n = 0 then pure true else do
  let c ← colorOf n
  pure (c == BLACK)
/-- `__is_red`, c_tree.c:85-88 -/
def isRed (n : Addr) : M V Bool :=
  if n = 0 then pure false else do
  let c ← colorOf n
  pure (c == RED)
/-- `__has_left`, c_tree.c:90-93 -/
def hasLeft (n : Addr) : M V Bool :=
  if n = 0 then pure false else do
  let l ← left n
  pure (l != 0)
/-- `__has_right`, c_tree.c:95-98 -/
def hasRight (n : Addr) : M V Bool :=
  if n = 0 then pure false else do
  let r ← right n
  pure (r != 0)
/-- `__grand_parent`, c_tree.c:115-118 -/
def grandParent (n : Addr) : M V Addr := do
  let p ← parent n
  parent p
/-- `__uncle`, c_tree.c:120-124 -/
def uncle (n : Addr) : M V Addr := do
  let p ← parent n
  let b ← isLeft p
  if b then do
    let g ← grandParent n
    right g
  else do
    let g ← grandParent n
    left g

/-- `__minimum`, c_tree.c:177-186: the loop -/
def minLoop (n : Addr) : M V Addr := do
  let l ← left n
  if l ≠ 0 then minLoop l else pure n
partial_fixpoint
/-- `__minimum`, c_tree.c:177-186 -/
def minimum (n : Addr) : M V Addr := if n = 0 then pure 0 else minLoop n
/-- `__maximum`, c_tree.c:188-197: the loop -/
def maxLoop (n : Addr) : M V Addr := do
  let r ← right n
  if r ≠ 0 then maxLoop r else pure n
partial_fixpoint
/-- `__maximum`, c_tree.c:188-197 -/
def maximum (n : Addr) : M V Addr := if n = 0 then pure 0 else maxLoop n

/-- the relinking of `x`'s parent in `__rotate_right` / `__rotate_left`, c_tree.c:212-220, 239-247 -/
def relink (x y rt : Addr) : M V Unit :=
  if x = rt then do
    let p ← parent x
    setParent p y
  else do
    let b ← isLeft x
    if b then do
      let p ← parent x
      setLeft p y
    else do
      let b ← isRight x
      if b then do
        let p ← parent x
        setRight p y
      else pure ()

/-- `__rotate_right`, c_tree.c:199-224 -/
def rotateRight (node rt : Addr) : M V Unit :=
  if node = 0 then pure () else do
  let y ← left node
  if y = 0 then pure () else do
  let yr ← right y
  setLeft node yr
  let yr ← right y
  (if yr ≠ 0 then do
    let yr ← right y
    setParent yr node
  else pure ())
  relink node y rt
  let p ← parent node
  setParent y p
  setRight y node
  setParent node y

/-- `__rotate_left`, c_tree.c:226-251 -/
def rotateLeft (node rt : Addr) : M V Unit :=
  if node = 0 then pure () else do
  let y ← right node
  if y = 0 then pure () else do
  let yl ← left y
  setRight node yl
  let yl ← left y
  (if yl ≠ 0 then do
    let yl ← left y
    setParent yl node
  else pure ())
  relink node y rt
  let p ← parent node
  setParent y p
  setLeft y node
  setParent node y

/-- `__create_node`, c_tree.c:253-287.  Simplification: only called with a value (`__insert` asserts it, c_tree.c:564), so the default construction of
c_tree.c:281-287 is not modelled. -/
def createNode (a : Addr) (value : Loc) : M V Addr := do
  cassert (a != 0)
  let vt ← vtype a
  cassert (vt != 0)
  let node ← mallocS 5
  if node = 0 then pure 0 else do
  let b ← mallocO 1
  stN (node, 5) b
  let b ← valp node
  if b = 0 then do
    free node
    pure 0
  else do
  setParent node 0
  setLeft node 0
  setRight node 0
  setColor node RED
  let v ← ldV value
  construct (b, 1) v
  pure node

/-- `__destroy_node`, c_tree.c:289-297 -/
def destroyNode (a node : Addr) : M V Unit := do
  cassert (a != 0)
  cassert (node != 0)
  let b ← valp node
  destroyV (b, 1)
  let b ← valp node
  freeV b
  free node

/-- `__erase`, c_tree.c:299-307: erase a node and everything below it -/
def eraseSub (a node : Addr) : M V Unit :=
  if node ≠ 0 then do
    let r ← right node
    eraseSub a r
    let l ← left node
    destroyNode a node
    eraseSub a l
  else pure ()
partial_fixpoint

variable (E : Env V)

/-- `key_comp(key, key_of_value(node->value))` with the functions stored in the tree; `k` is the value of the key -/
def keyLtNode (a : Addr) (k : V) (n : Addr) : M V Bool := do
  let c ← tcmp a
  let f ← tkov a
  let b ← valp n
  let v ← ldV (b, 1)
  pure (E.cmp c k (E.kov f v))
/-- `key_comp(key_of_value(node->value), key)` -/
def nodeLtKey (a : Addr) (n : Addr) (k : V) : M V Bool := do
  let c ← tcmp a
  let f ← tkov a
  let b ← valp n
  let v ← ldV (b, 1)
  pure (E.cmp c (E.kov f v) k)
/-- `key_of_value(value)` followed by reading the key -/
def keyOf (a : Addr) (value : Loc) : M V V := do
  let f ← tkov a
  let v ← ldV value
  pure (E.kov f v)
/-- `key_comp(key_of_value(value), key_of_value(node->value))` -/
def valLtNode (a : Addr) (value : Loc) (n : Addr) : M V Bool := do
  let k ← keyOf E a value
  keyLtNode E a k n
/-- `key_comp(key_of_value(node->value), key_of_value(value))` -/
def nodeLtVal (a : Addr) (n : Addr) (value : Loc) : M V Bool := do
  let k ← keyOf E a value
  nodeLtKey E a n k
/-- `key_comp(key, key_of_value(node->value))` where `key` is a reference -/
def refLtNode (a : Addr) (key : Loc) (n : Addr) : M V Bool := do
  let k ← ldV key
  keyLtNode E a k n
/-- `key_comp(key_of_value(node->value), key)` where `key` is a reference -/
def nodeLtRef (a : Addr) (n : Addr) (key : Loc) : M V Bool := do
  let k ← ldV key
  nodeLtKey E a n k

/-- `__count`, c_tree.c:309-327 -/
def countSub (a node : Addr) (key : Loc) : M V Nat :=
  if node ≠ 0 then do
    let b ← refLtNode E a key node
    if b then do
      let l ← left node
      countSub a l key
    else do
      let b ← nodeLtRef E a node key
      if !b then do
        let l ← left node
        let n₁ ← countSub a l key
        let r ← right node
        let n₂ ← countSub a r key
        pure (0 + n₁ + n₂ + 1)
      else do
        let r ← right node
        countSub a r key
  else pure 0
partial_fixpoint

/-- the rotation in the middle of `__rebalance_insert`, c_tree.c:345-348 -/
def insTurnL (a node : Addr) : M V Addr := do
  let b ← isRight node
  if b then do
    let node ← parent node
    let rt ← root a
    rotateLeft node rt
    pure node
  else pure node
/-- the rotation in the middle of `__rebalance_insert`, c_tree.c:363-366 -/
def insTurnR (a node : Addr) : M V Addr := do
  let b ← isLeft node
  if b then do
    let node ← parent node
    let rt ← root a
    rotateRight node rt
    pure node
  else pure node

/-- the case of a red uncle in `__rebalance_insert`, c_tree.c:338-342, 356-360 -/
def insRecolor (node : Addr) : M V Addr := do
  let p ← parent node
  setColor p BLACK
  let u ← uncle node
  setColor u BLACK
  let g ← grandParent node
  setColor g RED
  grandParent node

/-- `__rebalance_insert`, c_tree.c:329-373: the loop -/
def insertLoop (a node : Addr) : M V Unit := do
  let rt ← root a
  if rt = node then pure () else do
  let p ← parent node
  let b ← isRed p
  if !b then pure () else do
  let b ← isLeft p
  if b then do
    let u ← uncle node
    let ur ← isRed u
    if ur then do
      let node ← insRecolor node
      insertLoop a node
    else do
      let node ← insTurnL a node
      let p ← parent node
      setColor p BLACK
      let g ← grandParent node
      setColor g RED
      let g ← grandParent node
      let rt ← root a
      rotateRight g rt
      insertLoop a node
  else do
    let u ← uncle node
    let ur ← isRed u
    if ur then do
      let node ← insRecolor node
      insertLoop a node
    else do
      let node ← insTurnR a node
      let p ← parent node
      setColor p BLACK
      let g ← grandParent node
      setColor g RED
      let g ← grandParent node
      let rt ← root a
      rotateLeft g rt
      insertLoop a node
partial_fixpoint

/-- `__rebalance_insert`, c_tree.c:329-373 -/
def rebalanceInsert (a node : Addr) : M V Unit :=
  if a = 0 ∨ node = 0 then pure () else do
  insertLoop a node
  let rt ← root a
  setColor rt BLACK

/-- `(!__has_left(s) || __is_black(__left(s)))`, c_tree.c:485 and elsewhere -/
def blackLeft (s : Addr) : M V Bool := do
  let h ← hasLeft s
  if !h then pure true else do
    let l ← left s
    isBlack l
/-- `(!__has_right(s) || __is_black(__right(s)))`, c_tree.c:486 and elsewhere -/
def blackRight (s : Addr) : M V Bool := do
  let h ← hasRight s
  if !h then pure true else do
    let r ← right s
    isBlack r
/-- the condition of c_tree.c:485-486, 525-526 -/
def bothBlack (s : Addr) : M V Bool := do
  let b ← blackLeft s
  if b then blackRight s else pure false

/-- red sibling on the right, c_tree.c:478-483; returns the new sibling -/
def delTurnL (a rp s : Addr) : M V Addr := do
  let b ← isRed s
  if b then do
    setColor s BLACK
    setColor rp RED
    let rt ← root a
    rotateLeft rp rt
    right rp
  else pure s
/-- red sibling on the left, c_tree.c:518-523 -/
def delTurnR (a rp s : Addr) : M V Addr := do
  let b ← isRed s
  if b then do
    setColor s BLACK
    setColor rp RED
    let rt ← root a
    rotateRight rp rt
    left rp
  else pure s
/-- c_tree.c:492-499 -/
def delInnerL (a rp s : Addr) : M V Addr := do
  let b ← blackRight s
  if b then do
    let h ← hasLeft s
    (if h then do
      let l ← left s
      setColor l BLACK
    else pure ())
    setColor s RED
    let rt ← root a
    rotateRight s rt
    right rp
  else pure s
/-- c_tree.c:532-539 -/
def delInnerR (a rp s : Addr) : M V Addr := do
  let b ← blackLeft s
  if b then do
    let h ← hasRight s
    (if h then do
      let r ← right s
      setColor r BLACK
    else pure ())
    setColor s RED
    let rt ← root a
    rotateLeft s rt
    left rp
  else pure s
/-- c_tree.c:492-513, up to the `break` -/
def delFinishL (a rp s : Addr) : M V Unit := do
  let s ← delInnerL a rp s
  let c ← colorOf rp
  setColor s c
  setColor rp BLACK
  let h ← hasRight s
  (if h then do
    let r ← right s
    setColor r BLACK
  else pure ())
  let rt ← root a
  rotateLeft rp rt
/-- c_tree.c:532-551, up to the `break` -/
def delFinishR (a rp s : Addr) : M V Unit := do
  let s ← delInnerR a rp s
  let c ← colorOf rp
  setColor s c
  setColor rp BLACK
  let h ← hasLeft s
  (if h then do
    let l ← left s
    setColor l BLACK
  else pure ())
  let rt ← root a
  rotateRight rp rt

/-- the assertions of c_tree.c:471-474 -/
def delAssert (rn rp : Addr) : M V Unit :=
  if rn ≠ 0 then do
    let p ← parent rn
    cassert (p == rp)
    let l ← left rp
    if l = rn then pure () else do
    let r ← right rp
    cassert (r == rn)
  else pure ()

/-- `__rebalance_erase`, c_tree.c:375-560: the loop; the result is the final `replace_node` -/
def eraseLoop (a rn rp : Addr) : M V Addr := do
  let rt ← root a
  if rn = rt then pure rn else do
  let b ← isBlack rn
  if !b then pure rn else do
  delAssert rn rp
  let l ← left rp
  if rn = l then do
    let s ← right rp
    let s ← delTurnL a rp s
    let b ← bothBlack s
    if b then do
      setColor s RED
      let p ← parent rp
      eraseLoop a rp p
    else do
      delFinishL a rp s
      pure rn
  else do
    let s ← left rp
    let s ← delTurnR a rp s
    let b ← bothBlack s
    if b then do
      setColor s RED
      let p ← parent rp
      eraseLoop a rp p
    else do
      delFinishR a rp s
      pure rn
partial_fixpoint

/-- the choice of the node to unlink, c_tree.c:381-402: `(erase_node, replace_node)` -/
def chooseErase (node : Addr) : M V (Addr × Addr) := do
  let h ← hasLeft node
  if !h then do
    let r ← right node
    pure (node, r)
  else do
    let h ← hasRight node
    if !h then do
      let l ← left node
      cassert (l != 0)
      pure (node, l)
    else do
      let r ← right node
      let e ← minimum r
      let r ← right e
      pure (e, r)

/-- put `x` where `node` hangs, c_tree.c:406-416, 433-443 -/
def replaceChild (a node x : Addr) : M V Unit := do
  let rt ← root a
  if rt = node then setRoot a x else do
    let b ← isLeft node
    let p ← parent node
    if b then setLeft p x else setRight p x

/-- c_tree.c:418-421 -/
def fixLeftmost (a en rn : Addr) : M V Unit := do
  let lm ← leftmost a
  if lm = en then do
    let x ← (if rn ≠ 0 then minimum rn else parent en)
    setLeftmost a x
  else pure ()
/-- c_tree.c:423-426 -/
def fixRightmost (a en rn : Addr) : M V Unit := do
  let rm ← rightmost a
  if rm = en then do
    let x ← (if rn ≠ 0 then maximum rn else parent en)
    setRightmost a x
  else pure ()

/-- `if (replace_node) replace_node->parent = p`, c_tree.c:428-430, 451-453 -/
def adopt (rn p : Addr) : M V Unit := if rn ≠ 0 then setParent rn p else pure ()

/-- c_tree.c:405-433: unlink a node with at most one child; returns `replace_parent` -/
def unlinkSelf (a en rn : Addr) : M V Addr := do
  replaceChild a en rn
  fixLeftmost a en rn
  fixRightmost a en rn
  let p ← parent en
  adopt rn p
  parent en

/-- c_tree.c:447-460: detach the successor `en` of `node` from where it is; returns `replace_parent` -/
def detachSucc (node en rn : Addr) : M V Addr := do
  let l ← left node
  setLeft en l
  let l ← left node
  setParent l en
  let r ← right node
  if en ≠ r then do
    let r ← right node
    setRight en r
    let r ← right node
    setParent r en
    let p ← parent en
    setLeft p rn
    let p ← parent en
    adopt rn p
    parent en
  else pure en

/-- c_tree.c:434-471: put the successor `en` in the place of `node`; returns `replace_parent` -/
def unlinkSucc (a node en rn : Addr) : M V Addr := do
  replaceChild a node en
  let rp ← detachSucc node en rn
  let c ← colorOf en
  let d ← colorOf node
  setColor en d
  setColor node c
  let p ← parent node
  setParent en p
  pure rp

/-- `__rebalance_erase`, c_tree.c:375-560: take a node out of the tree -/
def rebalanceErase (a node : Addr) : M V Addr :=
  if a = 0 ∨ node = 0 then pure 0 else do
  let (en, rn) ← chooseErase node
  cassert (en != 0)
  let rp ← (if en = node then unlinkSelf a en rn else unlinkSucc a node en rn)
  -- in both cases `erase_node` is now `node`
  let b ← isBlack node
  if b then do
    let rn ← eraseLoop a rn rp
    (if rn ≠ 0 then setColor rn BLACK else pure ())
    pure node
  else pure node

/-- the side of the new node in `__insert`, c_tree.c:572-573 -/
def goesLeft (a hint p : Addr) (value : Loc) : M V Bool := do
  let h ← header a
  if p = h then pure true else
  if hint ≠ 0 then pure true else
  valLtNode E a value p

/-- linking the new node in `__insert`, c_tree.c:571-592 -/
def link (a hint p node : Addr) (value : Loc) : M V Unit := do
  let h ← header a
  let b ← goesLeft E a hint p value
  if b then do
    setLeft p node
    if p = h then do
      setParent h node
      setRight h node
    else do
      let lm ← leftmost a
      if p = lm then setLeft h node else pure ()
  else do
    setRight p node
    let rm ← rightmost a
    if p = rm then setRight h node else pure ()

/-- `__insert`, c_tree.c:562-601 -/
def insert (a hint p : Addr) (value : Loc) : M V Addr := do
  cassert (a != 0)
  cassert (p != 0)
  cassert (value.1 != 0)
  let node ← createNode a value
  if node = 0 then pure 0 else do
  link E a hint p node value
  setParent node p
  rebalanceInsert a node
  let n ← count_ a
  stN (a, 7) (n + 1)
  pure node

/-- `__black_count`, c_tree.c:603-619: the loop (upwards) -/
def blackCountLoop (node top n : Addr) : M V Nat := do
  let b ← isBlack node
  let n := if b then n + 1 else n
  if node ≠ top then do
    let p ← parent node
    blackCountLoop p top n
  else pure n
partial_fixpoint
/-- `__black_count`, c_tree.c:603-619 -/
def blackCount (bottom top : Addr) : M V Nat := do
  cassert (bottom != 0)
  cassert (top != 0)
  blackCountLoop bottom top 0

/-- `__create_iterator`, c_tree.c:909-925 -/
def mkIter (a node : Addr) : M V Addr := do
  let vt ← vtype a
  cassert (vt != 0)
  cassert (node != 0)
  pure node

/-- `iter_increment`, c_tree.c:651-671: the loop going up; the result is `(node, parent)` -/
def climbRight (node p : Addr) : M V (Addr × Addr) := do
  let r ← right p
  if r = node then do
    let g ← parent p
    climbRight p g
  else pure (node, p)
partial_fixpoint
/-- `iter_increment`, c_tree.c:651-671 -/
def iterIncrement (node : Addr) : M V Addr := do
  let r ← right node
  if r ≠ 0 then do
    let r ← right node
    minimum r
  else do
    let p ← parent node
    let (node, p) ← climbRight node p
    let r ← right node
    if p ≠ r then pure p else pure node

/-- `iter_decrement`, c_tree.c:673-694: the loop going up -/
def climbLeft (node p : Addr) : M V Addr := do
  let l ← left p
  if l = node then do
    let g ← parent p
    climbLeft p g
  else pure p
partial_fixpoint
/-- `iter_decrement`, c_tree.c:673-694 -/
def iterDecrement (node : Addr) : M V Addr := do
  let b ← isHeader node
  if b then right node else do
  let l ← left node
  if l ≠ 0 then do
    let l ← left node
    maximum l
  else do
    let p ← parent node
    climbLeft node p

/-- `iter_dereference`, c_tree.c:728-734 -/
def iterDereference (n : Addr) : M V Loc := do
  let b ← valp n
  pure (b, 1)
/-- `reverse_iter_increment`, c_tree.c:790-798 -/
def revIncrement (n : Addr) : M V Addr := iterDecrement n
/-- `reverse_iter_decrement`, c_tree.c:800-808 -/
def revDecrement (n : Addr) : M V Addr := iterIncrement n
/-- `reverse_iter_dereference`, c_tree.c:846-854 -/
def revDereference (n : Addr) : M V Loc := do
  let n ← iterDecrement n
  let b ← valp n
  pure (b, 1)

/-- `iter_advance`, c_tree.c:747-757, `n > 0` -/
def advanceFwd (node : Addr) : Nat → M V Addr
  | 0 => pure node
  | n+1 => do
    let node ← iterIncrement node
    advanceFwd node n
/-- `iter_advance`, c_tree.c:747-757, `n ≤ 0` -/
def advanceBwd (node : Addr) : Nat → M V Addr
  | 0 => pure node
  | n+1 => do
    let node ← iterDecrement node
    advanceBwd node n
/-- `iter_advance`, c_tree.c:747-757 -/
def iterAdvance (node : Addr) : Int → M V Addr
  | .ofNat n => advanceFwd node n
  | .negSucc n => advanceBwd node (n+1)

/-- `iter_distance`, c_tree.c:759-772: the loop -/
def distanceLoop (first last : Addr) (n : Nat) : M V Nat :=
  if first ≠ last then do
    let first ← iterIncrement first
    distanceLoop first last (n+1)
  else pure n
partial_fixpoint
/-- `iter_distance`, c_tree.c:759-772 -/
def iterDistance (first last : Addr) : M V Nat := distanceLoop first last 0

/-- `c_tree_create`, c_tree.c:960-993 (`validate_type_info` is assumed to pass) -/
def create (kt vt mt kov cmp : Nat) : M V Addr :=
  if kt = 0 ∨ vt = 0 ∨ kov = 0 ∨ cmp = 0 then pure 0 else do
  let a ← mallocS 7
  if a = 0 then pure 0 else do
  let h ← mallocS 5
  stN (a, 6) h
  let h ← header a
  if h = 0 then do
    free a
    pure 0
  else do
  setColor h RED
  setLeft h h
  setRight h h
  setParent h 0
  stN (h, 5) 0
  stN (a, 1) kt
  stN (a, 2) vt
  stN (a, 3) mt
  stN (a, 4) kov
  stN (a, 5) cmp
  stN (a, 7) 0
  pure a

/-- `c_tree_clear`, c_tree.c:1040-1050 -/
def clear (a : Addr) : M V Unit :=
  if a = 0 then pure () else do
  let r ← root a
  eraseSub a r
  let h ← header a
  setParent h 0
  setLeft h h
  setRight h h
  stN (a, 7) 0

/-- `c_tree_destroy`, c_tree.c:995-999 -/
def destroy (a : Addr) : M V Unit := do
  clear a
  free a

/-- `c_tree_begin`, c_tree.c:1001-1005 -/
def begin_ (a : Addr) : M V Addr := do
  cassert (a != 0)
  let n ← leftmost a
  mkIter a n
/-- `c_tree_end`, c_tree.c:1007-1011 -/
def end_ (a : Addr) : M V Addr := do
  cassert (a != 0)
  let n ← header a
  mkIter a n
/-- `c_tree_rbegin`, c_tree.c:1013-1017: a reverse iterator is stored as the node after the element it designates -/
def rbegin (a : Addr) : M V Addr := end_ a
/-- `c_tree_rend`, c_tree.c:1019-1023 -/
def rend (a : Addr) : M V Addr := begin_ a

/-- `c_tree_empty`, c_tree.c:1025-1028 -/
def empty (a : Addr) : M V Bool := if a = 0 then pure true else do
  let n ← count_ a
  pure (n == 0)
/-- `c_tree_size`, c_tree.c:1030-1033 -/
def size (a : Addr) : M V Nat := if a = 0 then pure 0 else count_ a

/-- A client loop: `for (it = first; it != last; ++it)` reading every element through its iterator (c_tree.c:653-673, 729-746). -/
def walkFwd (node last : Addr) : M V (List V) :=
  if node ≠ last then do
    let r ← iterDereference node
    let v ← ldV r
    let node ← iterIncrement node
    let vs ← walkFwd node last
    pure (v :: vs)
  else pure []
partial_fixpoint
/-- The same loop with reverse iterators (c_tree.c:796-804, 850-869). -/
def walkRev (node last : Addr) : M V (List V) :=
  if node ≠ last then do
    let r ← revDereference node
    let v ← ldV r
    let node ← revIncrement node
    let vs ← walkRev node last
    pure (v :: vs)
  else pure []
partial_fixpoint
/-- read the tree from `c_tree_begin` to `c_tree_end` -/
def readAll (a : Addr) : M V (List V) := do
  let b ← begin_ a
  let e ← end_ a
  walkFwd b e
/-- read the tree from `c_tree_rbegin` to `c_tree_rend` -/
def readAllRev (a : Addr) : M V (List V) := do
  let b ← rbegin a
  let e ← rend a
  walkRev b e

/-- the descent of `c_tree_insert_unique_value`, c_tree.c:1052-1059: the result is `(y, comp)` -/
def descend (a x y : Addr) (comp : Bool) (value : Loc) : M V (Addr × Bool) :=
  if x ≠ 0 then do
    let comp ← valLtNode E a value x
    let c ← (if comp then left x else right x)
    descend a c x comp value
  else pure (y, comp)
partial_fixpoint

/-- `__create_iterator(tree->value_type, __insert(...))` -/
def insertIter (a hint p : Addr) (value : Loc) : M V Addr := do
  let n ← insert E a hint p value
  mkIter a n

/-- `c_tree_insert_unique_value`, c_tree.c:1052-1083 -/
def insertUniqueValue (a : Addr) (value : Loc) : M V Addr := do
  cassert (a != 0)
  cassert (value.1 != 0)
  let y ← header a
  let x ← root a
  let (y, comp) ← descend E a x y true value
  let z ← mkIter a y
  let lm ← leftmost a
  if comp ∧ z = lm then insertIter E a 0 y value else do
  let z ← (if comp then iterDecrement z else pure z)
  let b ← nodeLtVal E a z value
  if b then insertIter E a 0 y value else pure z

/-- `c_tree_insert_unique`, c_tree.c:1085-1122 (with a hint) -/
def insertUnique (a hint : Addr) (value : Loc) : M V Addr := do
  cassert (a != 0)
  cassert (value.1 != 0)
  let lm ← leftmost a
  if hint = lm then do
    let n ← count_ a
    let b ← (if 0 < n then valLtNode E a value hint else pure false)
    if b then insertIter E a hint hint value else insertUniqueValue E a value
  else do
  let h ← header a
  if hint = h then do
    let rm ← rightmost a
    let b ← nodeLtVal E a rm value
    if b then do
      let rm ← rightmost a
      insertIter E a 0 rm value
    else insertUniqueValue E a value
  else do
    let before ← iterDecrement hint
    let b ← nodeLtVal E a before value
    let b ← (if b then valLtNode E a value hint else pure false)
    if b then do
      let hr ← hasRight before
      if !hr then insertIter E a 0 before value else insertIter E a hint hint value
    else insertUniqueValue E a value

/-- the descent of `c_tree_insert_equal_value`, c_tree.c:1162-1165 -/
def descendEq (a x y : Addr) (value : Loc) : M V Addr :=
  if x ≠ 0 then do
    let comp ← valLtNode E a value x
    let c ← (if comp then left x else right x)
    descendEq a c x value
  else pure y
partial_fixpoint

/-- `c_tree_insert_equal_value`, c_tree.c:1153-1169 -/
def insertEqualValue (a : Addr) (value : Loc) : M V Addr := do
  cassert (a != 0)
  cassert (value.1 != 0)
  let y ← header a
  let x ← root a
  let y ← descendEq E a x y value
  insertIter E a 0 y value

/-- `c_tree_insert_equal`, c_tree.c:1171-1208 (with a hint) -/
def insertEqual (a hint : Addr) (value : Loc) : M V Addr := do
  cassert (a != 0)
  cassert (value.1 != 0)
  let lm ← leftmost a
  if hint = lm then do
    let n ← count_ a
    let b ← (if 0 < n then nodeLtVal E a hint value else pure true)
    if !b then insertIter E a hint hint value else insertEqualValue E a value
  else do
  let h ← header a
  if hint = h then do
    let rm ← rightmost a
    let b ← valLtNode E a value rm
    if !b then do
      let rm ← rightmost a
      insertIter E a 0 rm value
    else insertEqualValue E a value
  else do
    let before ← iterDecrement hint
    let b ← valLtNode E a value before
    let b ← (if !b then nodeLtVal E a hint value else pure true)
    if !b then do
      let hr ← hasRight before
      if !hr then insertIter E a 0 before value else insertIter E a hint hint value
    else insertEqualValue E a value

/-- `c_tree_insert_unique_from`, c_tree.c:1142-1151: the loop, over an array of `n` values (`value += size` is the next slot) -/
def insertUniqueFrom (a : Addr) (value last : Loc) : M V Unit :=
  if value ≠ last then do
    let _ ← insertUniqueValue E a value
    insertUniqueFrom a (value.1, value.2 + 1) last
  else pure ()
partial_fixpoint
/-- `c_tree_insert_equal_from`, c_tree.c:1228-1237: the loop -/
def insertEqualFrom (a : Addr) (value last : Loc) : M V Unit :=
  if value ≠ last then do
    let _ ← insertEqualValue E a value
    insertEqualFrom a (value.1, value.2 + 1) last
  else pure ()
partial_fixpoint

/-- `c_tree_insert_unique_from`, c_tree.c:1142-1151 -/
def insertUniqueFromC (a : Addr) (first last : Loc) : M V Unit :=
  if a = 0 ∨ first.1 = 0 ∨ last.1 = 0 then pure () else insertUniqueFrom E a first last
/-- `c_tree_insert_equal_from`, c_tree.c:1228-1237 -/
def insertEqualFromC (a : Addr) (first last : Loc) : M V Unit :=
  if a = 0 ∨ first.1 = 0 ∨ last.1 = 0 then pure () else insertEqualFrom E a first last

/-- `c_tree_insert_unique_range`, c_tree.c:1124-1140: the loop, for a range given by tree iterators (of another tree, or of the same one) -/
def insertUniqueRange (a : Addr) (first last : Addr) : M V Unit :=
  if first ≠ last then do
    let r ← iterDereference first
    let _ ← insertUniqueValue E a r
    let first ← iterIncrement first
    insertUniqueRange a first last
  else pure ()
partial_fixpoint
/-- `c_tree_insert_equal_range`, c_tree.c:1210-1226: the loop, for a range given by tree iterators -/
def insertEqualRange (a : Addr) (first last : Addr) : M V Unit :=
  if first ≠ last then do
    let r ← iterDereference first
    let _ ← insertEqualValue E a r
    let first ← iterIncrement first
    insertEqualRange a first last
  else pure ()
partial_fixpoint

/-- `c_tree_erase`, c_tree.c:1239-1252 -/
def erase (a pos : Addr) : M V Addr := do
  cassert (a != 0)
  let next ← iterIncrement pos
  let en ← rebalanceErase a pos
  destroyNode a en
  let n ← count_ a
  stN (a, 7) (n - 1)
  pure next

/-- `c_tree_erase_range`, c_tree.c:1266-1278: the loop -/
def eraseRangeLoop (a first last : Addr) : M V Unit :=
  if first ≠ last then do
    let first ← erase a first
    eraseRangeLoop a first last
  else pure ()
partial_fixpoint
/-- `c_tree_erase_range`, c_tree.c:1266-1278 -/
def eraseRange (a first last : Addr) : M V Unit :=
  if a = 0 then pure () else do
  let lm ← leftmost a
  let h ← header a
  if first = lm ∧ last = h then clear a else eraseRangeLoop a first last

/-- `c_tree_lower_bound`, c_tree.c:1329-1351: the loop -/
def lowerLoop (a x y : Addr) (key : Loc) : M V Addr :=
  if x ≠ 0 then do
    let b ← nodeLtRef E a x key
    if !b then do
      let l ← left x
      lowerLoop a l x key
    else do
      let r ← right x
      lowerLoop a r y key
  else pure y
partial_fixpoint
/-- `c_tree_lower_bound`, c_tree.c:1329-1351 -/
def lowerBound (a : Addr) (key : Loc) : M V Addr := do
  cassert (a != 0)
  cassert (key.1 != 0)
  let y ← header a
  let x ← root a
  let y ← lowerLoop E a x y key
  mkIter a y
/-- `c_tree_upper_bound`, c_tree.c:1353-1375: the loop -/
def upperLoop (a x y : Addr) (key : Loc) : M V Addr :=
  if x ≠ 0 then do
    let b ← refLtNode E a key x
    if b then do
      let l ← left x
      upperLoop a l x key
    else do
      let r ← right x
      upperLoop a r y key
  else pure y
partial_fixpoint
/-- `c_tree_upper_bound`, c_tree.c:1353-1375 -/
def upperBound (a : Addr) (key : Loc) : M V Addr := do
  cassert (a != 0)
  cassert (key.1 != 0)
  let y ← header a
  let x ← root a
  let y ← upperLoop E a x y key
  mkIter a y

/-- `c_tree_erase_key`, c_tree.c:1254-1264 -/
def eraseKey (a : Addr) (key : Loc) : M V Nat :=
  if a = 0 ∨ key.1 = 0 then pure 0 else do
  let lower ← lowerBound E a key
  let upper ← upperBound E a key
  let n ← iterDistance lower upper
  eraseRange a lower upper
  pure n

/-- `c_tree_erase_from`, c_tree.c:1280-1289: the loop.  `stride` is `value_type->size()` in units of the slots of the key array
(`1` if keys and values have the same type, as in sets). -/
def eraseFrom (stride : Nat) (a : Addr) (key last : Loc) : M V Unit :=
  if key ≠ last then do
    let _ ← eraseKey E a key
    eraseFrom stride a (key.1, key.2 + stride) last
  else pure ()
partial_fixpoint

/-- `c_tree_erase_from`, c_tree.c:1280-1289 -/
def eraseFromC (stride : Nat) (a : Addr) (first last : Loc) : M V Unit :=
  if a = 0 ∨ first.1 = 0 ∨ last.1 = 0 then pure () else eraseFrom E stride a first last

/-- `c_tree_swap`, c_tree.c:1291-1297: exchange of the two structs, field by field -/
def swap (a b : Addr) : M V Unit :=
  if a = 0 ∨ b = 0 then pure () else do
  let x1 ← ldN (a, 1); let x2 ← ldN (a, 2); let x3 ← ldN (a, 3); let x4 ← ldN (a, 4); let x5 ← ldN (a, 5); let x6 ← ldN (a, 6); let x7 ← ldN (a, 7)
  let y1 ← ldN (b, 1); let y2 ← ldN (b, 2); let y3 ← ldN (b, 3); let y4 ← ldN (b, 4); let y5 ← ldN (b, 5); let y6 ← ldN (b, 6); let y7 ← ldN (b, 7)
  stN (a, 1) y1; stN (a, 2) y2; stN (a, 3) y3; stN (a, 4) y4; stN (a, 5) y5; stN (a, 6) y6; stN (a, 7) y7
  stN (b, 1) x1; stN (b, 2) x2; stN (b, 3) x3; stN (b, 4) x4; stN (b, 5) x5; stN (b, 6) x6; stN (b, 7) x7

/-- `c_tree_find`, c_tree.c:1299-1320: the loop; `0` if nothing is found -/
def findLoop (a node : Addr) (key : Loc) : M V Addr :=
  if node ≠ 0 then do
    let b ← refLtNode E a key node
    if b then do
      let l ← left node
      findLoop a l key
    else do
      let b ← nodeLtRef E a node key
      if !b then pure node
      else do
        let r ← right node
        findLoop a r key
  else pure 0
partial_fixpoint
/-- `c_tree_find`, c_tree.c:1299-1320 -/
def find (a : Addr) (key : Loc) : M V Addr := do
  let e ← empty a
  if e ∨ key.1 = 0 then end_ a else do
  let r ← root a
  let n ← findLoop E a r key
  if n ≠ 0 then mkIter a n else end_ a

/-- `c_tree_count`, c_tree.c:1322-1327 -/
def count (a : Addr) (key : Loc) : M V Nat := do
  let e ← empty a
  if e ∨ key.1 = 0 then pure 0 else do
  let r ← root a
  countSub E a r key

/-- `c_tree_equal_range`, c_tree.c:1377-1401.  `lower` and `upper` are the caller's pointer variables; an iterator struct is a block with slots
`1 = base_iter` (its operation table) and `2 = node`. -/
def equalRange (a : Addr) (key lower upper : Loc) : M V Unit :=
  if a = 0 ∨ key.1 = 0 ∨ lower.1 = 0 ∨ upper.1 = 0 then pure () else do
  let l ← ldN lower
  (if l = 0 then do
    let p ← mallocS 2
    stN lower p
  else pure ())
  let u ← ldN upper
  (if u = 0 then do
    let p ← mallocS 2
    stN upper p
  else pure ())
  let l ← ldN lower
  let u ← ldN upper
  if l = 0 ∨ u = 0 then do
    free l
    stN lower 0
    free u
    stN upper 0
  else do
  let lo ← lowerBound E a key
  let hi ← upperBound E a key
  let l ← ldN lower
  stN (l, 2) lo
  let u ← ldN upper
  stN (u, 2) hi

/-- `key_comp(key_of_value(n->value), key_of_value(m->value))`, c_tree.c:1436-1438 -/
def nodeLtNode (a n m : Addr) : M V Bool := do
  let c ← tcmp a
  let f ← tkov a
  let bn ← valp n
  let vn ← ldV (bn, 1)
  let bm ← valp m
  let vm ← ldV (bm, 1)
  pure (E.cmp c (E.kov f vn) (E.kov f vm))

/-- `c_tree_rb_verify`, c_tree.c:1403-1448: the checks made at one node -/
def verifyNode (a node black : Addr) : M V Bool := do
  let l ← left node
  let r ← right node
  let red ← isRed node
  let b1 ← (if red then do
      let bl ← (if l ≠ 0 then isBlack l else pure true)
      let br ← (if r ≠ 0 then isBlack r else pure true)
      pure (bl && br)
    else pure true)
  if !b1 then pure false else do
  let b2 ← (if l ≠ 0 then nodeLtNode E a node l else pure false)
  if b2 then pure false else do
  let b3 ← (if r ≠ 0 then nodeLtNode E a r node else pure false)
  if b3 then pure false else do
  if l = 0 ∧ r = 0 then do
    let t ← root a
    let n ← blackCount node t
    pure (n == black)
  else pure true
/-- `c_tree_rb_verify`, c_tree.c:1403-1448: the loop over all nodes -/
def verifyLoop (a node last black : Addr) : M V Bool :=
  if node ≠ last then do
    cassert (node != 0)
    let b ← verifyNode E a node black
    if !b then pure false else do
    let node ← iterIncrement node
    verifyLoop a node last black
  else pure true
partial_fixpoint
/-- `c_tree_rb_verify`, c_tree.c:1403-1448.  (Conditions without side effects are evaluated without the short cuts of `&&` and `||`.) -/
def rbVerify (a : Addr) : M V Bool :=
  if a = 0 then pure false else do
  let n ← count_ a
  let b ← begin_ a
  let e ← end_ a
  let h ← header a
  let l ← left h
  let r ← right h
  let p ← parent h
  let c ← colorOf h
  if n = 0 ∨ b = e then pure (n == 0 && b == e && l == h && r == h && p == 0 && c == RED) else do
  let hr ← isRed h
  let rb ← isBlack p
  let pp ← parent p
  if hr = false ∨ rb = false ∨ pp ≠ h then pure false else do
  let lm ← leftmost a
  let black ← blackCount lm p
  cassert (e != 0)
  let ok ← verifyLoop E a b e black
  if !ok then pure false else do
  let lm ← leftmost a
  let mn ← minimum p
  let rm ← rightmost a
  let mx ← maximum p
  pure (lm == mn && rm == mx)

end CC.Tree
