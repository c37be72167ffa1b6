import Verif.Tree.RB
/-!
# What a local check of a red-black tree can see

The four conditions of `c_tree_rb_verify`, stated on trees: nothing here mentions memory.
-/
namespace CC.Tree
variable {α : Type}
namespace T
/-- `1` for black, `0` for red -/
def _root_.CC.Tree.one (c : Color) : Nat := if c = .black then 1 else 0
/-- the element at the top of a tree -/
def top : T α → Option α
  | leaf => none
  | node _ _ e _ => some e
/-- the number of black nodes on the way from the root to the first node (the one reached by going left as long as possible), both included -/
def leftBlacks : T α → Nat
  | leaf => 0
  | node c l _ _ => one c + l.leftBlacks
/-- no red node has a red child -/
def NoRedRed : T α → Prop
  | leaf => True
  | node c l _ r => (c = .red → l.color = .black ∧ r.color = .black) ∧ l.NoRedRed ∧ r.NoRedRed
/-- no node is smaller than its left child, no right child is smaller than its parent -/
def LocallyOrdered (lt : α → α → Bool) : T α → Prop
  | leaf => True
  | node _ l e r => (∀ x, l.top = some x → lt e x = false) ∧ (∀ x, r.top = some x → lt x e = false) ∧ l.LocallyOrdered lt ∧ r.LocallyOrdered lt
/-- from every node without children up to the root there are `n` black nodes, both included -/
def Blacks : T α → Nat → Prop
  | leaf, _ => True
  | node c leaf _ leaf, n => one c = n
  | node c l _ r, n => ∃ m, n = one c + m ∧ l.Blacks m ∧ r.Blacks m
/-- every node has no child or two -/
def Full : T α → Prop
  | leaf => True
  | node _ l _ r => (l = leaf ↔ r = leaf) ∧ l.Full ∧ r.Full
end T
/-- What `c_tree_rb_verify` accepts: the empty tree; and a tree with a black root, no two adjacent red nodes, every node in order with its own children, and the same
number of black nodes above every node without children. -/
def Accepted (lt : α → α → Bool) (t : T α) : Prop :=
  t = .leaf ∨ t.color = .black ∧ t.NoRedRed ∧ t.LocallyOrdered lt ∧ t.Blacks t.leftBlacks
end CC.Tree
