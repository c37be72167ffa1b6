import Verif.Spec.Order
/-!
# Specification vocabulary for what the final phase of `algo_sort_by` does (no reference to the code)
-/
namespace CC

/-- every element of the list is replaced by the largest one up to there, `a` coming first (of equivalent ones the later) -/
def raised {α : Type} (lt : α → α → Bool) (a : α) : List α → List α
  | [] => []
  | x :: xs => if lt x a then a :: raised lt a xs else x :: raised lt x xs

/-- `ws` is made of blocks in ascending order, each of which is sorted or has at most 512 elements -/
def InBlocks {α : Type} (lt : α → α → Bool) (ws : List α) : Prop :=
  ∃ bs : List (List α), ws = bs.flatten ∧ (∀ b, b ∈ bs → b.length ≤ 512 ∨ Sorted lt b) ∧ bs.Pairwise fun x y => ∀ a, a ∈ x → ∀ b, b ∈ y → lt b a = false

example : raised (fun a b : Nat => decide (a < b)) 3 [1, 4, 2, 4, 7, 5] = [3, 4, 4, 4, 7, 7] := rfl
example : raised (fun a b : Nat => decide (a < b)) 3 [3, 4, 5] = [3, 4, 5] := rfl

end CC
