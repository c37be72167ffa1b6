import Verif.Spec.Order
/-!
# Specification vocabulary: heaps (no reference to the code)
-/
namespace CC

/-- `vs` is a (max) heap: no element is greater than its parent, the element at half its index. -/
def IsHeap {α : Type} (lt : α → α → Bool) (vs : List α) : Prop :=
  ∀ k a b, 0 < k → vs[(k - 1) / 2]? = some a → vs[k]? = some b → lt a b = false

/-- `a` is a maximum of `vs` -/
def IsMax {α : Type} (lt : α → α → Bool) (vs : List α) (a : α) : Prop := a ∈ vs ∧ ∀ b, b ∈ vs → lt a b = false

example : IsHeap (fun a b : Nat => decide (a < b)) [9, 5, 8, 1, 5] := by
  intro k a b hk ha hb
  match k, hk with
  | 1, _ | 2, _ | 3, _ | 4, _ => simp at ha hb; subst ha hb; rfl
  | k + 5, _ => simp at hb

example : ¬ IsHeap (fun a b : Nat => decide (a < b)) [9, 5, 8, 6] := by
  intro h
  have := h 3 5 6 (by omega) rfl rfl
  simp at this

end CC
