import Verif.Core.Within
import Verif.SList.Sort
/-!
# How long the functions that go through a forward list take (proof layer)

The proofs follow those of Spec.lean to Sort.lean, paying for each statement.
-/
namespace CC.SList
open CC.Tac
open CC.CList (Elem nodes vals)
variable {V β : Type} {E : Types V} {nf : Prop} {l a s o a2 s2 : Addr} {ty t2 : Nat} {xs ys : List (Elem V)} {k : Nat}

theorem begin_cost : Cost (begin_ l : M V Addr) 2 := by unfold begin_; cost
theorem end_cost : Cost (end_ l : M V Addr) 1 := by unfold end_; cost
theorem beforeBegin_cost : Cost (beforeBegin l : M V Addr) 1 := by unfold beforeBegin; cost
macro_rules | `(tactic| cost_fn) => `(tactic| first | exact begin_cost | exact end_cost | exact beforeBegin_cost)
theorem valOf_cost {n : Addr} : Cost (valOf n : M V Loc) 1 := by unfold valOf; cost
theorem empty_cost : Cost (empty l : M V Bool) 3 := by unfold empty; cost
theorem single_cost : Cost (single l : M V Bool) 4 := by unfold single; cost
theorem popNodeAfter_cost {n : Addr} : Cost (popNodeAfter l n : M V Addr) 15 := by unfold popNodeAfter; cost
theorem createNode_cost {v : Loc} : Cost (createNode E l v) 8 := by unfold createNode; cost
theorem create_cost : Cost (create ty : M V Addr) 18 := by unfold create; cost
theorem swap_cost : Cost (swap l o : M V Unit) 12 := by unfold swap; cost
theorem at_cost {cs : List Addr} {i : Nat} : Cost (at_ cs i : M V Addr) 0 := by
  unfold at_; split
  · exact Cost.pure _
  · exact Cost.ub
macro_rules | `(tactic| cost_fn) => `(tactic| first | exact valOf_cost | exact empty_cost | exact single_cost | exact popNodeAfter_cost | exact createNode_cost | exact create_cost | exact swap_cost | exact at_cost)
theorem eraseAfter_cost {n : Addr} : Cost (eraseAfter l n : M V Addr) 15 := by unfold eraseAfter; cost
theorem insertAfter_cost {n : Addr} {v : Loc} : Cost (insertAfter E l n v) 11 := by unfold insertAfter; cost
theorem spliceGuard_cost : Cost (spliceGuard l o : M V Bool) 5 := by unfold spliceGuard; cost
macro_rules | `(tactic| cost_fn) => `(tactic| first | exact eraseAfter_cost | exact insertAfter_cost | exact spliceGuard_cost)

end CC.SList
