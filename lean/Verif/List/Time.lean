import Verif.Core.Within
import Verif.List.Sort
/-!
# How long the functions that go through a list take (proof layer)

The proofs follow those of Spec.lean to Sort.lean, paying for each statement.
-/
namespace CC.CList
open CC.Tac
variable {V β : Type} {E : Types V} {nf : Prop} {l s o s2 : Addr} {ty t2 : Nat} {xs ys : List (Elem V)} {k : Nat}

theorem begin_cost : Cost (begin_ l : M V Addr) 2 := by unfold begin_; cost
theorem end_cost : Cost (end_ l : M V Addr) 1 := by unfold end_; cost
macro_rules | `(tactic| cost_fn) => `(tactic| first | exact begin_cost | exact end_cost)
theorem valOf_cost {n : Addr} : Cost (valOf n : M V Loc) 1 := by unfold valOf; cost
theorem empty_cost : Cost (empty l : M V Bool) 3 := by unfold empty; cost
theorem popNode_cost {n : Addr} : Cost (popNode l n : M V Addr) 13 := by unfold popNode; cost
theorem transfer_cost {a b c : Addr} : Cost (transfer a b c : M V Unit) 12 := by unfold transfer; cost
theorem createNode_cost {v : Loc} : Cost (createNode E l v) 9 := by unfold createNode; cost
theorem create_cost : Cost (create ty : M V Addr) 9 := by unfold create; cost
theorem swap_cost : Cost (swap l o : M V Unit) 8 := by unfold swap; cost
theorem linkBack_cost {n : Addr} : Cost (linkBack l n : M V Unit) 10 := by unfold linkBack; cost
theorem at_cost {cs : List Addr} {i : Nat} : Cost (at_ cs i : M V Addr) 0 := by
  unfold at_; split
  · exact Cost.pure _
  · exact Cost.ub
macro_rules | `(tactic| cost_fn) => `(tactic| first | exact valOf_cost | exact empty_cost | exact popNode_cost | exact transfer_cost | exact createNode_cost | exact create_cost | exact swap_cost | exact linkBack_cost | exact at_cost)
theorem erase_cost {n : Addr} : Cost (erase l n : M V Addr) 13 := by unfold erase; cost
theorem pushBack_cost {v : Loc} : Cost (pushBack E l v) 19 := by unfold pushBack; cost
macro_rules | `(tactic| cost_fn) => `(tactic| first | exact erase_cost | exact pushBack_cost)

theorem distanceLoop_time {Y : List (Elem V)} {t : Addr} {n : Nat} (ht : ∀ e ∈ Y, e.node ≠ t) (hk : Y.length ≤ k) :
    Triple nf (pathTail Y t) (within k (distanceLoop (firstN Y t) t n)) (fun r => ⌜r = n + Y.length⌝ ∗ pathTail Y t) := by
  induction Y generalizing n k with
  | nil => rw [distanceLoop]; simp only [firstN_nil, ne_eq, not_true_eq_false, ↓reduceIte, within_pure]; apply Triple.ret; cancel
  | cons e Y ih =>
    simp only [List.length_cons] at hk
    rw [distanceLoop, if_pos (by simpa using ht e (by simp))]
    simp only [pathTail, firstN_cons]
    rw [path_first]
    simp only [link]
    stepsP
    call (ih (n := n+1) (fun e he => ht e (by simp [he])) (by omega))
    intro r
    xintro h
    cancel_core
    simp only [h, List.length_cons]; omega

theorem size_time (hk : xs.length + 3 ≤ k) : Triple nf (isList l s ty xs) (within k (size l)) (fun r => ⌜r = xs.length⌝ ∗ isList l s ty xs) := by
  apply list_facts0; intro hl _ hs _
  unfold size
  rw [if_neg hl]
  callP begin_spec
  intro b
  xsub
  callP end_spec
  intro e
  xsub
  simp only [isList, path_first]
  call (distanceLoop_time hs (by omega))
  intro r
  xintro h
  cancel_core
  simpa using h

theorem clearLoop_time {Y : List (Elem V)} {p t : Addr} (ht : ∀ e ∈ Y, e.node ≠ t) (hs : ∀ e ∈ Y, e.node ≠ s) (hk : 13 * Y.length ≤ k) :
    Triple nf (fld l 1 s ∗ path p (nodes Y ++ [t]) ∗ elts Y) (within k (clearLoop l (firstN Y t) t))
      (fun _ => fld l 1 s ∗ link p t) := by
  induction Y generalizing p k with
  | nil => rw [clearLoop]; simp [path, elts, within_pure]; apply Triple.ret; cancel
  | cons e Y ih =>
    simp only [List.length_cons] at hk
    rw [clearLoop, if_pos (by simpa using ht e (by simp))]
    simp only [List.map_cons, List.cons_append, path, path_first, firstN_cons, elts]
    callP (popNode_spec (s := s) (hs e (by simp)))
    intro r
    xsub
    refine Triple.pre ?_ (ih (p := p) (fun e he => ht e (by simp [he])) (fun e he => hs e (by simp [he])) (by omega))
    rw [path_first]
    cancel

theorem clear_time (hk : 13 * xs.length + 6 ≤ k) : Triple nf (isList l s ty xs) (within k (clear l)) (fun _ => isList l s ty []) := by
  apply list_facts0; intro hl _ hs _
  unfold clear
  callP empty_spec
  intro b
  xsub
  cases xs with
  | nil => simp [within_pure]; apply Triple.ret; cancel
  | cons e xs =>
    simp
    callP begin_spec
    intro b
    xsub
    callP end_spec
    intro t
    xsub
    unfold isList hdr
    call (clearLoop_time (s := s) hs hs (by omega))
    intro _
    simp only [path, elts]
    simp [path]
    cancel

theorem destroy_time (hk : 13 * xs.length + 12 ≤ k) : Triple nf (isList l s ty xs) (within k (destroy l)) (fun _ => emp) := by
  apply list_facts0; intro hl hs0 _ _
  unfold destroy
  rw [if_neg hl]
  payW (13 * xs.length + 6)
  call (clear_time (Nat.le_refl _))
  intro _
  unfold isList hdr
  simp [path, link, elts]
  stepsP
  callP free3
  intro _
  stepsP
  payT
  call free2
  intro _
  cancel

end CC.CList
