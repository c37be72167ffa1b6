import Verif.Algo.InPlace
import Verif.Props.CModify
import Verif.Props.CSort
/-!
# Property C95: copying algorithms within one container

The container `c` holds `X ++ vs` from position `i` on; the source of the algorithm is `vs`, its destination begins at position `i`, i.e. `X.length` positions before the source (at the source itself, in place, if
`X = []`).  Source and destination overlap if the result is longer than `X`.  The result is what a separate destination would receive, written over the front of `X ++ vs`.
`P` is the rest of the memory, which contains the value arguments and the second ranges.
-/
namespace CC.Algo
open CC CC.Tac
variable {V : Type} {nf : Prop} {P : HProp V} {c c' d : Slots} {i i' j : Nat} {X vs us ws ys : List V} {value new : Loc} {w x : V} {comp : V → V → Bool}

theorem of_left {us zs : List V} {r : Nat × Nat} : Left P c i 0 us zs r ⊢ₛ (⌜r = (zs.length, i + zs.length)⌝ ∗ seg c i (over us zs) ∗ P) := by
  unfold Left
  rw [Nat.zero_add]
  exact ent_refl _

/-- `algo_copy` -/
theorem C95_copy : Triple nf (seg c i (X ++ vs) ∗ P) (copy c (i + X.length) (i + X.length + vs.length) c i)
    (fun r => ⌜r = (vs.length, i + vs.length)⌝ ∗ seg c i (over (X ++ vs) vs) ∗ P) := Triple.post copyLoop_left' fun _ => of_left

/-- `algo_copy_if` -/
theorem C95_copy_if (pred : V → Bool) : Triple nf (seg c i (X ++ vs) ∗ P) (copyIf c (i + X.length) (i + X.length + vs.length) c i pred)
    (fun r => ⌜r = ((vs.filter pred).length, i + (vs.filter pred).length)⌝ ∗ seg c i (over (X ++ vs) (vs.filter pred)) ∗ P) := Triple.post (copyIfLoop_left decides_test) fun _ => of_left

/-- `algo_remove_copy` -/
theorem C95_remove_copy (eq : V → V → Bool) (hw : Reads P value w) : Triple nf (seg c i (X ++ vs) ∗ P) (removeCopy c (i + X.length) (i + X.length + vs.length) c i value eq)
    (fun r => ⌜r = ((vs.filter fun v => !eq v w).length, i + (vs.filter fun v => !eq v w).length)⌝ ∗ seg c i (over (X ++ vs) (vs.filter fun v => !eq v w)) ∗ P) :=
  Triple.post (copyIfLoop_left (decides_cmp hw).not) fun _ => of_left

/-- `algo_remove_copy_if` -/
theorem C95_remove_copy_if (pred : V → Bool) : Triple nf (seg c i (X ++ vs) ∗ P) (removeCopyIf c (i + X.length) (i + X.length + vs.length) c i pred)
    (fun r => ⌜r = ((vs.filter fun v => !pred v).length, i + (vs.filter fun v => !pred v).length)⌝ ∗ seg c i (over (X ++ vs) (vs.filter fun v => !pred v)) ∗ P) :=
  Triple.post (copyIfLoop_left decides_test.not) fun _ => of_left

/-- `algo_replace_copy` -/
theorem C95_replace_copy (eq : V → V → Bool) (hw : Reads P value w) (hx : Reads P new x) :
    Triple nf (seg c i (X ++ vs) ∗ P) (replaceCopy c (i + X.length) (i + X.length + vs.length) c i value new eq)
      (fun r => ⌜r = (vs.length, i + vs.length)⌝ ∗ seg c i (over (X ++ vs) (vs.map fun v => if eq v w then x else v)) ∗ P) := by
  refine Triple.post (replaceCopyLoop_left (decides_cmp hw) hx) fun r => ent_trans of_left ?_
  rw [List.length_map]
  exact ent_refl _

/-- `algo_replace_copy_if` -/
theorem C95_replace_copy_if (pred : V → Bool) (hx : Reads P new x) :
    Triple nf (seg c i (X ++ vs) ∗ P) (replaceCopyIf c (i + X.length) (i + X.length + vs.length) c i pred new)
      (fun r => ⌜r = (vs.length, i + vs.length)⌝ ∗ seg c i (over (X ++ vs) (vs.map fun v => if pred v then x else v)) ∗ P) := by
  refine Triple.post (replaceCopyLoop_left decides_test hx) fun r => ent_trans of_left ?_
  rw [List.length_map]
  exact ent_refl _

/-- `algo_transform` -/
theorem C95_transform (op : V → V) : Triple nf (seg c i (X ++ vs) ∗ P) (transform c (i + X.length) (i + X.length + vs.length) c i op)
    (fun r => ⌜r = vs.length⌝ ∗ seg c i (over (X ++ vs) (vs.map op)) ∗ P) := by
  have := transformLoop_left (nf := nf) (P := P) (c := c) (i := i) (n := 0) (X := X) (vs := vs) (op := op)
  rw [Nat.zero_add] at this
  exact this

/-- `algo_unique_copy` -/
theorem C95_unique_copy (pred : V → V → Bool) : Triple nf (seg c i (X ++ vs) ∗ P) (uniqueCopy c (i + X.length) (i + X.length + vs.length) c i pred)
    (fun r => ⌜r = ((uniq pred vs).length, i + (uniq pred vs).length)⌝ ∗ seg c i (over (X ++ vs) (uniq pred vs)) ∗ P) := Triple.post uniqueCopy_left fun _ => of_left

/-- `algo_partition_copy`, the elements that satisfy the predicate within the container, the others to a separate destination -/
theorem C95_partition_copy (pred : V → Bool) (hl : (vs.filter fun v => !pred v).length ≤ ws.length) :
    Triple nf (seg c i (X ++ vs) ∗ seg d j ws ∗ P) (partitionCopy c (i + X.length) (i + X.length + vs.length) c i d j pred)
      (fun r => ⌜r = (vs.length, i + (vs.filter pred).length, j + (vs.filter fun v => !pred v).length)⌝ ∗
        seg c i (over (X ++ vs) (vs.filter pred)) ∗ seg d j (over ws (vs.filter fun v => !pred v)) ∗ P) := by
  have := partitionCopyLoop_left (nf := nf) (P := P) (c := c) (i := i) (n := 0) (X := X) (vs := vs) (e := d) (k := j) hl
  rw [Nat.zero_add] at this
  exact this

/-- `algo_set_intersection_by`: the common elements of `vs` and `ys` replace the front of the container -/
theorem C95_set_intersection (hsw : StrictWeak comp) (hR : Rng P c' i' ys) (hx : Sorted comp vs) (hy : Sorted comp ys) :
    Triple nf (seg c i (X ++ vs) ∗ P) (setIntersection c (i + X.length) (i + X.length + vs.length) c' i' (i' + ys.length) c i comp)
      (fun r => ∃ₛ zs, ⌜IsIntersection comp vs ys zs ∧ r = (zs.length, i + zs.length)⌝ ∗ seg c i (over (X ++ vs) zs) ∗ P) := by
  refine Triple.post (intersectionLoop_left hR) fun r => ent_trans of_left ?_
  refine ent_pure_left fun hr => ent_ex_right (setL comp false false true vs ys) (ent_pure_right ?_ (ent_refl _))
  refine ⟨⟨setL_sorted hsw hx hy, fun a => ?_⟩, hr⟩
  rw [setL_cls hsw hx hy]
  simp

/-- `algo_set_difference_by`: what C46 says about a separate destination, in particular the difference of `vs` and `ys` under the condition given there -/
theorem C95_set_difference (hsw : StrictWeak comp) (hR : Rng P c' i' ys) (hy : Sorted comp ys) :
    Triple nf (seg c i (X ++ vs) ∗ P) (setDifference c (i + X.length) (i + X.length + vs.length) c' i' (i' + ys.length) c i comp)
      (fun r => ⌜r = ((struck comp vs ys).length, i + (struck comp vs ys).length)⌝ ∗ seg c i (over (X ++ vs) (struck comp vs ys)) ∗ P) := by
  refine Triple.post (difference_left (n := 0) hR) fun r => ent_trans of_left ?_
  rw [diffL_struck hsw hy]
  exact ent_refl _

/-- The direction matters: `algo_copy` to a place `k > 0` positions behind, in the same container, repeats the first `k` elements wherever source and destination overlap (`algo_copy_backward` is
right there, C48). -/
theorem C95_copy_right {k n : Nat} (hk : 0 < k) (hn : n + k ≤ vs.length) :
    Triple nf (seg c i vs ∗ P) (copy c i (i + n) c (i + k))
      (fun r => ∃ₛ zs, ⌜r = (n, i + n + k) ∧ zs.length = vs.length ∧ ∀ p, zs[p]? = if k ≤ p ∧ p < n + k then vs[p % k]? else vs[p]?⌝ ∗ seg c i zs ∗ P) := by
  have := copyLoop_right (nf := nf) (P := P) (c := c) (i := i) (vs := vs) (us := vs) (k := k) (a := 0) (b := n) (n := 0) hk (Nat.zero_le _) hn rfl (by
    intro p
    rw [if_neg (by omega)])
  rw [Nat.zero_add, Nat.sub_zero] at this
  exact this

/-- the hypotheses are met: a container holding `[7, 7, 8, 9]`, of which `[7, 8, 9]` is the source, a separate sorted range `[8, 9]`, and a value -/
example : ∃ (m : Mem Nat) (c d : Slots) (l : Loc) (P : HProp Nat), (seg c 0 ([7] ++ [7, 8, 9]) ∗ P) m.cells ∧ Rng P d 0 [8, 9] ∧ Reads P l 7 ∧
    Sorted (fun a b : Nat => decide (a < b)) [7, 8, 9] ∧ Sorted (fun a b : Nat => decide (a < b)) [8, 9] := by
  obtain ⟨m, c, d, l, _, hm⟩ := exists_ranges [7, 7, 8, 9] [8, 9] 7
  exact ⟨m, c, d, l, _, hm, seg_rng.left, Reads.pts.right, by simp [Sorted], by simp [Sorted]⟩

/-- and the results are what they should be -/
example : over ([7] ++ [7, 8, 9]) ([7, 8, 9].filter fun v => v != 8) = [7, 9, 8, 9] := by decide

end CC.Algo
