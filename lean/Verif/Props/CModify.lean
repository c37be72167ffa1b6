import Verif.Algo.Partition
import Verif.Algo.BSearch
import Verif.Algo.MinMax
import Verif.Algo.Link
/-!
# Properties C45, C48–C52: binary searches, modifying algorithms, partitioning, minima and maxima, shuffling, generating

`Rng P c i vs`: in every memory fragment satisfying `P` the container with slots `c` holds the values `vs` in positions `i`, `i + 1`, …; such ranges are only read, may
overlap each other, and the conclusion `… ∗ P` says they are unchanged.  `seg c i vs`: the fragment consists exactly of the elements `vs` in these positions, separate (`∗`) from
everything else; as in any `Triple`, everything outside of the fragment is left as it was.  What is computed is stated with lists (Verif/Spec/Search.lean, Verif/Spec/Rearrange.lean,
Verif/Spec/Order.lean).
-/
namespace CC.Algo
open CC CC.Tac
variable {V : Type} {nf : Prop} {P : HProp V} {c d e : Slots} {i j k : Nat} {vs us ws : List V} {value new : Loc} {w x : V}

/-! ## C45: binary searches -/

/-- `algo_lower_bound_by`: on a range in which the elements less than the value come first, the boundary -/
theorem C45_lower_bound (comp : V → V → Bool) (h : Rng P c i vs) (hw : Reads P value w) (hp : Parted (fun v => comp v w) vs) :
    Triple nf P (lowerBound c i (i + vs.length) value comp) (fun r => ⌜∃ k, r = i + k ∧ SplitAt (fun v => comp v w) vs k⌝ ∗ P) := lowerBound_spec h hw hp

/-- `algo_upper_bound_by`: on a range in which the elements greater than the value come last, the boundary -/
theorem C45_upper_bound (comp : V → V → Bool) (h : Rng P c i vs) (hw : Reads P value w) (hp : Parted (fun v => !comp w v) vs) :
    Triple nf P (upperBound c i (i + vs.length) value comp) (fun r => ⌜∃ k, r = i + k ∧ SplitAt (fun v => !comp w v) vs k⌝ ∗ P) := upperBound_spec h hw hp

/-- `algo_binary_search_by`: is there an element equivalent to the value? -/
theorem C45_binary_search (comp : V → V → Bool) (h : Rng P c i vs) (hw : Reads P value w) (hp : Parted (fun v => comp v w) vs) (hp' : Parted (fun v => !comp w v) vs) :
    Triple nf P (binarySearch c i (i + vs.length) value comp) (fun r => ⌜r = true ↔ ∃ v, v ∈ vs ∧ comp v w = false ∧ comp w v = false⌝ ∗ P) :=
  binarySearch_spec h hw hp hp'

/-- `algo_equal_range_by`: both bounds -/
theorem C45_equal_range (comp : V → V → Bool) (h : Rng P c i vs) (hw : Reads P value w) (hp : Parted (fun v => comp v w) vs) (hp' : Parted (fun v => !comp w v) vs) :
    Triple nf P (equalRange c i (i + vs.length) value comp)
      (fun r => ⌜∃ k l, r = (i + k, i + l) ∧ SplitAt (fun v => comp v w) vs k ∧ SplitAt (fun v => !comp w v) vs l⌝ ∗ P) := equalRange_spec h hw hp hp'

/-- Sorted ranges meet the hypotheses, for every value. -/
theorem C45_sorted (comp : V → V → Bool) (hsw : StrictWeak comp) (w : V) (h : Sorted comp vs) :
    Parted (fun v => comp v w) vs ∧ Parted (fun v => !comp w v) vs := sorted_parted hsw h

/-- Non-vacuity: a sorted range and a value in a memory -/
example : ∃ (m : Mem Nat) (P : HProp Nat) (c : Slots) (l : Loc), P m.cells ∧ Rng P c 0 [1, 3, 3, 7] ∧ Reads P l 3 ∧
    Parted (fun v => decide (v < 3)) [1, 3, 3, 7] ∧ Parted (fun v => !decide (3 < v)) [1, 3, 3, 7] := by
  obtain ⟨m, c, d, l, _, hm⟩ := exists_ranges [1, 3, 3, 7] [] 3
  exact ⟨m, _, c, l, hm, seg_rng.left, Reads.pts.right.right, by simp [Parted], by simp [Parted]⟩

/-! ## C48: modifying algorithms -/

/-- `algo_copy` into a separate destination -/
theorem C48_copy (h : Rng P c i vs) (hl : vs.length ≤ us.length) :
    Triple nf (P ∗ seg d j us) (copy c i (i + vs.length) d j) (fun r => ⌜r = (vs.length, j + vs.length)⌝ ∗ P ∗ seg d j (over us vs)) := copy_spec h hl

/-- `algo_copy` to a place further left in the same container: the destination begins before the source and may overlap it -/
theorem C48_copy_left (X : List V) :
    Triple nf (seg c i (X ++ vs)) (copy c (i + X.length) (i + X.length + vs.length) c i)
      (fun r => ⌜r = (vs.length, i + vs.length)⌝ ∗ seg c i (over (X ++ vs) vs)) := by
  have := copyLoop_left (nf := nf) (c := c) (i := i) (vs := vs) (X := X) (n := 0)
  simp only [Nat.zero_add] at this
  exact this

/-- `algo_copy_if` -/
theorem C48_copy_if (pred : V → Bool) (h : Rng P c i vs) (hl : (vs.filter pred).length ≤ us.length) :
    Triple nf (P ∗ seg d j us) (copyIf c i (i + vs.length) d j pred)
      (fun r => ⌜r = ((vs.filter pred).length, j + (vs.filter pred).length)⌝ ∗ P ∗ seg d j (over us (vs.filter pred))) := copyIf_spec h hl

/-- `algo_copy_backward` into a separate destination: the elements end up in front of `d_last` -/
theorem C48_copy_backward (h : Rng P c i vs) (hl : vs.length ≤ us.length) :
    Triple nf (P ∗ seg d j us) (copyBackward c i (i + vs.length) d (j + us.length))
      (fun r => ⌜r = (vs.length, j + (us.length - vs.length))⌝ ∗ P ∗ seg d j (overBack us vs)) := by
  have := copyBackwardLoop_spec (nf := nf) (n := 0) (d := d) (j := j) h hl
  simp only [Nat.zero_add] at this
  exact this

/-- `algo_copy_backward` to a place further right in the same container, possibly overlapping -/
theorem C48_copy_backward_right (X : List V) :
    Triple nf (seg c i (vs ++ X)) (copyBackward c i (i + vs.length) c (i + vs.length + X.length))
      (fun r => ⌜r = (vs.length, i + X.length)⌝ ∗ seg c i (overBack (vs ++ X) vs)) := by
  have := copyBackwardLoop_right (nf := nf) (c := c) (i := i) (vs := vs) (X := X) (n := 0)
  simp only [Nat.zero_add] at this
  exact this

/-- `algo_fill` -/
theorem C48_fill (hw : Reads P value w) :
    Triple nf (P ∗ seg c i us) (fill c i (i + us.length) value) (fun r => ⌜r = us.length⌝ ∗ P ∗ seg c i (List.replicate us.length w)) := fill_spec hw

/-- `algo_fill_n` -/
theorem C48_fill_n (hw : Reads P value w) :
    Triple nf (P ∗ seg c i us) (fillN c i us.length value) (fun r => ⌜r = i + us.length⌝ ∗ P ∗ seg c i (List.replicate us.length w)) := fillN_spec hw

/-- `algo_transform` into a separate destination -/
theorem C48_transform (op : V → V) (h : Rng P c i vs) (hl : vs.length ≤ us.length) :
    Triple nf (P ∗ seg d j us) (transform c i (i + vs.length) d j op) (fun r => ⌜r = vs.length⌝ ∗ P ∗ seg d j (over us (vs.map op))) := transform_spec h hl

/-- `algo_transform` in place -/
theorem C48_transform_in_place (op : V → V) :
    Triple nf (seg c i vs) (transform c i (i + vs.length) c i op) (fun r => ⌜r = vs.length⌝ ∗ seg c i (vs.map op)) := by
  have := transformLoop_self (nf := nf) (c := c) (i := i) (vs := vs) (op := op) (n := 0)
  simp only [Nat.zero_add] at this
  exact this

/-- `algo_remove`: the remaining elements are moved to the front in their order; behind them are as many (unspecified) elements as were removed -/
theorem C48_remove (eq : V → V → Bool) (hw : Reads P value w) :
    Triple nf (P ∗ seg c i vs) (remove c i (i + vs.length) value eq)
      (fun r => ⌜r = ((vs.filter fun v => eq v w).length, i + (vs.filter fun v => !eq v w).length)⌝ ∗ P ∗
        ∃ₛ T, ⌜T.length = (vs.filter fun v => eq v w).length⌝ ∗ seg c i ((vs.filter fun v => !eq v w) ++ T)) := remove_spec hw

/-- `algo_remove_if` -/
theorem C48_remove_if (pred : V → Bool) :
    Triple nf (seg c i vs) (removeIf c i (i + vs.length) pred)
      (fun r => ⌜r = ((vs.filter pred).length, i + (vs.filter fun v => !pred v).length)⌝ ∗
        ∃ₛ T, ⌜T.length = (vs.filter pred).length⌝ ∗ seg c i ((vs.filter fun v => !pred v) ++ T)) := by
  have := removeIf_spec (nf := nf) (P := emp) (c := c) (i := i) (vs := vs) (pred := pred)
  simp only [emp_sep] at this
  exact this

/-- `algo_remove_copy` -/
theorem C48_remove_copy (eq : V → V → Bool) (h : Rng P c i vs) (hw : Reads P value w) (hl : (vs.filter fun v => !eq v w).length ≤ us.length) :
    Triple nf (P ∗ seg d j us) (removeCopy c i (i + vs.length) d j value eq)
      (fun r => ⌜r = ((vs.filter fun v => !eq v w).length, j + (vs.filter fun v => !eq v w).length)⌝ ∗ P ∗ seg d j (over us (vs.filter fun v => !eq v w))) :=
  removeCopy_spec h hw hl

/-- `algo_remove_copy_if` -/
theorem C48_remove_copy_if (pred : V → Bool) (h : Rng P c i vs) (hl : (vs.filter fun v => !pred v).length ≤ us.length) :
    Triple nf (P ∗ seg d j us) (removeCopyIf c i (i + vs.length) d j pred)
      (fun r => ⌜r = ((vs.filter fun v => !pred v).length, j + (vs.filter fun v => !pred v).length)⌝ ∗ P ∗ seg d j (over us (vs.filter fun v => !pred v))) :=
  removeCopyIf_spec h hl

/-- `algo_replace`; returns the number of replaced elements -/
theorem C48_replace (eq : V → V → Bool) (hw : Reads P value w) (hx : Reads P new x) :
    Triple nf (P ∗ seg c i vs) (replace c i (i + vs.length) value new eq)
      (fun r => ⌜r = (vs.filter fun v => eq v w).length⌝ ∗ P ∗ seg c i (vs.map fun v => if eq v w then x else v)) := replace_spec hw hx

/-- `algo_replace_if` -/
theorem C48_replace_if (pred : V → Bool) (hx : Reads P new x) :
    Triple nf (P ∗ seg c i vs) (replaceIf c i (i + vs.length) pred new)
      (fun r => ⌜r = (vs.filter pred).length⌝ ∗ P ∗ seg c i (vs.map fun v => if pred v then x else v)) := replaceIf_spec hx

/-- `algo_replace_copy` -/
theorem C48_replace_copy (eq : V → V → Bool) (h : Rng P c i vs) (hw : Reads P value w) (hx : Reads P new x) (hl : vs.length ≤ us.length) :
    Triple nf (P ∗ seg d j us) (replaceCopy c i (i + vs.length) d j value new eq)
      (fun r => ⌜r = (vs.length, j + vs.length)⌝ ∗ P ∗ seg d j (over us (vs.map fun v => if eq v w then x else v))) := replaceCopy_spec h hw hx hl

/-- `algo_replace_copy_if` -/
theorem C48_replace_copy_if (pred : V → Bool) (h : Rng P c i vs) (hx : Reads P new x) (hl : vs.length ≤ us.length) :
    Triple nf (P ∗ seg d j us) (replaceCopyIf c i (i + vs.length) d j pred new)
      (fun r => ⌜r = (vs.length, j + vs.length)⌝ ∗ P ∗ seg d j (over us (vs.map fun v => if pred v then x else v))) := replaceCopyIf_spec h hx hl

/-- `algo_swap` and `algo_iter_swap` -/
theorem C48_swap (l l' : Loc) (a b : V) :
    Triple nf (pts l (.obj (some a)) ∗ pts l' (.obj (some b))) (swp l l') (fun _ => pts l (.obj (some b)) ∗ pts l' (.obj (some a))) := swp_pts

/-- `algo_swap_range`: two separate ranges of the same length exchange their contents -/
theorem C48_swap_range (hl : vs.length = us.length) :
    Triple nf (seg c i vs ∗ seg d j us) (swapRange c i (i + vs.length) d j) (fun r => ⌜r = vs.length⌝ ∗ seg c i us ∗ seg d j vs) := by
  have := swapRangeLoop_spec (nf := nf) (c := c) (d := d) (i := i) (j := j) (n := 0) hl
  simp only [Nat.zero_add] at this
  exact this

/-- `algo_reverse` -/
theorem C48_reverse : Triple nf (seg c i vs) (reverse c i (i + vs.length)) (fun r => ⌜r = vs.length⌝ ∗ seg c i vs.reverse) := by
  have := reverseLoop_spec (nf := nf) (c := c) (i := i) (vs := vs) (n := 0)
  simp only [Nat.zero_add] at this
  exact this

/-- `algo_reverse_copy` -/
theorem C48_reverse_copy (h : Rng P c i vs) (hl : vs.length ≤ us.length) :
    Triple nf (P ∗ seg d j us) (reverseCopy c i (i + vs.length) d j) (fun r => ⌜r = (vs.length, j + vs.length)⌝ ∗ P ∗ seg d j (over us vs.reverse)) := reverseCopy_spec h hl

/-- `algo_rotate`: the two parts of the range change places; the new place of the first element is returned -/
theorem C48_rotate (A B : List V) :
    Triple nf (seg c i (A ++ B)) (rotate c i (i + A.length) (i + A.length + B.length)) (fun r => ⌜r = i + B.length⌝ ∗ seg c i (B ++ A)) := rotate_spec

/-- `algo_rotate_copy` -/
theorem C48_rotate_copy (A B : List V) (h : Rng P c i (A ++ B)) (hl : A.length + B.length ≤ us.length) :
    Triple nf (P ∗ seg d j us) (rotateCopy c i (i + A.length) (i + A.length + B.length) d j)
      (fun r => ⌜r = (A.length + B.length, j + A.length + B.length)⌝ ∗ P ∗ seg d j (over us (B ++ A))) := rotateCopy_spec h hl

/-- `algo_unique_by`: only the first element of each run of related elements remains -/
theorem C48_unique (pred : V → V → Bool) :
    Triple nf (seg c i vs) (unique c i (i + vs.length) pred)
      (fun r => ⌜r = ((uniq pred vs).length, i + (uniq pred vs).length)⌝ ∗
        ∃ₛ T, ⌜(uniq pred vs).length + T.length = vs.length⌝ ∗ seg c i (uniq pred vs ++ T)) := unique_spec

/-- `algo_unique_copy_by` -/
theorem C48_unique_copy (pred : V → V → Bool) (h : Rng P c i vs) (hl : (uniq pred vs).length ≤ us.length) :
    Triple nf (P ∗ seg d j us) (uniqueCopy c i (i + vs.length) d j pred)
      (fun r => ⌜r = ((uniq pred vs).length, j + (uniq pred vs).length)⌝ ∗ P ∗ seg d j (over us (uniq pred vs))) := uniqueCopy_spec h hl

/-- Non-vacuity: a memory with a source range, a separate destination and a value -/
example : ∃ (m : Mem Nat) (P : HProp Nat) (c d : Slots) (l : Loc), (P ∗ seg d 0 [0,0,0,0,0,0]) m.cells ∧ Rng P c 0 [3,1,4,1,5] ∧ Reads P l 1 := by
  obtain ⟨m, c, d, l, _, hm⟩ := exists_ranges [3,1,4,1,5] [0,0,0,0,0,0] 1
  refine ⟨m, seg c 0 [3,1,4,1,5] ∗ pts l (.obj (some 1)), c, d, l, ?_, seg_rng.left, Reads.pts.right⟩
  have he : (seg c 0 [3,1,4,1,5] ∗ seg d 0 [0,0,0,0,0,0] ∗ pts l (.obj (some 1))) ⊢ₛ
      ((seg c 0 [3,1,4,1,5] ∗ pts l (.obj (some 1))) ∗ seg d 0 [0,0,0,0,0,0]) := by cancel
  exact he _ hm

/-! ## C49: partitioning -/

/-- `algo_is_partitioned` -/
theorem C49_is_partitioned (pred : V → Bool) (h : Rng P c i vs) :
    Triple nf P (isPartitioned c i (i + vs.length) pred) (fun r => ⌜r = true ↔ Parted pred vs⌝ ∗ P) := isPartitioned_spec h

/-- `algo_partition`: a permutation of the elements, first those with, then those without the property; the boundary is returned -/
theorem C49_partition (pred : V → Bool) :
    Triple nf (seg c i vs) (partition c i (i + vs.length) pred)
      (fun r => ∃ₛ A, ∃ₛ B, ⌜r = i + A.length ∧ (A ++ B).Perm vs ∧ (∀ v, v ∈ A → pred v = true) ∧ (∀ v, v ∈ B → pred v = false)⌝ ∗ seg c i (A ++ B)) := partition_spec

/-- `algo_partition_copy`: both parts in their order into separate destinations -/
theorem C49_partition_copy (pred : V → Bool) (h : Rng P c i vs) (hl : (vs.filter pred).length ≤ us.length) (hl' : (vs.filter fun v => !pred v).length ≤ ws.length) :
    Triple nf (P ∗ seg d j us ∗ seg e k ws) (partitionCopy c i (i + vs.length) d j e k pred)
      (fun r => ⌜r = (vs.length, j + (vs.filter pred).length, k + (vs.filter fun v => !pred v).length)⌝ ∗ P ∗
        seg d j (over us (vs.filter pred)) ∗ seg e k (over ws (vs.filter fun v => !pred v))) := partitionCopy_spec h hl hl'

/-- `algo_partition_point` -/
theorem C49_partition_point (pred : V → Bool) (h : Rng P c i vs) (hp : Parted pred vs) :
    Triple nf P (partitionPoint c i (i + vs.length) pred) (fun r => ⌜∃ k, r = i + k ∧ SplitAt pred vs k⌝ ∗ P) := partitionPoint_spec h hp

/-- Non-vacuity: a range, two separate destinations, and a partitioned range -/
example : ∃ (m : Mem Nat) (c d e : Slots), (seg c 0 [3,1,4,1,5] ∗ seg d 0 [0,0,0,0,0] ∗ seg e 0 [9]) m.cells ∧ Parted (fun v => decide (v < 3)) [2, 1, 3, 4] ∧
    ¬ Parted (fun v => decide (v < 3)) [2, 3, 1, 4] := by
  obtain ⟨m, c, d, l, _, hm⟩ := exists_ranges [3,1,4,1,5] [0,0,0,0,0] 9
  refine ⟨m, c, d, fun _ => l, ?_, by simp [Parted], by simp [Parted]⟩
  rw [seg_one]
  exact hm

/-! ## C50: minima, maxima, clamping, lexicographical comparison -/

/-- `algo_max_element_by`: the first of the greatest elements -/
theorem C50_max_element (comp : V → V → Bool) (hsw : StrictWeak comp) (h : Rng P c i vs) (hne : vs ≠ []) :
    Triple nf P (maxElement c i (i + vs.length) comp) (fun r => ⌜∃ k, r = i + k ∧ IsFirst (At vs fun v => ∀ u, u ∈ vs → comp v u = false) vs.length k⌝ ∗ P) :=
  maxElement_spec hsw h hne

/-- `algo_min_element_by`: the first of the least elements -/
theorem C50_min_element (comp : V → V → Bool) (hsw : StrictWeak comp) (h : Rng P c i vs) (hne : vs ≠ []) :
    Triple nf P (minElement c i (i + vs.length) comp) (fun r => ⌜∃ k, r = i + k ∧ IsFirst (At vs fun v => ∀ u, u ∈ vs → comp u v = false) vs.length k⌝ ∗ P) :=
  minElement_spec hsw h hne

/-- `algo_minmax_element_by` -/
theorem C50_minmax_element (comp : V → V → Bool) (hsw : StrictWeak comp) (h : Rng P c i vs) (hne : vs ≠ []) :
    Triple nf P (minmaxElement c i (i + vs.length) comp)
      (fun r => ⌜∃ k l, r = (i + k, i + l) ∧ IsFirst (At vs fun v => ∀ u, u ∈ vs → comp u v = false) vs.length k ∧
        IsFirst (At vs fun v => ∀ u, u ∈ vs → comp v u = false) vs.length l⌝ ∗ P) := minmaxElement_spec hsw h hne

/-- In an empty range all of them return the end. -/
theorem C50_empty (comp : V → V → Bool) : maxElement c i i comp = pure i ∧ minElement c i i comp = pure i ∧ minmaxElement c i i comp = pure (i, i) := by
  refine ⟨extLoop_empty, extLoop_empty, ?_⟩
  rw [minmaxElement, minmaxLoop, if_neg (by simp)]

/-- `algo_max_by` returns a new object with the greater value (the first one if they are equivalent), or NULL if malloc failed -/
theorem C50_max (comp : V → V → Bool) {l l' : Loc} {a b : V} (hx : Reads P l a) (hy : Reads P l' b) :
    Triple nf P (maxBy l l' comp) (fun r => if r = 0 then ⌜¬ nf⌝ ∗ P else blk r 1 ∗ pts (r, 1) (.obj (some (if comp a b then b else a))) ∗ P) := maxBy_spec hx hy

/-- `algo_min_by` -/
theorem C50_min (comp : V → V → Bool) {l l' : Loc} {a b : V} (hx : Reads P l a) (hy : Reads P l' b) :
    Triple nf P (minBy l l' comp) (fun r => if r = 0 then ⌜¬ nf⌝ ∗ P else blk r 1 ∗ pts (r, 1) (.obj (some (if comp a b then a else b))) ∗ P) := minBy_spec hx hy

/-- `algo_clamp_by`: a new object with a value between the bounds (`lo` not greater than `hi`, which the code asserts) -/
theorem C50_clamp (comp : V → V → Bool) (hsw : StrictWeak comp) {v lo hi : Loc} {a y z : V} (hv : Reads P v a) (hlo : Reads P lo y) (hhi : Reads P hi z) (hlh : comp z y = false) :
    Triple nf P (clamp v lo hi comp) (fun r => if r = 0 then ⌜¬ nf⌝ ∗ P else
      ∃ₛ q, ⌜comp q y = false ∧ comp z q = false ∧ (comp a y = true ∧ q = y ∨ comp a y = false ∧ comp z a = false ∧ comp a z = true ∧ q = a ∨ comp a z = false ∧ q = z)⌝ ∗
        blk r 1 ∗ pts (r, 1) (.obj (some q)) ∗ P) := by
  refine Triple.post (clamp_spec hv hlo hhi hlh) ?_
  intro r
  by_cases hr : r = 0
  · rw [if_pos hr, if_pos hr]; exact ent_refl _
  · rw [if_neg hr, if_neg hr]
    xexists (if comp a z then (if comp a y then y else a) else z)
    cancel
    by_cases h1 : comp a z = true
    · by_cases h2 : comp a y = true
      · simp [h1, h2, hlh, hsw.irrefl]
      · simp [h1, h2, hsw.asymm h1]
    · have h3 : comp a y = false := hsw.negtrans (by simpa using h1) hlh
      simp [h1, hlh, hsw.irrefl]

/-- `algo_lexicographical_compare_by` is the dictionary order. -/
theorem C50_lexicographical_compare (comp : V → V → Bool) (h1 : Rng P c i vs) (h2 : Rng P d j us) :
    Triple nf P (lexCompare c i (i + vs.length) d j (j + us.length) comp) (fun r => ⌜r = true ↔ LexLt comp vs us⌝ ∗ P) := lexLoop_spec h1 h2

/-- Non-vacuity: two ranges and a value -/
example : ∃ (m : Mem Nat) (P : HProp Nat) (c d : Slots) (l : Loc), P m.cells ∧ Rng P c 0 [3,5,1,5,1] ∧ Rng P d 0 [3,5,2] ∧ Reads P l 4 ∧ StrictWeak (fun a b : Nat => decide (a < b)) := by
  obtain ⟨m, c, d, l, _, hm⟩ := exists_ranges [3,5,1,5,1] [3,5,2] 4
  exact ⟨m, _, c, d, l, hm, seg_rng.left, seg_rng.left.right, Reads.pts.right.right, ⟨by simp, by simp; omega, by simp; omega⟩⟩

/-! ## C51: shuffling -/

/-- `algo_random_shuffle_by` permutes, whatever the generator returns, provided `r(k)` is below `k` as documented -/
theorem C51_random_shuffle (r : Nat → Nat) (hr : ∀ k, k < vs.length - 1 → r (k + 1) < k + 2) :
    Triple nf (seg c i vs) (shuffle c i (i + vs.length) r) (fun _ => ∃ₛ ws, ⌜ws.Perm vs⌝ ∗ seg c i ws) := by
  unfold shuffle
  exact shuffleLoop_spec (by omega) (fun k hk => by have := hr k (by omega); omega)

/-- the library's own generator `algo_uniform` has that property, for every value of `rand()` -/
theorem C51_uniform (seed : Nat → Nat) (k : Nat) : uniform (seed k) (k + 2) < k + 2 := uniform_lt (by omega)

/-- Non-vacuity: a range in a memory, and a generator -/
example : ∃ (m : Mem Nat) (c : Slots), (seg c 0 [3,1,4] ∗ seg (fun _ => (7, 7)) 0 [] ∗ (∃ₛ l, pts l (.obj (some 0)))) m.cells ∧ ∀ k, k < 2 → (fun k => k) (k + 1) < k + 2 := by
  obtain ⟨m, c, d, l, _, hm⟩ := exists_ranges [3,1,4] [] 0
  refine ⟨m, c, ?_, fun k hk => by simp⟩
  have he : (seg c 0 [3,1,4] ∗ seg d 0 [] ∗ pts l (.obj (some 0))) ⊢ₛ (seg c 0 [3,1,4] ∗ seg (fun _ => (7, 7)) 0 [] ∗ (∃ₛ l, pts l (.obj (some 0)))) := by
    rw [seg_nil, seg_nil]
    xexists l
    cancel
  exact he _ hm

/-! ## C52: generating -/

/-- `algo_generate` on a range that is not empty: the `n`-th element becomes the result of the `n`-th call -/
theorem C52_generate_partial (gen : Nat → V) (hne : us ≠ []) :
    Triple True (seg c i us) (generate c i (i + us.length) gen) (fun r => ⌜r = us.length⌝ ∗ seg c i ((List.range us.length).map gen)) := generate_spec hne

/-- `algo_generate_n`, also with `n = 0` -/
theorem C52_generate_n (gen : Nat → V) :
    Triple True (seg c i us) (generateN c i us.length gen) (fun r => ⌜r = i + us.length⌝ ∗ seg c i ((List.range us.length).map gen)) := generateN_spec

/-- Defect: `algo_generate` on an empty range (where it should do nothing) destroys its temporary, which has never been constructed. -/
theorem C52_generate_empty_violated (gen : Nat → V) (F : HProp V) : Bad F (generate c i i gen) := by
  unfold generate
  have h1 : Triple True emp (mallocO 1 : M V Addr) (fun a => ⌜a ≠ 0⌝ ∗ blk a 1 ∗ pts (a, 1) (.obj none)) := by
    rw [← bind_pure (mallocO 1)]
    apply mallocO1
    · intro h; exact absurd trivial h
    intro a ha
    apply Triple.ret
    cancel
  refine Bad.pre (P' := emp ∗ F) (by rw [emp_sep]; exact ent_refl _) ?_
  refine Bad.bind h1 ?_
  intro a
  rw [sep_assoc]
  apply Bad.pure_left
  intro ha
  rw [if_neg ha, generateLoop, if_neg (by simp), pure_bind]
  apply Bad.head
  intro s _ hs
  have h2 : s.cells (a, 1) = some (.obj none) := by
    have he : ((blk a 1 ∗ pts (a, 1) (.obj none)) ∗ F) ⊢ₛ (pts (a, 1) (.obj none) ∗ (blk a 1 ∗ F)) := by cancel
    obtain ⟨h₁, h₂, _, he', ⟨_, rfl⟩, _⟩ := he _ hs
    rw [he']
    simp [Heap.union]
  simp [destroyV, load, Bind.bind, StateT.bind, ExceptT.bind, ExceptT.mk, Option.bind, ExceptT.bindCont, h2,
    get, getThe, MonadStateOf.get, StateT.get, set, StateT.set, Pure.pure, StateT.pure, ExceptT.pure, ub, fault]

end CC.Algo
