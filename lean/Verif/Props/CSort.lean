import Verif.Algo.SortExact
import Verif.Algo.SetOp
import Verif.Algo.Link
/-!
# Properties C41–C44, C46: sorting, heaps, set operations

`Rng P c i vs`: in every memory fragment satisfying `P` the container with slots `c` holds the values `vs` in positions `i`, `i + 1`, …; such ranges are only read.
`seg c i vs`: the fragment consists exactly of the elements `vs` in these positions.  As in any `Triple` the program has no undefined behaviour, terminates, and leaves everything
outside of the fragment as it was.  Specifications: Verif/Spec/Order.lean (`StrictWeak`, `Sorted`), Verif/Spec/Heap.lean (`IsHeap`), Verif/Spec/SetOp.lean.
-/
namespace CC.Algo
open CC CC.Tac
variable {V : Type} {nf : Prop} {P : HProp V} {c c' d e : Slots} {i i' j k : Nat} {vs us ws xs ys : List V} {comp : V → V → Bool}

/-! ## C41: sort -/

/-- `algo_sort_by` on at most 512 elements: a sorted permutation -/
theorem C41_sort_short_partial (hsw : StrictWeak comp) (hn : vs.length ≤ 512) :
    Triple nf (seg c i vs) (sort c i (i + vs.length) comp) (fun _ => ∃ₛ ws, ⌜ws.Perm vs ∧ Sorted comp ws⌝ ∗ seg c i ws) := sort_small hsw hn

/-- `algo_sort_by` on any range: in bounds, terminates, the result is sorted and contains no strange elements.  Missing: that no element is lost (it is not true, see below). -/
theorem C41_sort_any_partial (hsw : StrictWeak comp) :
    Triple nf (seg c i vs) (sort c i (i + vs.length) comp) (fun _ => ∃ₛ ws, ⌜ws.length = vs.length ∧ Sorted comp ws ∧ (∀ x, x ∈ ws → x ∈ vs)⌝ ∗ seg c i ws) := sort_any hsw

/-- `algo_sort_by` on more than 512 elements, exactly: the partitioning phase leaves a permutation `A ++ B` of the range, made of ascending blocks, where `A` are the first 512 elements;
the last phase sorts `A` and replaces each element behind by the largest one up to there.  So the result is a permutation of the range if and only if `B` happens to be in order already. -/
theorem C41_sort_exact_partial (hsw : StrictWeak comp) (hn : 512 < vs.length) :
    Triple nf (seg c i vs) (sort c i (i + vs.length) comp) (fun _ => ∃ₛ A, ∃ₛ B, ∃ₛ H, ∃ₛ a,
      ⌜((A ++ B).Perm vs ∧ InBlocks comp (A ++ B) ∧ A.length = 512) ∧ ((H ++ [a]).Perm A ∧ Sorted comp (H ++ [a])) ∧
        ((H ++ [a] ++ raised comp a B).Perm vs ↔ Sorted comp (H ++ [a] ++ B))⌝ ∗ seg c i (H ++ [a] ++ raised comp a B)) := by
  refine Triple.post (sort_exact hsw hn) ?_
  intro _
  xintro A B H a h
  xexists A, B, H, a
  rw [raised_eq]
  cancel
  exact ⟨⟨h.1.1, h.1.2.1, h.1.2.2.1⟩, h.2, exact_perm hsw h.1.1 h.2.1 h.2.2⟩

/-- `algo_sort_by` on a range of any length that is in order: it stays in order and nothing is lost. -/
theorem C41_sort_sorted_partial (hsw : StrictWeak comp) (hs : Sorted comp vs) :
    Triple nf (seg c i vs) (sort c i (i + vs.length) comp) (fun _ => ∃ₛ ws, ⌜ws.Perm vs ∧ Sorted comp ws⌝ ∗ seg c i ws) := sort_in_order hsw hs

/-- `algo_sort_by` on a range of any length: a smallest element of the range comes first, a largest one last. -/
theorem C41_sort_ends_partial (hsw : StrictWeak comp) (hne : vs ≠ []) :
    Triple nf (seg c i vs) (sort c i (i + vs.length) comp) (fun _ => ∃ₛ ws, ⌜ws.length = vs.length ∧ Sorted comp ws ∧ (∀ x, x ∈ ws → x ∈ vs) ∧
      (∃ x rest, ws = x :: rest ∧ ∀ v, v ∈ vs → comp v x = false) ∧ (∃ y rest, ws = rest ++ [y] ∧ ∀ v, v ∈ vs → comp y v = false)⌝ ∗ seg c i ws) := sort_extremes hsw hne

/-- The partitioning phase alone permutes, for any length and depth limit. -/
theorem C41_introsort_permutes (hsw : StrictWeak comp) (depth : Nat) :
    Triple nf (seg c i vs) (introsort c comp depth i (i + vs.length)) (fun _ => ∃ₛ ws, ⌜ws.Perm vs⌝ ∗ seg c i ws) := introsort_spec hsw depth

/-- Defect: there is a range of 513 numbers such that `algo_sort_by` with `<` leaves something that is not a permutation of it: the number 1 was in the range and is in it no more. -/
theorem C41_sort_long_violated : ∃ vs : List Nat, vs.length = 513 ∧ ∀ (nf : Prop) (c : Slots) (i : Nat),
    Triple nf (seg c i vs) (sort c i (i + vs.length) (fun a b => decide (a < b))) (fun _ => ∃ₛ ws, ⌜1 ∈ vs ∧ ¬ 1 ∈ ws ∧ ¬ ws.Perm vs⌝ ∗ seg c i ws) := by
  refine ⟨tab 513 lostF, tab_length, ?_⟩
  intro nf c i
  rw [tab_length]
  refine Triple.post sort_lost ?_
  intro _
  xintro ws hws
  have hp : 1 ∈ tab 513 lostF ∧ ¬ 1 ∈ ws ∧ ¬ ws.Perm (tab 513 lostF) := ⟨hws.1, hws.2, fun h => hws.2 (h.mem_iff.2 hws.1)⟩
  xexists ws
  generalize tab 513 lostF = T at hp
  cancel

/-- Non-vacuity: memories with ranges of any contents exist, and the order is a strict weak order. -/
example : ∃ (m : Mem Nat) (c : Slots) (F : HProp Nat), (seg c 0 [3, 1, 4, 1, 5] ∗ F) m.cells ∧ StrictWeak (fun a b : Nat => decide (a < b)) := by
  obtain ⟨m, c, d, l, _, hm⟩ := exists_ranges [3, 1, 4, 1, 5] [] 0
  exact ⟨m, c, _, hm, ltN_sw⟩

/-- Non-vacuity: ranges of more than 512 elements that are not in order exist (those of C41_sort_sorted_partial may be empty or constant). -/
example (n : Nat) : ∃ (m : Mem Nat) (c : Slots) (F : HProp Nat) (vs : List Nat), 512 < vs.length ∧ ¬ Sorted (fun a b : Nat => decide (a < b)) vs ∧ (seg c 0 vs ∗ F) m.cells := by
  obtain ⟨m, c, d, l, _, hm⟩ := exists_ranges (2 :: 1 :: List.replicate (600 + n) 7) [] 0
  refine ⟨m, c, _, _, ?_, ?_, hm⟩
  · simp; omega
  · intro h
    have := (List.pairwise_cons.1 h).1 1 (by simp)
    simp at this

/-! ## C42: partial sorts -/

/-- `algo_partial_sort_by`: the smallest elements sorted in front, the others behind, a permutation altogether -/
theorem C42_partial_sort (hsw : StrictWeak comp) (A B : List V) :
    Triple nf (seg c i (A ++ B)) (partialSort c i (i + A.length) (i + A.length + B.length) comp)
      (fun _ => ∃ₛ A', ∃ₛ B', ⌜(A' ++ B').Perm (A ++ B) ∧ A'.length = A.length ∧ Sorted comp A' ∧ (∀ a, a ∈ A' → ∀ b, b ∈ B' → comp b a = false)⌝ ∗
        seg c i (A' ++ B')) := partialSort_spec hsw

/-- `algo_partial_sort_copy_by`: the `min` of both lengths smallest elements, sorted, at the beginning of the destination; the number and the end of them -/
theorem C42_partial_sort_copy (hsw : StrictWeak comp) (hR : Rng P c i vs) :
    Triple nf (P ∗ seg d j us) (partialSortCopy c i (i + vs.length) d j (j + us.length) comp)
      (fun r => ⌜r = (min vs.length us.length, j + min vs.length us.length)⌝ ∗ P ∗
        ∃ₛ ws, ∃ₛ rest, ⌜(ws ++ rest).Perm vs ∧ ws.length = min vs.length us.length ∧ Sorted comp ws ∧ (∀ a, a ∈ ws → ∀ b, b ∈ rest → comp b a = false)⌝ ∗
        seg d j (over us ws)) := partialSortCopy_spec hsw hR

/-- Non-vacuity: a source and a destination -/
example : ∃ (m : Mem Nat) (c d : Slots) (F : HProp Nat), (seg c 0 [3, 1, 4, 1, 5] ∗ seg d 0 [0, 0, 0] ∗ F) m.cells := by
  obtain ⟨m, c, d, l, _, hm⟩ := exists_ranges [3, 1, 4, 1, 5] [0, 0, 0] 0
  exact ⟨m, c, d, _, hm⟩

/-! ## C43: heaps -/

/-- `algo_make_heap_by` -/
theorem C43_make_heap (hsw : StrictWeak comp) :
    Triple nf (seg c i vs) (makeHeap c i (i + vs.length) comp) (fun _ => ∃ₛ ws, ⌜ws.Perm vs ∧ IsHeap comp ws⌝ ∗ seg c i ws) := makeHeap_spec hsw

/-- `algo_push_heap_by`: a heap with one more element behind it becomes a heap -/
theorem C43_push_heap (hsw : StrictWeak comp) (v : V) (hh : IsHeap comp vs) :
    Triple nf (seg c i (vs ++ [v])) (pushHeap c i (i + (vs ++ [v]).length) comp) (fun _ => ∃ₛ ws, ⌜ws.Perm (vs ++ [v]) ∧ IsHeap comp ws⌝ ∗ seg c i ws) := by
  rw [List.length_append, List.length_singleton]
  exact pushHeap_spec hsw hh

/-- `algo_pop_heap_by`: a maximum goes to the end, the others remain a heap -/
theorem C43_pop_heap (hsw : StrictWeak comp) (hne : vs ≠ []) (hh : IsHeap comp vs) :
    Triple nf (seg c i vs) (popHeap c i (i + vs.length) comp)
      (fun _ => ∃ₛ ws, ∃ₛ a, ⌜(ws ++ [a]).Perm vs ∧ IsHeap comp ws ∧ IsMax comp vs a⌝ ∗ seg c i (ws ++ [a])) := by
  obtain ⟨a, vs, rfl⟩ := List.exists_cons_of_ne_nil hne
  refine Triple.post (popHeap_spec hsw hh) ?_
  intro _
  xintro ws hws
  xexists ws, a
  cancel
  refine ⟨(List.perm_append_comm (l₁ := ws) (l₂ := [a])).trans (List.Perm.cons a hws.1), hws.2, by simp, IsHeap.top hsw hh⟩

/-- `algo_sort_heap_by` -/
theorem C43_sort_heap (hsw : StrictWeak comp) (hh : IsHeap comp vs) :
    Triple nf (seg c i vs) (sortHeap c i (i + vs.length) comp) (fun _ => ∃ₛ ws, ⌜ws.Perm vs ∧ Sorted comp ws⌝ ∗ seg c i ws) := sortHeap_spec hsw hh

/-- `algo_is_heap_by` -/
theorem C43_is_heap (hR : Rng P c i vs) : Triple nf P (isHeap c i (i + vs.length) comp) (fun r => ⌜r = true ↔ IsHeap comp vs⌝ ∗ P) := isHeap_spec hR

/-- The first element of a heap is a maximum. -/
theorem C43_top (hsw : StrictWeak comp) (a : V) (hh : IsHeap comp (a :: vs)) : IsMax comp (a :: vs) a := ⟨by simp, IsHeap.top hsw hh⟩

/-- Non-vacuity: a heap in a memory (that this list is a heap: Verif/Spec/Heap.lean) -/
example : ∃ (m : Mem Nat) (c : Slots) (F : HProp Nat), (seg c 0 [9, 5, 8, 1, 5] ∗ F) m.cells ∧ IsHeap (fun a b : Nat => decide (a < b)) [9, 5, 8, 1, 5] := by
  obtain ⟨m, c, d, l, _, hm⟩ := exists_ranges [9, 5, 8, 1, 5] [] 0
  refine ⟨m, c, _, hm, ?_⟩
  intro k a b hk ha hb
  match k, hk with
  | 1, _ | 2, _ | 3, _ | 4, _ => simp at ha hb; subst ha hb; rfl
  | k + 5, _ => simp at hb

/-! ## C44: longest valid prefixes -/

/-- `algo_is_sorted_by` -/
theorem C44_is_sorted (hsw : StrictWeak comp) (hR : Rng P c i vs) :
    Triple nf P (isSorted c i (i + vs.length) comp) (fun r => ⌜r = true ↔ Sorted comp vs⌝ ∗ P) := isSorted_spec hsw hR

/-- `algo_is_sorted_until_by` on sorted ranges returns the end. -/
theorem C44_is_sorted_until_partial (hsw : StrictWeak comp) (hR : Rng P c i vs) (hs : Sorted comp vs) :
    Triple nf P (isSortedUntil c i (i + vs.length) comp) (fun r => ⌜r = i + vs.length⌝ ∗ P) := by
  refine Triple.post (isSortedUntil_spec hsw hR) ?_
  intro r
  xintro hr
  cancel
  rcases hr with h | ⟨k, _, _, _, h⟩
  · exact h.2
  · exact absurd (List.Pairwise.sublist (List.take_sublist _ _) hs) h

/-- `algo_is_heap_until_by` on heaps returns the end. -/
theorem C44_is_heap_until_partial (hR : Rng P c i vs) (hs : IsHeap comp vs) :
    Triple nf P (isHeapUntil c i (i + vs.length) comp) (fun r => ⌜r = i + vs.length⌝ ∗ P) := by
  refine Triple.post (isHeapUntil_spec hR) ?_
  intro r
  xintro hr
  cancel
  rcases hr with h | ⟨k, _, _, _, h⟩
  · exact h.2
  · refine absurd (fun l x y h0 hx hy => ?_) h
    rw [List.getElem?_take] at hx hy
    split at hy
    · rw [if_pos (by omega)] at hx
      exact hs l x y h0 hx hy
    · cases hy

/-- Defect: on *every* range that is not sorted the result of `algo_is_sorted_until_by` is one too small: the prefix with one more element is sorted. -/
theorem C44_is_sorted_until_violated (hsw : StrictWeak comp) (hR : Rng P c i vs) (hs : ¬ Sorted comp vs) :
    Triple nf P (isSortedUntil c i (i + vs.length) comp) (fun r => ⌜∃ k, r = i + k ∧ k + 1 < vs.length ∧ Sorted comp (vs.take (k + 1)) ∧ ¬ Sorted comp (vs.take (k + 2))⌝ ∗ P) := by
  refine Triple.post (isSortedUntil_spec hsw hR) ?_
  intro r
  xintro hr
  cancel
  rcases hr with h | ⟨k, h1, h2, h3, h4⟩
  · exact absurd h.1 hs
  · exact ⟨k, h2, h1, h3, h4⟩

/-- Defect: on *every* range that is not a heap the result of `algo_is_heap_until_by` is too small: it is some `q`, and the prefix with `2 * q + 1` elements is a heap. -/
theorem C44_is_heap_until_violated (hR : Rng P c i vs) (hs : ¬ IsHeap comp vs) :
    Triple nf P (isHeapUntil c i (i + vs.length) comp)
      (fun r => ⌜∃ q, r = i + q ∧ q < 2 * q + 1 ∧ 2 * q + 1 < vs.length ∧ IsHeap comp (vs.take (2 * q + 1)) ∧ ¬ IsHeap comp (vs.take (2 * q + 3))⌝ ∗ P) := by
  refine Triple.post (isHeapUntil_spec hR) ?_
  intro r
  xintro hr
  cancel
  rcases hr with h | ⟨k, h1, h2, h3, h4⟩
  · exact absurd h.1 hs
  · exact ⟨k, h2, by omega, h1, h3, h4⟩

/-- Non-vacuity: a range that is neither sorted nor a heap -/
example : ∃ (m : Mem Nat) (P : HProp Nat) (c : Slots), P m.cells ∧ Rng P c 0 [1, 2, 0] ∧ ¬ Sorted (fun a b : Nat => decide (a < b)) [1, 2, 0] ∧
    ¬ IsHeap (fun a b : Nat => decide (a < b)) [1, 2, 0] := by
  obtain ⟨m, c, d, l, _, hm⟩ := exists_ranges [1, 2, 0] [] 0
  refine ⟨m, _, c, hm, seg_rng.left, by simp [Sorted], ?_⟩
  intro h
  have := h 1 1 2 (by omega) rfl rfl
  simp at this

/-! ## C46: set operations

Both inputs are only read (and may even be the same range); the destination is separate from them, and long enough. -/

/-- `algo_merge_by`: a sorted permutation of both inputs; of equivalent elements those of the second range come first, in the order of the inputs -/
theorem C46_merge (hsw : StrictWeak comp) (hR : Rng P c i xs) (hR' : Rng P c' i' ys) (hx : Sorted comp xs) (hy : Sorted comp ys) (hl : xs.length + ys.length ≤ us.length) :
    Triple nf (P ∗ seg d j us) (merge c i (i + xs.length) c' i' (i' + ys.length) d j comp)
      (fun r => ∃ₛ zs, ⌜zs.Perm (xs ++ ys) ∧ Sorted comp zs ∧ StableOf comp (ys ++ xs) zs ∧ r = (zs.length, j + zs.length)⌝ ∗ P ∗ seg d j (over us zs)) := by
  refine Triple.post (mergeLoop_spec (n := 0) hR hR' hl) ?_
  intro r
  unfold Out
  xintro hr
  xexists mergeL comp ys xs
  cancel
  refine ⟨(mergeL_perm _ _ _).trans List.perm_append_comm, mergeL_sorted hsw hy hx, mergeL_stable hsw hy, ?_⟩
  rw [hr, Nat.zero_add]

/-- `algo_includes_by` -/
theorem C46_includes (hsw : StrictWeak comp) (hR : Rng P c i xs) (hR' : Rng P c' i' ys) (hx : Sorted comp xs) (hy : Sorted comp ys) :
    Triple nf P (includes c i (i + xs.length) c' i' (i' + ys.length) comp) (fun r => ⌜r = true ↔ Includes comp xs ys⌝ ∗ P) := includes_spec hsw hR hR' hx hy

theorem setL_length_le {e1 e2 e3 : Bool} : (setL comp e1 e2 e3 xs ys).length ≤ xs.length + ys.length := by
  induction xs, ys using setInd (lt := comp) with
  | case1 ys => rw [setL_nil_left]; split <;> simp
  | case2 xs => rw [setL_nil_right]; split <;> simp
  | case3 x xs y ys h ih => rw [setL_cons, if_pos h]; simp only [List.length_append, List.length_cons] at ih ⊢; split <;> simp <;> omega
  | case4 x xs y ys h h' ih => rw [setL_cons, if_neg h, if_pos h']; simp only [List.length_append, List.length_cons] at ih ⊢; split <;> simp <;> omega
  | case5 x xs y ys h h' ih => rw [setL_cons, if_neg h, if_neg h']; simp only [List.length_append, List.length_cons] at ih ⊢; split <;> simp <;> omega

/-- `algo_set_union_by` -/
theorem C46_union (hsw : StrictWeak comp) (hR : Rng P c i xs) (hR' : Rng P c' i' ys) (hx : Sorted comp xs) (hy : Sorted comp ys) (hl : xs.length + ys.length ≤ us.length) :
    Triple nf (P ∗ seg d j us) (setUnion c i (i + xs.length) c' i' (i' + ys.length) d j comp)
      (fun r => ∃ₛ zs, ⌜IsUnion comp xs ys zs ∧ r = (zs.length, j + zs.length)⌝ ∗ P ∗ seg d j (over us zs)) := by
  refine Triple.post (unionLoop_spec (n := 0) hR hR' (Nat.le_trans setL_length_le hl)) ?_
  intro r
  unfold Out
  xintro hr
  xexists setL comp true true true xs ys
  cancel
  refine ⟨⟨setL_sorted hsw hx hy, fun a => ?_⟩, by rw [hr, Nat.zero_add]⟩
  rw [setL_cls hsw hx hy]
  simp

/-- `algo_set_intersection_by`: the destination needs no more room than the first range -/
theorem C46_intersection (hsw : StrictWeak comp) (hR : Rng P c i xs) (hR' : Rng P c' i' ys) (hx : Sorted comp xs) (hy : Sorted comp ys) (hl : xs.length ≤ us.length) :
    Triple nf (P ∗ seg d j us) (setIntersection c i (i + xs.length) c' i' (i' + ys.length) d j comp)
      (fun r => ∃ₛ zs, ⌜IsIntersection comp xs ys zs ∧ r = (zs.length, j + zs.length)⌝ ∗ P ∗ seg d j (over us zs)) := by
  have hle : (setL comp false false true xs ys).length ≤ xs.length := by
    clear hl hR hR' hx hy
    induction xs, ys using setInd (lt := comp) with
    | case1 ys => rw [setL_nil_left]; simp
    | case2 xs => rw [setL_nil_right]; simp
    | case3 x xs y ys h ih => rw [setL_cons, if_pos h]; simp only [List.length_append, List.length_cons] at ih ⊢; simp; omega
    | case4 x xs y ys h h' ih => rw [setL_cons, if_neg h, if_pos h']; simp only [List.length_append, List.length_cons] at ih ⊢; simp; omega
    | case5 x xs y ys h h' ih => rw [setL_cons, if_neg h, if_neg h']; simp only [List.length_append, List.length_cons] at ih ⊢; simp; omega
  refine Triple.post (intersectionLoop_spec (n := 0) hR hR' (Nat.le_trans hle hl)) ?_
  intro r
  unfold Out
  xintro hr
  xexists setL comp false false true xs ys
  cancel
  refine ⟨⟨setL_sorted hsw hx hy, fun a => ?_⟩, by rw [hr, Nat.zero_add]⟩
  rw [setL_cls hsw hx hy]
  simp

/-- `algo_set_symmetric_difference_by` -/
theorem C46_symmetric_difference (hsw : StrictWeak comp) (hR : Rng P c i xs) (hR' : Rng P c' i' ys) (hx : Sorted comp xs) (hy : Sorted comp ys) (hl : xs.length + ys.length ≤ us.length) :
    Triple nf (P ∗ seg d j us) (setSymDifference c i (i + xs.length) c' i' (i' + ys.length) d j comp)
      (fun r => ∃ₛ zs, ⌜IsSymDifference comp xs ys zs ∧ r = (zs.length, j + zs.length)⌝ ∗ P ∗ seg d j (over us zs)) := by
  refine Triple.post (symDifferenceLoop_spec (n := 0) hR hR' (Nat.le_trans setL_length_le hl)) ?_
  intro r
  unfold Out
  xintro hr
  xexists setL comp true true false xs ys
  cancel
  refine ⟨⟨setL_sorted hsw hx hy, fun a => ?_⟩, by rw [hr, Nat.zero_add]⟩
  rw [setL_cls hsw hx hy]
  simp

theorem struck_nil {ys : List V} : struck comp [] ys = [] := by
  induction ys with
  | nil => rfl
  | cons y ys ih => exact ih

theorem struck_low {x : V} {xs ys : List V} (h : ∀ y ∈ ys, comp x y = true) : struck comp (x :: xs) ys = x :: struck comp xs ys := by
  induction ys generalizing xs with
  | nil => rfl
  | cons y ys ih =>
    show struck comp ((x :: xs).eraseP _) ys = x :: struck comp (xs.eraseP _) ys
    rw [List.eraseP_cons_of_neg (by rw [h y (by simp)]; simp)]
    exact ih fun z hz => h z (by simp [hz])

theorem diffL_struck (hsw : StrictWeak comp) (hy : Sorted comp ys) : diffL comp xs ys = struck comp xs ys := by
  induction xs generalizing ys with
  | nil =>
    rw [struck_nil]
    cases ys <;> rfl
  | cons x xs ih =>
    cases ys with
    | nil => rw [diffL_nil]; rfl
    | cons y ys =>
      rw [diffL]
      by_cases h : comp x y = true
      · rw [if_pos h, ih hy, struck_low]
        intro z hz
        rcases List.mem_cons.1 hz with rfl | hz
        · exact h
        · cases hxz : comp x z
          · have := hsw.negtrans hxz ((List.pairwise_cons.1 hy).1 z hz)
            rw [h] at this; cases this
          · rfl
      · rw [if_neg h, ih (List.pairwise_cons.1 hy).2]
        show _ = struck comp ((x :: xs).eraseP _) ys
        rw [List.eraseP_cons_of_pos (by simp [h])]

theorem struck_sublist : (struck comp xs ys).Sublist xs := by
  induction ys generalizing xs with
  | nil => exact List.Sublist.refl _
  | cons y ys ih => exact (ih (xs := xs.eraseP _)).trans List.eraseP_sublist

theorem struck_filter (h : ∀ x ∈ xs, ∀ y, p y = false → comp x y = true) : struck comp xs ys = struck comp xs (ys.filter p) := by
  induction ys generalizing xs with
  | nil => rfl
  | cons y ys ih =>
    show struck comp (xs.eraseP _) ys = _
    cases hp : p y
    · rw [List.filter_cons_of_neg (by rw [hp]; simp), List.eraseP_of_forall_not]
      · exact ih h
      · intro x hx
        rw [h x hx y hp]; simp
    · rw [List.filter_cons_of_pos hp]
      exact ih fun x hx => h x (List.mem_of_mem_eraseP hx)

/-- `algo_set_difference_by` on any two ranges of which the second is sorted: every element of the second range strikes out the first remaining element of the first range that is not
smaller than it.  This is the exact effect of the code; it is the difference under the condition of the next theorem. -/
theorem C46_difference_exact_partial (hsw : StrictWeak comp) (hR : Rng P c i xs) (hR' : Rng P c' i' ys) (hy : Sorted comp ys) (hl : xs.length ≤ us.length) :
    Triple nf (P ∗ seg d j us) (setDifference c i (i + xs.length) c' i' (i' + ys.length) d j comp)
      (fun r => ⌜r = ((struck comp xs ys).length, j + (struck comp xs ys).length)⌝ ∗ P ∗ seg d j (over us (struck comp xs ys))) := by
  refine Triple.post (differenceLoop_spec (n := 0) hR hR' (Nat.le_trans diffL_length hl)) ?_
  intro r
  unfold Out
  xintro hr
  rw [diffL_struck hsw hy, Nat.zero_add] at hr
  rw [diffL_struck hsw hy]
  cancel

/-- In particular the result consists of elements of the first range in their order, so it is sorted if that range is. -/
theorem C46_difference_sublist_partial (hsw : StrictWeak comp) (hR : Rng P c i xs) (hR' : Rng P c' i' ys) (hx : Sorted comp xs) (hy : Sorted comp ys) (hl : xs.length ≤ us.length) :
    Triple nf (P ∗ seg d j us) (setDifference c i (i + xs.length) c' i' (i' + ys.length) d j comp)
      (fun r => ∃ₛ zs, ⌜zs.Sublist xs ∧ Sorted comp zs ∧ xs.length ≤ zs.length + ys.length ∧ r = (zs.length, j + zs.length)⌝ ∗ P ∗ seg d j (over us zs)) := by
  refine Triple.post (C46_difference_exact_partial hsw hR hR' hy hl) ?_
  intro r
  xintro hr
  xexists struck comp xs ys
  cancel
  refine ⟨struck_sublist, List.Pairwise.sublist struck_sublist hx, ?_, hr⟩
  clear hr hl hR' hy hR hx
  induction ys generalizing xs with
  | nil => simp [struck]
  | cons y ys ih =>
    have h1 : xs.length ≤ (xs.eraseP fun x => !comp x y).length + 1 := by
      rw [List.length_eraseP]; split <;> omega
    have h2 := ih (xs := xs.eraseP fun x => !comp x y)
    show xs.length ≤ (struck comp (xs.eraseP fun x => !comp x y) ys).length + (ys.length + 1)
    omega

/-- `algo_set_difference_by` is right if every element of the second range that does not lie behind the whole first range is included in the first one.  Missing: other ranges, see below. -/
theorem C46_difference_partial (hsw : StrictWeak comp) (hR : Rng P c i xs) (hR' : Rng P c' i' ys) (hx : Sorted comp xs) (hy : Sorted comp ys) (hi : IncludesLow comp xs ys)
    (hl : xs.length ≤ us.length) :
    Triple nf (P ∗ seg d j us) (setDifference c i (i + xs.length) c' i' (i' + ys.length) d j comp)
      (fun r => ∃ₛ zs, ⌜IsDifference comp xs ys zs ∧ r = (zs.length, j + zs.length)⌝ ∗ P ∗ seg d j (over us zs)) := by
  refine Triple.post (C46_difference_exact_partial hsw hR hR' hy hl) ?_
  intro r
  xintro hr
  xexists struck comp xs ys
  cancel
  have hf : struck comp xs ys = struck comp xs (ys.filter fun y => xs.any fun x => !comp x y) := by
    refine struck_filter fun x hx y hy => ?_
    have := List.any_eq_false.1 hy x hx
    simpa using this
  have hys : Sorted comp (ys.filter fun y => xs.any fun x => !comp x y) := List.Pairwise.sublist List.filter_sublist hy
  refine ⟨⟨List.Pairwise.sublist struck_sublist hx, fun a => ?_⟩, hr⟩
  rw [hf, ← diffL_struck hsw hys, diffL_eq hsw hx hys hi, setL_cls hsw hx hys]
  simp only [if_pos, Bool.false_eq_true, if_false, List.append_nil, List.nil_append]
  cases hc : cls comp a xs with
  | nil => simp
  | cons x zs =>
    have hm : x ∈ cls comp a xs := by rw [hc]; simp
    obtain ⟨hm, hx⟩ := List.mem_filter.1 hm
    rw [show cls comp a (ys.filter fun y => xs.any fun x => !comp x y) = cls comp a ys from ?_]
    unfold cls
    rw [List.filter_filter]
    refine List.filter_congr fun y _ => ?_
    cases hay : equivB comp a y
    · rfl
    · rw [Bool.true_and]
      refine List.any_eq_true.2 ⟨x, hm, ?_⟩
      rw [← hsw.equivB_left hx]
      simp only [equivB, Bool.and_eq_true, Bool.not_eq_true'] at hay
      rw [hay.1]; rfl

theorem Includes.low {xs ys : List V} (h : Includes comp xs ys) : IncludesLow comp xs ys := by
  intro a
  refine Nat.le_trans ?_ (h a)
  exact (List.Sublist.filter _ List.filter_sublist).length_le

/-- the condition is met although an element of the second list (9) does not occur in the first one -/
example : IncludesLow (fun a b : Nat => decide (a < b)) [2, 3, 5] [3, 9] ∧ ¬ Includes (fun a b : Nat => decide (a < b)) [2, 3, 5] [3, 9] := by
  constructor
  · intro a
    rw [show ([3, 9].filter fun y => [2, 3, 5].any fun x => !decide (x < y)) = [3] by decide]
    exact (List.Sublist.filter _ (show [3].Sublist [2, 3, 5] by decide)).length_le
  · intro h
    have := h 9
    revert this
    decide

/-- Defect: an element of the second range that is not in the first one removes an element of the first.  `[2, 3]` minus `[1]` should be
`[2, 3]` (see Verif/Spec/SetOp.lean) but the code reports one element, `3`. -/
theorem C46_difference_violated {P : HProp Nat} {nf : Prop} {u v : Nat} (hR : Rng P c i [2, 3]) (hR' : Rng P c' i' [1]) :
    Triple nf (P ∗ seg d j [u, v]) (setDifference c i (i + 2) c' i' (i' + 1) d j (fun a b => decide (a < b)))
      (fun r => ⌜r = (1, j + 1) ∧ ¬ IsDifference (fun a b => decide (a < b)) [2, 3] [1] [3]⌝ ∗ P ∗ seg d j [3, v]) := by
  refine Triple.post (differenceLoop_spec (n := 0) (us := [u, v]) hR hR' (by simp [diffL])) ?_
  intro r
  unfold Out
  xintro hr
  have hd : diffL (fun a b : Nat => decide (a < b)) [2, 3] [1] = [3] := by simp [diffL]
  rw [hd] at hr ⊢
  rw [show over [u, v] [3] = [3, v] from rfl]
  cancel
  refine ⟨by rw [hr]; simp, ?_⟩
  intro h
  have := h.2 2
  simp [cls, equivB] at this

/-- Non-vacuity: two sorted ranges and a destination -/
example : ∃ (m : Mem Nat) (P : HProp Nat) (c d : Slots), (P ∗ seg d 0 [0, 0]) m.cells ∧ Rng P c 0 [2, 3] ∧ Rng P c 1 [3] ∧
    Sorted (fun a b : Nat => decide (a < b)) [2, 3] ∧ Includes (fun a b : Nat => decide (a < b)) [2, 3] [3] := by
  obtain ⟨m, c, d, l, _, hm⟩ := exists_ranges [2, 3] [0, 0] 0
  have he : (seg c 0 [2, 3] ∗ seg d 0 [0, 0] ∗ pts l (.obj (some 0))) ⊢ₛ ((seg c 0 [2, 3] ∗ pts l (.obj (some 0))) ∗ seg d 0 [0, 0]) := by cancel
  refine ⟨m, _, c, d, he _ hm, seg_rng.left, ?_, by simp [Sorted], ?_⟩
  · have := (seg_rng (c := c) (i := 0) (vs := [2, 3])).drop 1
    exact Rng.left this
  · intro a
    rw [cls_cons (x := 2)]
    split
    · rw [List.length_cons]; omega
    · exact Nat.le_refl _

end CC.Algo
