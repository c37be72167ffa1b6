import Verif.Algo.NonModSpec2
import Verif.Algo.Link
/-!
# Property C47: the non-modifying algorithms

`Rng P c i vs` (Verif/Algo/Base.lean): in every memory fragment satisfying `P` the container with slots `c` holds the values `vs` in the positions `i`, `i + 1`, …, so the
range is `[i, i + vs.length)`.  Ranges and the searched value may overlap or be the same.  The conclusion `… ∗ P` says that the call changes nothing: the
fragment (whatever it is) still satisfies `P`.  What is found is stated with Verif/Spec/Search.lean.
-/
namespace CC.Algo
open CC CC.Tac
variable {V : Type} {nf : Prop} {P : HProp V} {c d : Slots} {i j : Nat} {vs us : List V} {value : Loc} {w : V}

/-- `algo_all_of`: do all elements satisfy the predicate? -/
theorem C47_all_of (pred : V → Bool) (h : Rng P c i vs) :
    Triple nf P (allOf c i (i + vs.length) pred) (fun r => ⌜r = true ↔ ∀ v, v ∈ vs → pred v = true⌝ ∗ P) := by
  refine Triple.post (allOf_spec h) ?_
  intro r
  xintro hr
  subst hr
  cancel
  simp

/-- `algo_any_of` -/
theorem C47_any_of (pred : V → Bool) (h : Rng P c i vs) :
    Triple nf P (anyOf c i (i + vs.length) pred) (fun r => ⌜r = true ↔ ∃ v, v ∈ vs ∧ pred v = true⌝ ∗ P) := by
  refine Triple.post (anyOf_spec h) ?_
  intro r
  xintro hr
  subst hr
  cancel
  simp

/-- `algo_none_of` -/
theorem C47_none_of (pred : V → Bool) (h : Rng P c i vs) :
    Triple nf P (noneOf c i (i + vs.length) pred) (fun r => ⌜r = true ↔ ∀ v, v ∈ vs → pred v = false⌝ ∗ P) := by
  refine Triple.post (noneOf_spec h) ?_
  intro r
  xintro hr
  subst hr
  cancel
  simp

/-- `algo_count`: the number of elements equal to the value -/
theorem C47_count (eq : V → V → Bool) (h : Rng P c i vs) (hw : Reads P value w) :
    Triple nf P (count c i (i + vs.length) value eq) (fun r => ⌜r = (vs.filter fun v => eq v w).length⌝ ∗ P) := by
  refine Triple.post (count_spec h hw) ?_
  intro r
  rw [List.countP_eq_length_filter]
  exact ent_refl _

/-- `algo_count_if` -/
theorem C47_count_if (pred : V → Bool) (h : Rng P c i vs) :
    Triple nf P (countIf c i (i + vs.length) pred) (fun r => ⌜r = (vs.filter pred).length⌝ ∗ P) := by
  refine Triple.post (countIf_spec h) ?_
  intro r
  rw [List.countP_eq_length_filter]
  exact ent_refl _

/-- `algo_mismatch_by`: the first pair of elements in corresponding positions that the predicate tells apart, or the ends -/
theorem C47_mismatch (pred : V → V → Bool) (h1 : Rng P c i vs) (h2 : Rng P d j us) (hl : vs.length ≤ us.length) :
    Triple nf P (mismatch c i (i + vs.length) d j pred) (fun r => ⌜∃ k, r.2 = (i + k, j + k) ∧
      (r.1 = true ∧ IsFirst (fun m => ∃ a b, vs[m]? = some a ∧ us[m]? = some b ∧ pred a b = false) vs.length k ∨
       r.1 = false ∧ k = vs.length ∧ ∀ m, m < vs.length → ∃ a b, vs[m]? = some a ∧ us[m]? = some b ∧ pred a b = true)⌝ ∗ P) := mismatch_spec h1 h2 hl

/-- `algo_equal_by`: are all pairs of elements in corresponding positions related? -/
theorem C47_equal (pred : V → V → Bool) (h1 : Rng P c i vs) (h2 : Rng P d j us) (hl : vs.length ≤ us.length) :
    Triple nf P (equal c i (i + vs.length) d j pred) (fun r => ⌜r = true ↔ ∀ p, p ∈ vs.zip us → pred p.1 p.2 = true⌝ ∗ P) := by
  refine Triple.post (equal_spec h1 h2 hl) ?_
  intro r
  xintro hr
  subst hr
  cancel
  simp

/-- `algo_find_by` -/
theorem C47_find (pred : V → V → Bool) (h : Rng P c i vs) (hw : Reads P value w) :
    Triple nf P (findBy c i (i + vs.length) value pred) (fun r => ⌜FoundFirst (At vs fun v => pred v w = true) vs.length i r⌝ ∗ P) := findBy_spec h hw

/-- `algo_find_if` -/
theorem C47_find_if (pred : V → Bool) (h : Rng P c i vs) :
    Triple nf P (findIf c i (i + vs.length) pred) (fun r => ⌜FoundFirst (At vs fun v => pred v = true) vs.length i r⌝ ∗ P) := findIf_spec h

/-- `algo_find_if_not` -/
theorem C47_find_if_not (pred : V → Bool) (h : Rng P c i vs) :
    Triple nf P (findIfNot c i (i + vs.length) pred) (fun r => ⌜FoundFirst (At vs fun v => pred v = false) vs.length i r⌝ ∗ P) := findIfNot_spec h

/-- `algo_find_first_of_by`: the first element related to some element of the second range -/
theorem C47_find_first_of (pred : V → V → Bool) (h1 : Rng P c i vs) (h2 : Rng P d j us) :
    Triple nf P (findFirstOf c i (i + vs.length) d j (j + us.length) pred) (fun r => ⌜FoundFirst (At vs fun v => ∃ u, u ∈ us ∧ pred v u = true) vs.length i r⌝ ∗ P) := findFirstOf_spec h1 h2

/-- `algo_find_last_of_by`: the last such element -/
theorem C47_find_last_of (pred : V → V → Bool) (h1 : Rng P c i vs) (h2 : Rng P d j us) :
    Triple nf P (findLastOf c i (i + vs.length) d j (j + us.length) pred) (fun r => ⌜FoundLast (At vs fun v => ∃ u, u ∈ us ∧ pred v u = true) vs.length i r⌝ ∗ P) := findLastOf_spec h1 h2

/-- `algo_adjacent_find_by`: the first element related to its successor -/
theorem C47_adjacent_find (pred : V → V → Bool) (h : Rng P c i vs) :
    Triple nf P (adjacentFind c i (i + vs.length) pred) (fun r => ⌜FoundFirst (AdjAt vs fun a b => pred a b = true) vs.length i r⌝ ∗ P) := adjacentFind_spec h

/-- `algo_search_by`: the first occurrence of the second range -/
theorem C47_search (pred : V → V → Bool) (h1 : Rng P c i vs) (h2 : Rng P d j us) :
    Triple nf P (search c i (i + vs.length) d j (j + us.length) pred) (fun r => ⌜FoundFirst (MatchAt vs us fun a b => pred a b = true) vs.length i r⌝ ∗ P) := search_spec h1 h2

/-- `algo_search_last_by`: the last occurrence of the second range -/
theorem C47_search_last (pred : V → V → Bool) (h1 : Rng P c i vs) (h2 : Rng P d j us) :
    Triple nf P (searchLast c i (i + vs.length) d j (j + us.length) pred) (fun r => ⌜FoundLast (MatchAt vs us fun a b => pred a b = true) vs.length i r⌝ ∗ P) := searchLast_spec h1 h2

/-- `algo_search_n_by`: the first of `n > 0` consecutive elements related to the value -/
theorem C47_search_n (n : Nat) (hn : n ≠ 0) (pred : V → V → Bool) (h : Rng P c i vs) (hw : Reads P value w) :
    Triple nf P (searchN c i (i + vs.length) n value pred) (fun r => ⌜FoundFirst (RunAt vs n fun v => pred v w = true) vs.length i r⌝ ∗ P) := searchN_spec hn h hw

/-- `algo_search_last_n_by` -/
theorem C47_search_last_n (n : Nat) (hn : n ≠ 0) (pred : V → V → Bool) (h : Rng P c i vs) (hw : Reads P value w) :
    Triple nf P (searchLastN c i (i + vs.length) n value pred) (fun r => ⌜FoundLast (RunAt vs n fun v => pred v w = true) vs.length i r⌝ ∗ P) := searchLastN_spec hn h hw

/-- `algo_search_n_by` and `algo_search_last_n_by` with `n = 0` find nothing -/
theorem C47_search_zero (pred : V → V → Bool) (first last : Nat) :
    searchN c first last 0 value pred = pure (false, last) ∧ searchLastN c first last 0 value pred = pure (false, last) := ⟨rfl, rfl⟩

/-- `algo_for_each`: the callback (an arbitrary program that may modify the elements) is run on each element of the range once, in order; the number of elements is returned. -/
theorem C47_for_each (op : Loc → M V Unit) (n : Nat) :
    forEach c i (i + n) op = (do (List.range' i n).forM (fun k => op (c k)); pure n) := by
  unfold forEach
  rw [forEachLoop_eq, Nat.zero_add]

/-- `algo_for_each_n` -/
theorem C47_for_each_n (op : Loc → M V Unit) (n : Nat) :
    forEachN c i n op = (do (List.range' i n).forM (fun k => op (c k)); pure (i + n)) := forEachN_eq

/-- Non-vacuity: a memory with two ranges and a value, in which all of the hypotheses above hold (for `vs = [3,1,4,1,5]`, `us = [1,4]`, `w = 1`). -/
example : ∃ (m : Mem Nat) (P : HProp Nat) (c d : Slots) (l : Loc), P m.cells ∧ Rng P c 0 [3,1,4,1,5] ∧ Rng P d 0 [1,4] ∧ Reads P l 1 := by
  obtain ⟨m, c, d, l, _, hm⟩ := exists_ranges [3,1,4,1,5] [1,4] 1
  exact ⟨m, _, c, d, l, hm, seg_rng.left, seg_rng.left.right, Reads.pts.right.right⟩

/-- The searches apply to lists: the elements of every list are a range -/
theorem C47_list_range {l s ty : Nat} {xs : List (CList.Elem V)} : Rng (CList.isList l s ty xs) (lslots xs) 0 (CList.vals xs) := by
  have := isList_seg (l := l) (s := s) (ty := ty) (xs := xs) (vs := CList.vals xs) (by simp)
  rw [setVals_self] at this
  rw [this]
  exact seg_rng.right

/-- and those of every forward list -/
theorem C47_slist_range {l a s ty : Nat} {xs : List (CList.Elem V)} : Rng (SList.isSList l a s ty xs) (lslots xs) 0 (CList.vals xs) := by
  have := isSList_seg (l := l) (a := a) (s := s) (ty := ty) (xs := xs) (vs := CList.vals xs) (by simp)
  rw [setVals_self] at this
  rw [this]
  exact seg_rng.right

/-- and those of every vector of plain data -/
theorem C47_vector_range {t : Ty V} {ty v b cap : Nat} :
    Rng (Vec.isVec (nf := nf) (T := fun _ => plainOps t) (ty := ty) (plainSpec t) v b cap vs) (aslots b 1) 0 vs := by
  rw [isVec_seg]
  exact seg_rng.right

/-- and those of every deque of plain data -/
theorem C47_deque_range {t : Ty V} {ty v b lo hi : Nat} :
    Rng (Deq.isDeq (nf := nf) (T := fun _ => plainOps t) (ty := ty) (plainSpec t) v b lo hi vs) (aslots b (1 + lo)) 0 vs := by
  rw [isDeq_seg]
  exact seg_rng.right

end CC.Algo
