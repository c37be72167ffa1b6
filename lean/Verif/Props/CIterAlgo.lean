import Verif.IAlgo.Range
import Verif.IAlgo.BSearchRef
import Verif.IAlgo.MinMaxRef
import Verif.IAlgo.PartitionRef
import Verif.Props.CSearch
import Verif.Props.CModify
/-!
# Property C62: the searching algorithms, called with iterator objects

The programs `IAlgo.…` are the C functions with their iterator objects: `first` and `last` are addresses of iterator objects, the virtual functions of the iterators are called through their type tags,
working copies are allocated and freed, results are delivered through a variable.

`Spans Z S G r first last i n` (Verif/IAlgo/Range.lean): the caller's memory `G` has the iterators `first` and `last` of one container `r` with structure `S`; they delimit the `n` elements from position
`i`.  `Rng P r.ref i vs`: the elements there, somewhere in the memory `P`, are `vs`.  `OutArg r o G A B`: the argument `o` for the result is NULL, or the address of a variable that holds NULL or an
iterator of the container; `A` is the caller's memory with that variable, `B k` the same with a result at position `k`.
Each postcondition says that nothing else has changed: in particular every working copy has been freed (the memory is exactly `P`, `B k` and `S`), no element and no other iterator of the caller
has been changed.  (`Triple True`: malloc does not fail; for failures see C65.)
A concrete memory in which all the hypotheses of these theorems hold is constructed in Verif/Props/CIterAll.lean (`exists_call`), together with programs of clients that establish them (`whole`).
-/
namespace CC.IAlgo
open CC CC.Tac CC.Iter CC.Algo
variable {V : Type} {Z : Nat → Nat} {S A A1 A2 G G1 G2 P : HProp V} {r r2 : Src V} {B B1 B2 : Nat → HProp V} {first last first2 last2 i j : Nat} {vs us : List V} {value : Loc} {w : V} {o o2 : Out}

theorem C62_all_of (pred : V → Bool) (hs : Spans Z S A r first last i vs.length) (h : Rng P r.ref i vs) :
    Triple True (P ∗ A ∗ S) (IAlgo.allOf first last pred) (fun q => ⌜q = true ↔ ∀ v, v ∈ vs → pred v = true⌝ ∗ P ∗ A ∗ S) :=
  lift_fact (allOf_ref hs.ok (Nat.le_add_right ..) hs.le hs.fst hs.lst) (C47_all_of pred h)

theorem C62_any_of (pred : V → Bool) (hs : Spans Z S A r first last i vs.length) (h : Rng P r.ref i vs) :
    Triple True (P ∗ A ∗ S) (IAlgo.anyOf first last pred) (fun q => ⌜q = true ↔ ∃ v, v ∈ vs ∧ pred v = true⌝ ∗ P ∗ A ∗ S) :=
  lift_fact (anyOf_ref hs.ok (Nat.le_add_right ..) hs.le hs.fst hs.lst) (C47_any_of pred h)

theorem C62_none_of (pred : V → Bool) (hs : Spans Z S A r first last i vs.length) (h : Rng P r.ref i vs) :
    Triple True (P ∗ A ∗ S) (IAlgo.noneOf first last pred) (fun q => ⌜q = true ↔ ∀ v, v ∈ vs → pred v = false⌝ ∗ P ∗ A ∗ S) :=
  lift_fact (noneOf_ref hs.ok (Nat.le_add_right ..) hs.le hs.fst hs.lst) (C47_none_of pred h)

/-- `algo_count` compares with the equality `E r.ty` of the element type of the container -/
theorem C62_count (E : Nat → V → V → Bool) (hs : Spans Z S A r first last i vs.length) (h : Rng P r.ref i vs) (hv : value.1 ≠ 0) (hw : Reads P value w) :
    Triple True (P ∗ A ∗ S) (IAlgo.count E first last value) (fun q => ⌜q = (vs.filter fun v => E r.ty v w).length⌝ ∗ P ∗ A ∗ S) :=
  lift_fact (count_ref hs.ok (Nat.le_add_right ..) hs.le hs.fst hs.lst hv) (C47_count (E r.ty) h hw)

theorem C62_count_if (pred : V → Bool) (hs : Spans Z S A r first last i vs.length) (h : Rng P r.ref i vs) :
    Triple True (P ∗ A ∗ S) (IAlgo.countIf first last pred) (fun q => ⌜q = (vs.filter pred).length⌝ ∗ P ∗ A ∗ S) :=
  lift_fact (countIf_ref hs.ok (Nat.le_add_right ..) hs.le hs.fst hs.lst) (C47_count_if pred h)

/-- `algo_equal_by` -/
theorem C62_equal (pred : V → V → Bool) (hs : Spans Z S A r first last i vs.length) (h : Rng P r.ref i vs) (hs2 : Stands Z S A r2 first2 j vs.length) (h2 : Rng P r2.ref j us)
    (hl : vs.length ≤ us.length) :
    Triple True (P ∗ A ∗ S) (IAlgo.equal first last first2 pred) (fun q => ⌜q = true ↔ ∀ p, p ∈ vs.zip us → pred p.1 p.2 = true⌝ ∗ P ∗ A ∗ S) :=
  lift_fact (equal_ref hs.ok hs2.ok (Nat.le_add_right ..) hs.le (by have := hs2.le; omega) hs.fst hs.lst hs2.at_) (C47_equal pred h h2 hl)

/-- `algo_lexicographical_compare_by` -/
theorem C62_lexicographical_compare (comp : V → V → Bool) (hs : Spans Z S A r first last i vs.length) (h : Rng P r.ref i vs) (hs2 : Spans Z S A r2 first2 last2 j us.length) (h2 : Rng P r2.ref j us) :
    Triple True (P ∗ A ∗ S) (IAlgo.lexCompare first last first2 last2 comp) (fun q => ⌜q = true ↔ LexLt comp vs us⌝ ∗ P ∗ A ∗ S) :=
  lift_fact (lexCompare_ref hs.ok hs2.ok (Nat.le_add_right ..) hs.le (Nat.le_add_right ..) hs2.le hs.fst hs.lst hs2.fst hs2.lst) (C50_lexicographical_compare comp h h2)

/-- `algo_find_by` -/
theorem C62_find (pred : V → V → Bool) (hs : Spans Z S G r first last i vs.length) (h : Rng P r.ref i vs) (hv : value.1 ≠ 0) (hw : Reads P value w) (ho : OutArg r o G A B) :
    Triple True (P ∗ A ∗ S) (IAlgo.findBy first last o value pred) (fun q => ∃ₛ k, ⌜FoundFirst (Algo.At vs fun v => pred v w = true) vs.length i (q.1, k)⌝ ∗ P ∗ B k ∗ S) :=
  lift_found (findBy_ref hs.ok (Nat.le_add_right ..) hs.le (ho.mono hs.fst) (ho.mono hs.lst) hv ho.ok) (fun _ _ h => h.1) (C47_find pred h hw)

theorem C62_find_if (pred : V → Bool) (hs : Spans Z S G r first last i vs.length) (h : Rng P r.ref i vs) (ho : OutArg r o G A B) :
    Triple True (P ∗ A ∗ S) (IAlgo.findIf first last o pred) (fun q => ∃ₛ k, ⌜FoundFirst (Algo.At vs fun v => pred v = true) vs.length i (q.1, k)⌝ ∗ P ∗ B k ∗ S) :=
  lift_found (findIf_ref hs.ok (Nat.le_add_right ..) hs.le (ho.mono hs.fst) (ho.mono hs.lst) ho.ok) (fun _ _ h => h.1) (C47_find_if pred h)

theorem C62_find_if_not (pred : V → Bool) (hs : Spans Z S G r first last i vs.length) (h : Rng P r.ref i vs) (ho : OutArg r o G A B) :
    Triple True (P ∗ A ∗ S) (IAlgo.findIfNot first last o pred) (fun q => ∃ₛ k, ⌜FoundFirst (Algo.At vs fun v => pred v = false) vs.length i (q.1, k)⌝ ∗ P ∗ B k ∗ S) :=
  lift_found (findIfNot_ref hs.ok (Nat.le_add_right ..) hs.le (ho.mono hs.fst) (ho.mono hs.lst) ho.ok) (fun _ _ h => h.1) (C47_find_if_not pred h)

/-- `algo_find_first_of_by` -/
theorem C62_find_first_of (pred : V → V → Bool) (hs : Spans Z S G r first last i vs.length) (h : Rng P r.ref i vs) (hs2 : Spans Z S G r2 first2 last2 j us.length) (h2 : Rng P r2.ref j us)
    (ho : OutArg r o G A B) :
    Triple True (P ∗ A ∗ S) (IAlgo.findFirstOf first last first2 last2 o pred)
      (fun q => ∃ₛ k, ⌜FoundFirst (Algo.At vs fun v => ∃ u, u ∈ us ∧ pred v u = true) vs.length i (q.1, k)⌝ ∗ P ∗ B k ∗ S) :=
  lift_found (findFirstOf_ref hs.ok hs2.ok (Nat.le_add_right ..) hs.le (Nat.le_add_right ..) hs2.le (ho.mono hs.fst) (ho.mono hs.lst) (ho.mono hs2.fst) (ho.mono hs2.lst) ho.ok) (fun _ _ h => h.1)
    (C47_find_first_of pred h h2)

/-- `algo_find_last_of_by` -/
theorem C62_find_last_of (pred : V → V → Bool) (hs : Spans Z S G r first last i vs.length) (h : Rng P r.ref i vs) (hs2 : Spans Z S G r2 first2 last2 j us.length) (h2 : Rng P r2.ref j us)
    (ho : OutArg r o G A B) :
    Triple True (P ∗ A ∗ S) (IAlgo.findLastOf first last first2 last2 o pred)
      (fun q => ∃ₛ k, ⌜FoundLast (Algo.At vs fun v => ∃ u, u ∈ us ∧ pred v u = true) vs.length i (q.1, k)⌝ ∗ P ∗ B k ∗ S) :=
  lift_found (findLastOf_ref hs.ok hs2.ok (Nat.le_add_right ..) hs.le (Nat.le_add_right ..) hs2.le (ho.mono hs.fst) (ho.mono hs.lst) (ho.mono hs2.fst) (ho.mono hs2.lst) ho.ok) (fun _ _ h => h.1)
    (C47_find_last_of pred h h2)

/-- `algo_adjacent_find_by` -/
theorem C62_adjacent_find (pred : V → V → Bool) (hs : Spans Z S G r first last i vs.length) (h : Rng P r.ref i vs) (ho : OutArg r o G A B) :
    Triple True (P ∗ A ∗ S) (IAlgo.adjacentFind first last o pred) (fun q => ∃ₛ k, ⌜FoundFirst (AdjAt vs fun a b => pred a b = true) vs.length i (q.1, k)⌝ ∗ P ∗ B k ∗ S) :=
  lift_found (adjacentFind_ref hs.ok (Nat.le_add_right ..) hs.le (ho.mono hs.fst) (ho.mono hs.lst) ho.ok (ho.in hs.lst)) (fun _ _ h => h.1) (C47_adjacent_find pred h)

/-- `algo_search_by` -/
theorem C62_search (pred : V → V → Bool) (hs : Spans Z S G r first last i vs.length) (h : Rng P r.ref i vs) (hs2 : Spans Z S G r2 first2 last2 j us.length) (h2 : Rng P r2.ref j us)
    (ho : OutArg r o G A B) :
    Triple True (P ∗ A ∗ S) (IAlgo.search first last first2 last2 o pred) (fun q => ∃ₛ k, ⌜FoundFirst (MatchAt vs us fun a b => pred a b = true) vs.length i (q.1, k)⌝ ∗ P ∗ B k ∗ S) :=
  lift_found (search_ref hs.ok hs2.ok (Nat.le_add_right ..) hs.le (Nat.le_add_right ..) hs2.le (ho.mono hs.fst) (ho.mono hs.lst) (ho.mono hs2.fst) (ho.mono hs2.lst) ho.ok) (fun _ _ h => h.1)
    (C47_search pred h h2)

/-- `algo_search_last_by` -/
theorem C62_search_last (pred : V → V → Bool) (hs : Spans Z S G r first last i vs.length) (h : Rng P r.ref i vs) (hs2 : Spans Z S G r2 first2 last2 j us.length) (h2 : Rng P r2.ref j us)
    (ho : OutArg r o G A B) :
    Triple True (P ∗ A ∗ S) (IAlgo.searchLast first last first2 last2 o pred) (fun q => ∃ₛ k, ⌜FoundLast (MatchAt vs us fun a b => pred a b = true) vs.length i (q.1, k)⌝ ∗ P ∗ B k ∗ S) :=
  lift_found (searchLast_ref hs.ok hs2.ok (Nat.le_add_right ..) hs.le (Nat.le_add_right ..) hs2.le (ho.mono hs.fst) (ho.mono hs.lst) (ho.mono hs2.fst) (ho.mono hs2.lst) ho.ok) (fun _ _ h => h.1)
    (C47_search_last pred h h2)

/-- `algo_search_n_by` -/
theorem C62_search_n (n : Nat) (hn : n ≠ 0) (pred : V → V → Bool) (hs : Spans Z S G r first last i vs.length) (h : Rng P r.ref i vs) (hv : value.1 ≠ 0) (hw : Reads P value w) (ho : OutArg r o G A B) :
    Triple True (P ∗ A ∗ S) (IAlgo.searchN first last n value o pred) (fun q => ∃ₛ k, ⌜FoundFirst (RunAt vs n fun v => pred v w = true) vs.length i (q.1, k)⌝ ∗ P ∗ B k ∗ S) :=
  lift_found (searchN_ref hs.ok (Nat.le_add_right ..) hs.le (ho.mono hs.fst) (ho.mono hs.lst) hv ho.ok (ho.in hs.lst)) (fun _ _ h => h.1) (C47_search_n n hn pred h hw)

/-- `algo_search_last_n_by` -/
theorem C62_search_last_n (n : Nat) (hn : n ≠ 0) (pred : V → V → Bool) (hs : Spans Z S G r first last i vs.length) (h : Rng P r.ref i vs) (hv : value.1 ≠ 0) (hw : Reads P value w)
    (ho : OutArg r o G A B) :
    Triple True (P ∗ A ∗ S) (IAlgo.searchLastN first last n value o pred) (fun q => ∃ₛ k, ⌜FoundLast (RunAt vs n fun v => pred v w = true) vs.length i (q.1, k)⌝ ∗ P ∗ B k ∗ S) :=
  lift_found (searchLastN_ref hs.ok (Nat.le_add_right ..) hs.le (ho.mono hs.fst) (ho.mono hs.lst) hv ho.ok (ho.in hs.lst)) (fun _ _ h => h.1) (C47_search_last_n n hn pred h hw)

/-- `algo_mismatch_by`, with two results -/
theorem C62_mismatch (pred : V → V → Bool) (hs : Spans Z S (G1 ∗ G2) r first last i vs.length) (h : Rng P r.ref i vs) (hs2 : Stands Z S (G1 ∗ G2) r2 first2 j vs.length) (h2 : Rng P r2.ref j us)
    (hl : vs.length ≤ us.length) (ho : OutArg r o G1 A1 B1) (ho2 : OutArg r2 o2 G2 A2 B2) :
    Triple True (P ∗ A1 ∗ A2 ∗ S) (IAlgo.mismatch first last first2 o o2 pred) (fun q => ∃ₛ k1 k2, ⌜∃ k, k1 = i + k ∧ k2 = j + k ∧
      (q.1 = true ∧ IsFirst (fun m => ∃ a b, vs[m]? = some a ∧ us[m]? = some b ∧ pred a b = false) vs.length k ∨
       q.1 = false ∧ k = vs.length ∧ ∀ m, m < vs.length → ∃ a b, vs[m]? = some a ∧ us[m]? = some b ∧ pred a b = true)⌝ ∗ P ∗ B1 k1 ∗ B2 k2 ∗ S) := by
  have := lift_found2 (mismatch_ref hs.ok hs2.ok (Nat.le_add_right ..) hs.le (by have := hs2.le; omega) (ho.mono2 ho2 hs.fst) (ho.mono2 ho2 hs.lst) (ho.mono2 ho2 hs2.at_) ho.ok2 (ho2.okR (A1 := A1)).chk'
    (fun k _ => ho2.okR)) (fun _ _ h => h.1) (C47_mismatch pred h h2 hl)
  simpa only [Prod.mk.injEq, and_assoc] using this

/-- `algo_for_each`: the callback is run on each element in order -/
theorem C62_for_each (op : Loc → M V Unit) {P' : HProp V} (n : Nat) (hop : ∀ l, Vis (op l)) (hs : Spans Z S A r first last i n) (h : Triple True P ((List.range' i n).forM (fun k => op (r.ref k))) (fun _ => P')) :
    Triple True (P ∗ A ∗ S) (IAlgo.forEach first last op) (fun q => ⌜q = n⌝ ∗ P' ∗ A ∗ S) := by
  refine lift_fact (forEach_ref hs.ok (Nat.le_add_right ..) hs.le hs.fst hs.lst hop) ?_
  rw [C47_for_each]
  refine Triple.bind h fun _ => ?_
  apply Triple.ret
  cancel

/-- `algo_for_each_n` -/
theorem C62_for_each_n (op : Loc → M V Unit) {P' : HProp V} (n : Nat) (hop : ∀ l, Vis (op l)) (hs : Stands Z S G r first i n) (ho : OutArg r o G A B)
    (h : Triple True P ((List.range' i n).forM (fun k => op (r.ref k))) (fun _ => P')) :
    Triple True (P ∗ A ∗ S) (IAlgo.forEachN first n o op) (fun _ => P' ∗ B (i + n) ∗ S) := by
  refine lift_at (forEachN_ref hs.ok hs.le (ho.mono hs.at_) hop ho.ok) ?_
  rw [C47_for_each_n]
  refine Triple.bind h fun _ => ?_
  apply Triple.ret
  cancel

/-- `algo_lower_bound_by` -/
theorem C62_lower_bound (comp : V → V → Bool) (hs : Spans Z S G r first last i vs.length) (h : Rng P r.ref i vs) (hv : value.1 ≠ 0) (hw : Reads P value w) (hp : Parted (fun v => comp v w) vs)
    (ho : OutVar r o G A B) :
    Triple True (P ∗ A ∗ S) (IAlgo.lowerBound Z first last value o comp) (fun _ => ∃ₛ e, ⌜∃ k, e = i + k ∧ SplitAt (fun v => comp v w) vs k⌝ ∗ P ∗ B e ∗ S) :=
  lift_pos (lowerBound_ref hs.ok (Nat.le_add_right ..) hs.le (ho.arg.mono hs.fst) (ho.arg.mono hs.lst) hv ho.arg.ok ho.wanted) (C45_lower_bound comp h hw hp)

/-- `algo_upper_bound_by` -/
theorem C62_upper_bound (comp : V → V → Bool) (hs : Spans Z S G r first last i vs.length) (h : Rng P r.ref i vs) (hv : value.1 ≠ 0) (hw : Reads P value w) (hp : Parted (fun v => !comp w v) vs)
    (ho : OutVar r o G A B) :
    Triple True (P ∗ A ∗ S) (IAlgo.upperBound Z first last value o comp) (fun _ => ∃ₛ e, ⌜∃ k, e = i + k ∧ SplitAt (fun v => !comp w v) vs k⌝ ∗ P ∗ B e ∗ S) :=
  lift_pos (upperBound_ref hs.ok (Nat.le_add_right ..) hs.le (ho.arg.mono hs.fst) (ho.arg.mono hs.lst) hv ho.arg.ok ho.wanted) (C45_upper_bound comp h hw hp)

/-- `algo_binary_search_by` -/
theorem C62_binary_search (comp : V → V → Bool) (hs : Spans Z S A r first last i vs.length) (h : Rng P r.ref i vs) (hv : value.1 ≠ 0) (hw : Reads P value w) (hp : Parted (fun v => comp v w) vs)
    (hp' : Parted (fun v => !comp w v) vs) :
    Triple True (P ∗ A ∗ S) (IAlgo.binarySearch Z first last value comp) (fun q => ⌜q = true ↔ ∃ v, v ∈ vs ∧ comp v w = false ∧ comp w v = false⌝ ∗ P ∗ A ∗ S) :=
  lift_fact (binarySearch_ref hs.ok (Nat.le_add_right ..) hs.le hs.fst hs.lst hv) (C45_binary_search comp h hw hp hp')

/-- `algo_equal_range_by`, with two results -/
theorem C62_equal_range (comp : V → V → Bool) (hs : Spans Z S (G1 ∗ G2) r first last i vs.length) (h : Rng P r.ref i vs) (hv : value.1 ≠ 0) (hw : Reads P value w) (hp : Parted (fun v => comp v w) vs)
    (hp' : Parted (fun v => !comp w v) vs) (ho : OutVar r o G1 A1 B1) (ho2 : OutVar r o2 G2 A2 B2) :
    Triple True (P ∗ A1 ∗ A2 ∗ S) (IAlgo.equalRange Z first last value o o2 comp)
      (fun _ => ∃ₛ e1 e2, ⌜∃ k l, (e1, e2) = (i + k, i + l) ∧ SplitAt (fun v => comp v w) vs k ∧ SplitAt (fun v => !comp w v) vs l⌝ ∗ P ∗ B1 e1 ∗ B2 e2 ∗ S) :=
  lift_two (equalRange_ref hs.ok (Nat.le_add_right ..) hs.le (ho.arg.mono2 ho2.arg hs.fst) (ho.arg.mono2 ho2.arg hs.lst) hv ho.arg.ok2 ho.wanted (fun k _ => ho2.arg.okR) ho2.wanted)
    (C45_equal_range comp h hw hp hp')

/-- `algo_max_element_by` -/
theorem C62_max_element (comp : V → V → Bool) (hsw : StrictWeak comp) (hs : Spans Z S G r first last i vs.length) (h : Rng P r.ref i vs) (hne : vs ≠ []) (ho : OutVar r o G A B) :
    Triple True (P ∗ A ∗ S) (IAlgo.maxElement first last o comp)
      (fun _ => ∃ₛ e, ⌜∃ k, e = i + k ∧ IsFirst (Algo.At vs fun v => ∀ u, u ∈ vs → comp v u = false) vs.length k⌝ ∗ P ∗ B e ∗ S) :=
  lift_pos (maxElement_ref hs.ok (Nat.le_add_right ..) hs.le (ho.arg.mono hs.fst) (ho.arg.mono hs.lst) ho.arg.ok ho.wanted) (C50_max_element comp hsw h hne)

/-- `algo_min_element_by` -/
theorem C62_min_element (comp : V → V → Bool) (hsw : StrictWeak comp) (hs : Spans Z S G r first last i vs.length) (h : Rng P r.ref i vs) (hne : vs ≠ []) (ho : OutVar r o G A B) :
    Triple True (P ∗ A ∗ S) (IAlgo.minElement first last o comp)
      (fun _ => ∃ₛ e, ⌜∃ k, e = i + k ∧ IsFirst (Algo.At vs fun v => ∀ u, u ∈ vs → comp u v = false) vs.length k⌝ ∗ P ∗ B e ∗ S) :=
  lift_pos (minElement_ref hs.ok (Nat.le_add_right ..) hs.le (ho.arg.mono hs.fst) (ho.arg.mono hs.lst) ho.arg.ok ho.wanted) (C50_min_element comp hsw h hne)

/-- `algo_minmax_element_by`, with two results -/
theorem C62_minmax_element (comp : V → V → Bool) (hsw : StrictWeak comp) (hs : Spans Z S (G1 ∗ G2) r first last i vs.length) (h : Rng P r.ref i vs) (hne : vs ≠ []) (ho : OutVar r o G1 A1 B1)
    (ho2 : OutVar r o2 G2 A2 B2) :
    Triple True (P ∗ A1 ∗ A2 ∗ S) (IAlgo.minmaxElement first last o o2 comp)
      (fun _ => ∃ₛ e1 e2, ⌜∃ k l, (e1, e2) = (i + k, i + l) ∧ IsFirst (Algo.At vs fun v => ∀ u, u ∈ vs → comp u v = false) vs.length k ∧
        IsFirst (Algo.At vs fun v => ∀ u, u ∈ vs → comp v u = false) vs.length l⌝ ∗ P ∗ B1 e1 ∗ B2 e2 ∗ S) :=
  lift_two (minmaxElement_ref hs.ok (Nat.le_add_right ..) hs.le (ho.arg.mono2 ho2.arg hs.fst) (ho.arg.mono2 ho2.arg hs.lst) ho.arg.ok2 ho.wanted (ho2.arg.okR (A1 := A1)).chk' ho2.wanted
    (fun k _ => ho2.arg.okR)) (C50_minmax_element comp hsw h hne)

/-- `algo_is_partitioned` -/
theorem C62_is_partitioned (pred : V → Bool) (hs : Spans Z S A r first last i vs.length) (h : Rng P r.ref i vs) :
    Triple True (P ∗ A ∗ S) (IAlgo.isPartitioned first last pred) (fun q => ⌜q = true ↔ Parted pred vs⌝ ∗ P ∗ A ∗ S) :=
  lift_fact (isPartitioned_ref hs.ok (Nat.le_add_right ..) hs.le hs.fst hs.lst) (C49_is_partitioned pred h)

/-- `algo_partition_point` -/
theorem C62_partition_point (pred : V → Bool) (hs : Spans Z S G r first last i vs.length) (h : Rng P r.ref i vs) (hp : Parted pred vs) (ho : OutVar r o G A B) :
    Triple True (P ∗ A ∗ S) (IAlgo.partitionPoint first last o pred) (fun _ => ∃ₛ e, ⌜∃ k, e = i + k ∧ SplitAt pred vs k⌝ ∗ P ∗ B e ∗ S) :=
  lift_pos (partitionPoint_ref hs.ok (Nat.le_add_right ..) hs.le (ho.arg.mono hs.fst) (ho.arg.mono hs.lst) ho.arg.ok ho.wanted) (C49_partition_point pred h hp)

end CC.IAlgo
