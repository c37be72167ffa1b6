import Verif.IAlgo.Forms
import Verif.Props.CIterAlgo
import Verif.Props.CIterModify
import Verif.Props.CIterSort
import Verif.Props.CIterAll
/-!
# Property C79: the comparison-free forms

`c_algo_find(x, y, f, v)` and 36 other macros use the comparison of the element type of the range: `(E r.ty).less` or `(E r.ty).equal`, where `r.ty` is the element type of the container of the first
iterator.  With that, each does what the corresponding `…_by` function does (C62–C64).  Generated by tools/gen_forms.py.
-/
namespace CC.IAlgo
open CC CC.Tac CC.Iter CC.Algo
variable {V : Type} {Z : Nat → Nat} {S A A1 A2 G G1 G2 P : HProp V} {r r2 r3 : Src V} {B B1 B2 : Nat → HProp V} {first last middle first2 last2 dFirst dLast i j k : Nat} {vs us ws : List V} {value : Loc}
  {w : V} {o o2 : IAlgo.Out} {low : Nat → Nat}

/-- `c_algo_mismatch` -/
theorem C79_mismatch (E : Types V) (hs : Spans Z S (G1 ∗ G2) r first last i vs.length) (h : Rng P r.ref i vs) (hs2 : Stands Z S (G1 ∗ G2) r2 first2 j vs.length) (h2 : Rng P r2.ref j us) (hl : vs.length ≤ us.length) (ho : OutArg r o G1 A1 B1) (ho2 : OutArg r2 o2 G2 A2 B2) :
    Triple True (P ∗ A1 ∗ A2 ∗ S) (Form.mismatch E first last first2 o o2) (fun q => ∃ₛ k1 k2, ⌜∃ k, k1 = i + k ∧ k2 = j + k ∧
      (q.1 = true ∧ IsFirst (fun m => ∃ a b, vs[m]? = some a ∧ us[m]? = some b ∧ (E r.ty).equal a b = false) vs.length k ∨
       q.1 = false ∧ k = vs.length ∧ ∀ m, m < vs.length → ∃ a b, vs[m]? = some a ∧ us[m]? = some b ∧ (E r.ty).equal a b = true)⌝ ∗ P ∗ B1 k1 ∗ B2 k2 ∗ S) := by
  have hat := (ho.mono2 ho2 hs.fst)
  simp only [Form.mismatch, Form.getEqual, bind_assoc, pure_bind]
  exact type_at (At.mono hat (by cancel)) (C62_mismatch (E r.ty).equal hs h hs2 h2 hl ho ho2)

/-- `c_algo_equal` -/
theorem C79_equal (E : Types V) (hs : Spans Z S A r first last i vs.length) (h : Rng P r.ref i vs) (hs2 : Stands Z S A r2 first2 j vs.length) (h2 : Rng P r2.ref j us) (hl : vs.length ≤ us.length) :
    Triple True (P ∗ A ∗ S) (Form.equal E first last first2) (fun q => ⌜q = true ↔ ∀ p, p ∈ vs.zip us → (E r.ty).equal p.1 p.2 = true⌝ ∗ P ∗ A ∗ S) := by
  have hat := hs.fst
  simp only [Form.equal, Form.getEqual, bind_assoc, pure_bind]
  exact type_at (At.mono hat (by cancel)) (C62_equal (E r.ty).equal hs h hs2 h2 hl)

/-- `c_algo_find` -/
theorem C79_find (E : Types V) (hs : Spans Z S G r first last i vs.length) (h : Rng P r.ref i vs) (hv : value.1 ≠ 0) (hw : Reads P value w) (ho : OutArg r o G A B) :
    Triple True (P ∗ A ∗ S) (Form.findBy E first last o value) (fun q => ∃ₛ k, ⌜FoundFirst (Algo.At vs fun v => (E r.ty).equal v w = true) vs.length i (q.1, k)⌝ ∗ P ∗ B k ∗ S) := by
  have hat := (ho.mono hs.fst)
  simp only [Form.findBy, Form.getEqual, bind_assoc, pure_bind]
  exact type_at (At.mono hat (by cancel)) (C62_find (E r.ty).equal hs h hv hw ho)

/-- `c_algo_find_first_of` -/
theorem C79_find_first_of (E : Types V) (hs : Spans Z S G r first last i vs.length) (h : Rng P r.ref i vs) (hs2 : Spans Z S G r2 first2 last2 j us.length) (h2 : Rng P r2.ref j us) (ho : OutArg r o G A B) :
    Triple True (P ∗ A ∗ S) (Form.findFirstOf E first last first2 last2 o)
      (fun q => ∃ₛ k, ⌜FoundFirst (Algo.At vs fun v => ∃ u, u ∈ us ∧ (E r.ty).equal v u = true) vs.length i (q.1, k)⌝ ∗ P ∗ B k ∗ S) := by
  have hat := (ho.mono hs.fst)
  simp only [Form.findFirstOf, Form.getEqual, bind_assoc, pure_bind]
  exact type_at (At.mono hat (by cancel)) (C62_find_first_of (E r.ty).equal hs h hs2 h2 ho)

/-- `c_algo_find_last_of` -/
theorem C79_find_last_of (E : Types V) (hs : Spans Z S G r first last i vs.length) (h : Rng P r.ref i vs) (hs2 : Spans Z S G r2 first2 last2 j us.length) (h2 : Rng P r2.ref j us) (ho : OutArg r o G A B) :
    Triple True (P ∗ A ∗ S) (Form.findLastOf E first last first2 last2 o)
      (fun q => ∃ₛ k, ⌜FoundLast (Algo.At vs fun v => ∃ u, u ∈ us ∧ (E r.ty).equal v u = true) vs.length i (q.1, k)⌝ ∗ P ∗ B k ∗ S) := by
  have hat := (ho.mono hs.fst)
  simp only [Form.findLastOf, Form.getEqual, bind_assoc, pure_bind]
  exact type_at (At.mono hat (by cancel)) (C62_find_last_of (E r.ty).equal hs h hs2 h2 ho)

/-- `c_algo_adjacent_find` -/
theorem C79_adjacent_find (E : Types V) (hs : Spans Z S G r first last i vs.length) (h : Rng P r.ref i vs) (ho : OutArg r o G A B) :
    Triple True (P ∗ A ∗ S) (Form.adjacentFind E first last o) (fun q => ∃ₛ k, ⌜FoundFirst (AdjAt vs fun a b => (E r.ty).equal a b = true) vs.length i (q.1, k)⌝ ∗ P ∗ B k ∗ S) := by
  have hat := (ho.mono hs.fst)
  simp only [Form.adjacentFind, Form.getEqual, bind_assoc, pure_bind]
  exact type_at (At.mono hat (by cancel)) (C62_adjacent_find (E r.ty).equal hs h ho)

/-- `c_algo_search` -/
theorem C79_search (E : Types V) (hs : Spans Z S G r first last i vs.length) (h : Rng P r.ref i vs) (hs2 : Spans Z S G r2 first2 last2 j us.length) (h2 : Rng P r2.ref j us) (ho : OutArg r o G A B) :
    Triple True (P ∗ A ∗ S) (Form.search E first last first2 last2 o) (fun q => ∃ₛ k, ⌜FoundFirst (MatchAt vs us fun a b => (E r.ty).equal a b = true) vs.length i (q.1, k)⌝ ∗ P ∗ B k ∗ S) := by
  have hat := (ho.mono hs.fst)
  simp only [Form.search, Form.getEqual, bind_assoc, pure_bind]
  exact type_at (At.mono hat (by cancel)) (C62_search (E r.ty).equal hs h hs2 h2 ho)

/-- `c_algo_search_last` -/
theorem C79_search_last (E : Types V) (hs : Spans Z S G r first last i vs.length) (h : Rng P r.ref i vs) (hs2 : Spans Z S G r2 first2 last2 j us.length) (h2 : Rng P r2.ref j us) (ho : OutArg r o G A B) :
    Triple True (P ∗ A ∗ S) (Form.searchLast E first last first2 last2 o) (fun q => ∃ₛ k, ⌜FoundLast (MatchAt vs us fun a b => (E r.ty).equal a b = true) vs.length i (q.1, k)⌝ ∗ P ∗ B k ∗ S) := by
  have hat := (ho.mono hs.fst)
  simp only [Form.searchLast, Form.getEqual, bind_assoc, pure_bind]
  exact type_at (At.mono hat (by cancel)) (C62_search_last (E r.ty).equal hs h hs2 h2 ho)

/-- `c_algo_search_n` -/
theorem C79_search_n (E : Types V) (n : Nat) (hn : n ≠ 0) (hs : Spans Z S G r first last i vs.length) (h : Rng P r.ref i vs) (hv : value.1 ≠ 0) (hw : Reads P value w) (ho : OutArg r o G A B) :
    Triple True (P ∗ A ∗ S) (Form.searchN E first last n value o) (fun q => ∃ₛ k, ⌜FoundFirst (RunAt vs n fun v => (E r.ty).equal v w = true) vs.length i (q.1, k)⌝ ∗ P ∗ B k ∗ S) := by
  have hat := (ho.mono hs.fst)
  simp only [Form.searchN, Form.getEqual, bind_assoc, pure_bind]
  exact type_at (At.mono hat (by cancel)) (C62_search_n n hn (E r.ty).equal hs h hv hw ho)

/-- `c_algo_search_last_n` -/
theorem C79_search_last_n (E : Types V) (n : Nat) (hn : n ≠ 0) (hs : Spans Z S G r first last i vs.length) (h : Rng P r.ref i vs) (hv : value.1 ≠ 0) (hw : Reads P value w) (ho : OutArg r o G A B) :
    Triple True (P ∗ A ∗ S) (Form.searchLastN E first last n value o) (fun q => ∃ₛ k, ⌜FoundLast (RunAt vs n fun v => (E r.ty).equal v w = true) vs.length i (q.1, k)⌝ ∗ P ∗ B k ∗ S) := by
  have hat := (ho.mono hs.fst)
  simp only [Form.searchLastN, Form.getEqual, bind_assoc, pure_bind]
  exact type_at (At.mono hat (by cancel)) (C62_search_last_n n hn (E r.ty).equal hs h hv hw ho)

/-- `c_algo_unique` -/
theorem C79_unique (E : Types V) (hs : Spans Z S G r first last i vs.length) (hm : r.kind.type < 7) (hlow : ∀ q, q ≠ 0 → 2 ≤ low q) (ho : OutArg r o G A B) :
    Triple True (seg r.ref i vs ∗ A ∗ S) (Form.unique E low first last o)
      (fun q => ⌜q.1 = (uniq (E r.ty).equal vs).length⌝ ∗ (∃ₛ T, ⌜(uniq (E r.ty).equal vs).length + T.length = vs.length⌝ ∗ seg r.ref i (uniq (E r.ty).equal vs ++ T)) ∗ B (i + (uniq (E r.ty).equal vs).length) ∗ S) := by
  have hat := (ho.mono hs.fst)
  simp only [Form.unique, Form.getEqual, bind_assoc, pure_bind]
  exact type_at (At.mono hat (by cancel)) (C63_unique (E r.ty).equal hs hm hlow ho)

/-- `c_algo_unique_copy` -/
theorem C79_unique_copy (E : Types V) (hs : Spans Z S G r first last i vs.length) (h : Rng P r.ref i vs) (hd : Stands Z S G r2 dFirst j us.length) (hm : r2.kind.type < 7) (hl : (uniq (E r.ty).equal vs).length ≤ us.length) (hwant : o.isNull = false) (hlow : ∀ q, q ≠ 0 → 2 ≤ low q) (ho : OutArg r2 o G A B) :
    Triple True (P ∗ seg r2.ref j us ∗ A ∗ S) (Form.uniqueCopy E low first last dFirst o)
      (fun q => ⌜q.1 = (uniq (E r.ty).equal vs).length⌝ ∗ P ∗ seg r2.ref j (over us (uniq (E r.ty).equal vs)) ∗ B (j + (uniq (E r.ty).equal vs).length) ∗ S) := by
  have hat := (ho.mono hs.fst)
  simp only [Form.uniqueCopy, Form.getEqual, bind_assoc, pure_bind]
  exact type_at (At.mono hat (by cancel)) (C63_unique_copy (E r.ty).equal hs h hd hm hl hwant hlow ho)

/-- `c_algo_is_sorted` -/
theorem C79_is_sorted (E : Types V) (hsw : StrictWeak (E r.ty).less) (hs : Spans Z S A r first last i vs.length) (hR : Rng P r.ref i vs) :
    Triple True (P ∗ A ∗ S) (Form.isSorted E first last) (fun q => ⌜q = true ↔ Sorted (E r.ty).less vs⌝ ∗ P ∗ A ∗ S) := by
  have hat := hs.fst
  simp only [Form.isSorted, Form.getLess, bind_assoc, pure_bind]
  exact type_at (At.mono hat (by cancel)) (C64_is_sorted hsw hs hR)

/-- `c_algo_is_sorted_until` -/
theorem C79_is_sorted_until_partial (E : Types V) (hsw : StrictWeak (E r.ty).less) (hs : Spans Z S G r first last i vs.length) (hR : Rng P r.ref i vs) (hh : Sorted (E r.ty).less vs) (ho : OutVar r o G A B) :
    Triple True (P ∗ A ∗ S) (Form.isSortedUntil E first last o) (fun _ => P ∗ B (i + vs.length) ∗ S) := by
  have hat := (ho.arg.mono hs.fst)
  simp only [Form.isSortedUntil, Form.getLess, bind_assoc, pure_bind]
  exact type_at (At.mono hat (by cancel)) (C64_is_sorted_until_partial hsw hs hR hh ho)

/-- `c_algo_sort` -/
theorem C79_sort_partial (E : Types V) (hsw : StrictWeak (E r.ty).less) (hn : vs.length ≤ 512) (hs : Spans Z S A r first last i vs.length) (hx : Rand S r) (hlow : ∀ q, q ≠ 0 → 3 ≤ low q) :
    Triple True (seg r.ref i vs ∗ A ∗ S) (Form.sort E Z low first last) (fun _ => ∃ₛ ws, ⌜ws.Perm vs ∧ Sorted (E r.ty).less ws⌝ ∗ seg r.ref i ws ∗ A ∗ S) := by
  have hat := hs.fst
  simp only [Form.sort, Form.getLess, bind_assoc, pure_bind]
  exact type_at (At.mono hat (by cancel)) (C64_sort_short_partial hsw hn hs hx hlow)

/-- `c_algo_partial_sort` -/
theorem C79_partial_sort_partial (E : Types V) (hsw : StrictWeak (E r.ty).less) (X Y : List V) (hs : Spans Z S A r first last i (X ++ Y).length) (hmid : At A r middle (i + X.length)) (hx : Rand S r) (hf : r.Far S) :
    Triple True (seg r.ref i (X ++ Y) ∗ A ∗ S) (Form.partialSort E Z first middle last)
      (fun _ => ∃ₛ X', ∃ₛ Y', ⌜(X' ++ Y').Perm (X ++ Y) ∧ X'.length = X.length ∧ Sorted (E r.ty).less X' ∧ (∀ a, a ∈ X' → ∀ b, b ∈ Y' → (E r.ty).less b a = false)⌝ ∗ seg r.ref i (X' ++ Y') ∗ A ∗ S) := by
  have hat := hs.fst
  simp only [Form.partialSort, Form.getLess, bind_assoc, pure_bind]
  exact type_at (At.mono hat (by cancel)) (C64_partial_sort_partial hsw X Y hs hmid hx hf)

/-- `c_algo_partial_sort_copy` -/
theorem C79_partial_sort_copy_partial (E : Types V) (hsw : StrictWeak (E r.ty).less) (hs : Spans Z S G r first last i vs.length) (hR : Rng P r.ref i vs) (hd : Spans Z S G r2 dFirst dLast j us.length) (hx : Rand S r2) (hf : r2.Far S) (ho : OutArg r2 o G A B) :
    Triple True (P ∗ seg r2.ref j us ∗ A ∗ S) (Form.partialSortCopy E Z first last dFirst dLast o)
      (fun q => ∃ₛ ws, ∃ₛ rest, ⌜(ws ++ rest).Perm vs ∧ ws.length = min vs.length us.length ∧ Sorted (E r.ty).less ws ∧ (∀ a, a ∈ ws → ∀ b, b ∈ rest → (E r.ty).less b a = false) ∧ q.1 = ws.length⌝ ∗
        P ∗ seg r2.ref j (over us ws) ∗ B (j + ws.length) ∗ S) := by
  have hat := (ho.mono hs.fst)
  simp only [Form.partialSortCopy, Form.getLess, bind_assoc, pure_bind]
  exact type_at (At.mono hat (by cancel)) (C64_partial_sort_copy_partial hsw hs hR hd hx hf ho)

/-- `c_algo_lower_bound` -/
theorem C79_lower_bound (E : Types V) (hs : Spans Z S G r first last i vs.length) (h : Rng P r.ref i vs) (hv : value.1 ≠ 0) (hw : Reads P value w) (hp : Parted (fun v => (E r.ty).less v w) vs) (ho : OutVar r o G A B) :
    Triple True (P ∗ A ∗ S) (Form.lowerBound E Z first last value o) (fun _ => ∃ₛ e, ⌜∃ k, e = i + k ∧ SplitAt (fun v => (E r.ty).less v w) vs k⌝ ∗ P ∗ B e ∗ S) := by
  have hat := (ho.arg.mono hs.fst)
  simp only [Form.lowerBound, Form.getLess, bind_assoc, pure_bind]
  exact type_at (At.mono hat (by cancel)) (C62_lower_bound (E r.ty).less hs h hv hw hp ho)

/-- `c_algo_upper_bound` -/
theorem C79_upper_bound (E : Types V) (hs : Spans Z S G r first last i vs.length) (h : Rng P r.ref i vs) (hv : value.1 ≠ 0) (hw : Reads P value w) (hp : Parted (fun v => !(E r.ty).less w v) vs) (ho : OutVar r o G A B) :
    Triple True (P ∗ A ∗ S) (Form.upperBound E Z first last value o) (fun _ => ∃ₛ e, ⌜∃ k, e = i + k ∧ SplitAt (fun v => !(E r.ty).less w v) vs k⌝ ∗ P ∗ B e ∗ S) := by
  have hat := (ho.arg.mono hs.fst)
  simp only [Form.upperBound, Form.getLess, bind_assoc, pure_bind]
  exact type_at (At.mono hat (by cancel)) (C62_upper_bound (E r.ty).less hs h hv hw hp ho)

/-- `c_algo_binary_search` -/
theorem C79_binary_search (E : Types V) (hs : Spans Z S A r first last i vs.length) (h : Rng P r.ref i vs) (hv : value.1 ≠ 0) (hw : Reads P value w) (hp : Parted (fun v => (E r.ty).less v w) vs) (hp' : Parted (fun v => !(E r.ty).less w v) vs) :
    Triple True (P ∗ A ∗ S) (Form.binarySearch E Z first last value) (fun q => ⌜q = true ↔ ∃ v, v ∈ vs ∧ (E r.ty).less v w = false ∧ (E r.ty).less w v = false⌝ ∗ P ∗ A ∗ S) := by
  have hat := hs.fst
  simp only [Form.binarySearch, Form.getLess, bind_assoc, pure_bind]
  exact type_at (At.mono hat (by cancel)) (C62_binary_search (E r.ty).less hs h hv hw hp hp')

/-- `c_algo_equal_range` -/
theorem C79_equal_range (E : Types V) (hs : Spans Z S (G1 ∗ G2) r first last i vs.length) (h : Rng P r.ref i vs) (hv : value.1 ≠ 0) (hw : Reads P value w) (hp : Parted (fun v => (E r.ty).less v w) vs) (hp' : Parted (fun v => !(E r.ty).less w v) vs) (ho : OutVar r o G1 A1 B1) (ho2 : OutVar r o2 G2 A2 B2) :
    Triple True (P ∗ A1 ∗ A2 ∗ S) (Form.equalRange E Z first last value o o2)
      (fun _ => ∃ₛ e1 e2, ⌜∃ k l, (e1, e2) = (i + k, i + l) ∧ SplitAt (fun v => (E r.ty).less v w) vs k ∧ SplitAt (fun v => !(E r.ty).less w v) vs l⌝ ∗ P ∗ B1 e1 ∗ B2 e2 ∗ S) := by
  have hat := (ho.arg.mono2 ho2.arg hs.fst)
  simp only [Form.equalRange, Form.getLess, bind_assoc, pure_bind]
  exact type_at (At.mono hat (by cancel)) (C62_equal_range (E r.ty).less hs h hv hw hp hp' ho ho2)

/-- `c_algo_merge` -/
theorem C79_merge (E : Types V) (hsw : StrictWeak (E r.ty).less) (hs : Spans Z S G r first last i vs.length) (hR : Rng P r.ref i vs) (hs2 : Spans Z S G r2 first2 last2 j us.length) (hR' : Rng P r2.ref j us) (hx : Sorted (E r.ty).less vs) (hy : Sorted (E r.ty).less us) (hd : Stands Z S G r3 dFirst k ws.length) (hm : r3.kind.type < 7) (hl : vs.length + us.length ≤ ws.length) (hlow : ∀ q, q ≠ 0 → 2 ≤ low q) (ho : OutArg r3 o G A B) :
    Triple True (P ∗ seg r3.ref k ws ∗ A ∗ S) (Form.merge E low first last first2 last2 dFirst o)
      (fun q => ∃ₛ zs, ⌜zs.Perm (vs ++ us) ∧ Sorted (E r.ty).less zs ∧ StableOf (E r.ty).less (us ++ vs) zs ∧ q.1 = zs.length⌝ ∗ P ∗ seg r3.ref k (over ws zs) ∗ B (k + zs.length) ∗ S) := by
  have hat := (ho.mono hs.fst)
  simp only [Form.merge, Form.getLess, bind_assoc, pure_bind]
  exact type_at (At.mono hat (by cancel)) (C63_merge (E r.ty).less hsw hs hR hs2 hR' hx hy hd hm hl hlow ho)

/-- `c_algo_includes` -/
theorem C79_includes (E : Types V) (hsw : StrictWeak (E r.ty).less) (hs : Spans Z S A r first last i vs.length) (hR : Rng P r.ref i vs) (hs2 : Spans Z S A r2 first2 last2 j us.length) (hR' : Rng P r2.ref j us) (hx : Sorted (E r.ty).less vs) (hy : Sorted (E r.ty).less us) :
    Triple True (P ∗ A ∗ S) (Form.includes E first last first2 last2) (fun q => ⌜q = true ↔ Includes (E r.ty).less vs us⌝ ∗ P ∗ A ∗ S) := by
  have hat := hs.fst
  simp only [Form.includes, Form.getLess, bind_assoc, pure_bind]
  exact type_at (At.mono hat (by cancel)) (C63_includes (E r.ty).less hsw hs hR hs2 hR' hx hy)

/-- `c_algo_set_difference` -/
theorem C79_set_difference (E : Types V) (hsw : StrictWeak (E r.ty).less) (hs : Spans Z S G r first last i vs.length) (hR : Rng P r.ref i vs) (hs2 : Spans Z S G r2 first2 last2 j us.length) (hR' : Rng P r2.ref j us) (hx : Sorted (E r.ty).less vs) (hy : Sorted (E r.ty).less us) (hi : IncludesLow (E r.ty).less vs us) (hd : Stands Z S G r3 dFirst k ws.length) (hm : r3.kind.type < 7) (hl : vs.length ≤ ws.length) (hlow : ∀ q, q ≠ 0 → 2 ≤ low q) (ho : OutArg r3 o G A B) :
    Triple True (P ∗ seg r3.ref k ws ∗ A ∗ S) (Form.setDifference E low first last first2 last2 dFirst o)
      (fun q => ∃ₛ zs, ⌜IsDifference (E r.ty).less vs us zs ∧ q.1 = zs.length⌝ ∗ P ∗ seg r3.ref k (over ws zs) ∗ B (k + zs.length) ∗ S) := by
  have hat := (ho.mono hs.fst)
  simp only [Form.setDifference, Form.getLess, bind_assoc, pure_bind]
  exact type_at (At.mono hat (by cancel)) (C63_difference (E r.ty).less hsw hs hR hs2 hR' hx hy hi hd hm hl hlow ho)

/-- `c_algo_set_intersection` -/
theorem C79_set_intersection (E : Types V) (hsw : StrictWeak (E r.ty).less) (hs : Spans Z S G r first last i vs.length) (hR : Rng P r.ref i vs) (hs2 : Spans Z S G r2 first2 last2 j us.length) (hR' : Rng P r2.ref j us) (hx : Sorted (E r.ty).less vs) (hy : Sorted (E r.ty).less us) (hd : Stands Z S G r3 dFirst k ws.length) (hm : r3.kind.type < 7) (hl : vs.length ≤ ws.length) (ho : OutArg r3 o G A B) :
    Triple True (P ∗ seg r3.ref k ws ∗ A ∗ S) (Form.setIntersection E first last first2 last2 dFirst o)
      (fun q => ∃ₛ zs, ⌜IsIntersection (E r.ty).less vs us zs ∧ q.1 = zs.length⌝ ∗ P ∗ seg r3.ref k (over ws zs) ∗ B (k + zs.length) ∗ S) := by
  have hat := (ho.mono hs.fst)
  simp only [Form.setIntersection, Form.getLess, bind_assoc, pure_bind]
  exact type_at (At.mono hat (by cancel)) (C63_intersection (E r.ty).less hsw hs hR hs2 hR' hx hy hd hm hl ho)

/-- `c_algo_set_symmetric_difference` -/
theorem C79_set_symmetric_difference (E : Types V) (hsw : StrictWeak (E r.ty).less) (hs : Spans Z S G r first last i vs.length) (hR : Rng P r.ref i vs) (hs2 : Spans Z S G r2 first2 last2 j us.length) (hR' : Rng P r2.ref j us) (hx : Sorted (E r.ty).less vs) (hy : Sorted (E r.ty).less us) (hd : Stands Z S G r3 dFirst k ws.length) (hm : r3.kind.type < 7) (hl : vs.length + us.length ≤ ws.length) (hlow : ∀ q, q ≠ 0 → 2 ≤ low q) (ho : OutArg r3 o G A B) :
    Triple True (P ∗ seg r3.ref k ws ∗ A ∗ S) (Form.setSymDifference E low first last first2 last2 dFirst o)
      (fun q => ∃ₛ zs, ⌜IsSymDifference (E r.ty).less vs us zs ∧ q.1 = zs.length⌝ ∗ P ∗ seg r3.ref k (over ws zs) ∗ B (k + zs.length) ∗ S) := by
  have hat := (ho.mono hs.fst)
  simp only [Form.setSymDifference, Form.getLess, bind_assoc, pure_bind]
  exact type_at (At.mono hat (by cancel)) (C63_symmetric_difference (E r.ty).less hsw hs hR hs2 hR' hx hy hd hm hl hlow ho)

/-- `c_algo_set_union` -/
theorem C79_set_union (E : Types V) (hsw : StrictWeak (E r.ty).less) (hs : Spans Z S G r first last i vs.length) (hR : Rng P r.ref i vs) (hs2 : Spans Z S G r2 first2 last2 j us.length) (hR' : Rng P r2.ref j us) (hx : Sorted (E r.ty).less vs) (hy : Sorted (E r.ty).less us) (hd : Stands Z S G r3 dFirst k ws.length) (hm : r3.kind.type < 7) (hl : vs.length + us.length ≤ ws.length) (hlow : ∀ q, q ≠ 0 → 2 ≤ low q) (ho : OutArg r3 o G A B) :
    Triple True (P ∗ seg r3.ref k ws ∗ A ∗ S) (Form.setUnion E low first last first2 last2 dFirst o)
      (fun q => ∃ₛ zs, ⌜IsUnion (E r.ty).less vs us zs ∧ q.1 = zs.length⌝ ∗ P ∗ seg r3.ref k (over ws zs) ∗ B (k + zs.length) ∗ S) := by
  have hat := (ho.mono hs.fst)
  simp only [Form.setUnion, Form.getLess, bind_assoc, pure_bind]
  exact type_at (At.mono hat (by cancel)) (C63_union (E r.ty).less hsw hs hR hs2 hR' hx hy hd hm hl hlow ho)

/-- `c_algo_is_heap` -/
theorem C79_is_heap (E : Types V) (hs : Spans Z S A r first last i vs.length) (hR : Rng P r.ref i vs) (hc : r.kind.cate = 4) :
    Triple True (P ∗ A ∗ S) (Form.isHeap E Z first last) (fun q => ⌜q = true ↔ IsHeap (E r.ty).less vs⌝ ∗ P ∗ A ∗ S) := by
  have hat := hs.fst
  simp only [Form.isHeap, Form.getLess, bind_assoc, pure_bind]
  exact type_at (At.mono hat (by cancel)) (C64_is_heap hs hR hc)

/-- `c_algo_is_heap_until` -/
theorem C79_is_heap_until_partial (E : Types V) (hs : Spans Z S G r first last i vs.length) (hR : Rng P r.ref i vs) (hh : IsHeap (E r.ty).less vs) (hc : r.kind.cate = 4) (ho : OutVar r o G A B) :
    Triple True (P ∗ A ∗ S) (Form.isHeapUntil E Z first last o) (fun _ => P ∗ B (i + vs.length) ∗ S) := by
  have hat := (ho.arg.mono hs.fst)
  simp only [Form.isHeapUntil, Form.getLess, bind_assoc, pure_bind]
  exact type_at (At.mono hat (by cancel)) (C64_is_heap_until_partial hs hR hh hc ho)

/-- `c_algo_make_heap` -/
theorem C79_make_heap_partial (E : Types V) (hsw : StrictWeak (E r.ty).less) (hs : Spans Z S A r first last i vs.length) (hx : Rand S r) (hf : r.Far S) :
    Triple True (seg r.ref i vs ∗ A ∗ S) (Form.makeHeap E Z first last) (fun _ => ∃ₛ ws, ⌜ws.Perm vs ∧ IsHeap (E r.ty).less ws⌝ ∗ seg r.ref i ws ∗ A ∗ S) := by
  have hat := hs.fst
  simp only [Form.makeHeap, Form.getLess, bind_assoc, pure_bind]
  exact type_at (At.mono hat (by cancel)) (C64_make_heap_partial hsw hs hx hf)

/-- `c_algo_push_heap` -/
theorem C79_push_heap (E : Types V) (hsw : StrictWeak (E r.ty).less) (v : V) (hh : IsHeap (E r.ty).less vs) (hs : Spans Z S A r first last i (vs ++ [v]).length) (hx : Rand S r) :
    Triple True (seg r.ref i (vs ++ [v]) ∗ A ∗ S) (Form.pushHeap E Z first last) (fun _ => ∃ₛ ws, ⌜ws.Perm (vs ++ [v]) ∧ IsHeap (E r.ty).less ws⌝ ∗ seg r.ref i ws ∗ A ∗ S) := by
  have hat := hs.fst
  simp only [Form.pushHeap, Form.getLess, bind_assoc, pure_bind]
  exact type_at (At.mono hat (by cancel)) (C64_push_heap hsw v hh hs hx)

/-- `c_algo_pop_heap` -/
theorem C79_pop_heap (E : Types V) (hsw : StrictWeak (E r.ty).less) (hne : vs ≠ []) (hh : IsHeap (E r.ty).less vs) (hs : Spans Z S A r first last i vs.length) (hx : Rand S r) :
    Triple True (seg r.ref i vs ∗ A ∗ S) (Form.popHeap E Z first last)
      (fun _ => ∃ₛ ws, ∃ₛ a, ⌜(ws ++ [a]).Perm vs ∧ IsHeap (E r.ty).less ws ∧ IsMax (E r.ty).less vs a⌝ ∗ seg r.ref i (ws ++ [a]) ∗ A ∗ S) := by
  have hat := hs.fst
  simp only [Form.popHeap, Form.getLess, bind_assoc, pure_bind]
  exact type_at (At.mono hat (by cancel)) (C64_pop_heap hsw hne hh hs hx)

/-- `c_algo_sort_heap` -/
theorem C79_sort_heap (E : Types V) (hsw : StrictWeak (E r.ty).less) (hh : IsHeap (E r.ty).less vs) (hs : Spans Z S A r first last i vs.length) (hx : Rand S r) :
    Triple True (seg r.ref i vs ∗ A ∗ S) (Form.sortHeap E Z first last) (fun _ => ∃ₛ ws, ⌜ws.Perm vs ∧ Sorted (E r.ty).less ws⌝ ∗ seg r.ref i ws ∗ A ∗ S) := by
  have hat := hs.fst
  simp only [Form.sortHeap, Form.getLess, bind_assoc, pure_bind]
  exact type_at (At.mono hat (by cancel)) (C64_sort_heap hsw hh hs hx)

/-- `c_algo_max_element` -/
theorem C79_max_element (E : Types V) (hsw : StrictWeak (E r.ty).less) (hs : Spans Z S G r first last i vs.length) (h : Rng P r.ref i vs) (hne : vs ≠ []) (ho : OutVar r o G A B) :
    Triple True (P ∗ A ∗ S) (Form.maxElement E first last o)
      (fun _ => ∃ₛ e, ⌜∃ k, e = i + k ∧ IsFirst (Algo.At vs fun v => ∀ u, u ∈ vs → (E r.ty).less v u = false) vs.length k⌝ ∗ P ∗ B e ∗ S) := by
  have hat := (ho.arg.mono hs.fst)
  simp only [Form.maxElement, Form.getLess, bind_assoc, pure_bind]
  exact type_at (At.mono hat (by cancel)) (C62_max_element (E r.ty).less hsw hs h hne ho)

/-- `c_algo_min_element` -/
theorem C79_min_element (E : Types V) (hsw : StrictWeak (E r.ty).less) (hs : Spans Z S G r first last i vs.length) (h : Rng P r.ref i vs) (hne : vs ≠ []) (ho : OutVar r o G A B) :
    Triple True (P ∗ A ∗ S) (Form.minElement E first last o)
      (fun _ => ∃ₛ e, ⌜∃ k, e = i + k ∧ IsFirst (Algo.At vs fun v => ∀ u, u ∈ vs → (E r.ty).less u v = false) vs.length k⌝ ∗ P ∗ B e ∗ S) := by
  have hat := (ho.arg.mono hs.fst)
  simp only [Form.minElement, Form.getLess, bind_assoc, pure_bind]
  exact type_at (At.mono hat (by cancel)) (C62_min_element (E r.ty).less hsw hs h hne ho)

/-- `c_algo_minmax_element` -/
theorem C79_minmax_element (E : Types V) (hsw : StrictWeak (E r.ty).less) (hs : Spans Z S (G1 ∗ G2) r first last i vs.length) (h : Rng P r.ref i vs) (hne : vs ≠ []) (ho : OutVar r o G1 A1 B1) (ho2 : OutVar r o2 G2 A2 B2) :
    Triple True (P ∗ A1 ∗ A2 ∗ S) (Form.minmaxElement E first last o o2)
      (fun _ => ∃ₛ e1 e2, ⌜∃ k l, (e1, e2) = (i + k, i + l) ∧ IsFirst (Algo.At vs fun v => ∀ u, u ∈ vs → (E r.ty).less u v = false) vs.length k ∧
        IsFirst (Algo.At vs fun v => ∀ u, u ∈ vs → (E r.ty).less v u = false) vs.length l⌝ ∗ P ∗ B1 e1 ∗ B2 e2 ∗ S) := by
  have hat := (ho.arg.mono2 ho2.arg hs.fst)
  simp only [Form.minmaxElement, Form.getLess, bind_assoc, pure_bind]
  exact type_at (At.mono hat (by cancel)) (C62_minmax_element (E r.ty).less hsw hs h hne ho ho2)

/-- `c_algo_lexicographical_compare` -/
theorem C79_lexicographical_compare (E : Types V) (hs : Spans Z S A r first last i vs.length) (h : Rng P r.ref i vs) (hs2 : Spans Z S A r2 first2 last2 j us.length) (h2 : Rng P r2.ref j us) :
    Triple True (P ∗ A ∗ S) (Form.lexCompare E first last first2 last2) (fun q => ⌜q = true ↔ LexLt (E r.ty).less vs us⌝ ∗ P ∗ A ∗ S) := by
  have hat := hs.fst
  simp only [Form.lexCompare, Form.getLess, bind_assoc, pure_bind]
  exact type_at (At.mono hat (by cancel)) (C62_lexicographical_compare (E r.ty).less hs h hs2 h2)

/-! ## Whole containers -/

/-- `x = begin(c); y = end(c); c_algo_sort(x, y)` for a vector or deque of elements of type `r.ty` -/
theorem C79_sort_whole_partial (E : Types V) {C : List V → HProp V} {x y : Nat} (hsw : StrictWeak (E r.ty).less) (hn : vs.length ≤ 512) (hc : View Z C r S) (hx : Rand S r) (hl : vs.length = r.len)
    (hlow : ∀ q, q ≠ 0 → 3 ≤ low q) :
    Triple True (C vs ∗ rawIt x ∗ rawIt y) (whole r x y (Form.sort E Z low x y)) (fun _ => ∃ₛ ws, ⌜ws.Perm vs ∧ Sorted (E r.ty).less ws⌝ ∗ C ws ∗ It r x 0 ∗ It r y r.len) := by
  rw [hc.eq vs hl]
  refine Triple.pre (P' := rawIt x ∗ rawIt y ∗ S ∗ seg r.ref 0 vs) (by cancel) ?_
  refine whole_spec hc.ok ?_
  refine Triple.pre (P' := seg r.ref 0 vs ∗ (It r x 0 ∗ It r y r.len ∗ emp) ∗ S) (by cancel) ?_
  refine Triple.post (C79_sort_partial E hsw hn (spans_whole hc.ok hl) hx hlow) fun _ => ?_
  refine ent_ex_left fun ws => ent_pure_left fun h => ?_
  rintro s hs
  refine ⟨ws, hpure_sep_apply.2 ⟨h, ?_⟩⟩
  rw [hc.eq ws (by rw [h.1.length_eq, hl])]
  exact (show _ ⊢ₛ _ by cancel) _ hs

/-- the vector 3, 1, 2, sorted by the order of its element type, in a concrete memory -/
example : ∃ (m m' : Mem Nat) (v b x y : Addr), whole (vecSrc v b 1 3) x y (Form.sort (fun _ => Vec.intTy) (fun _ => 4) (fun _ => 8) x y) m = some (.ok ((), m')) ∧
    ∃ F, (Vec.isVec (T := fun _ => plainOps Vec.intTy) (ty := 1) (plainSpec (nf := True) Vec.intTy) v b 3 [3, 1, 2] ∗ F) m.cells ∧
      ∃ F', (Vec.isVec (T := fun _ => plainOps Vec.intTy) (ty := 1) (plainSpec (nf := True) Vec.intTy) v b 3 [1, 2, 3] ∗ F') m'.cells := by
  obtain ⟨m, v, b, ho, hm⟩ := Vec.exists_vec (V := Nat) Vec.intTy 1 (by simp) [3, 1, 2] (by simp)
  rw [show [3, 1, 2].length = 3 from rfl] at hm
  obtain ⟨m, x, ho, hm⟩ := exists_struct ho hm
  obtain ⟨m, y, ho, hm⟩ := exists_struct ho hm
  have ht := C79_sort_whole_partial (fun _ => Vec.intTy) (Z := fun _ => 4) (low := fun _ => 8) (x := x) (y := y) (vs := [3, 1, 2]) (by exact lt_strictWeak) (by simp)
    (vec_view (nf := True) (t := Vec.intTy) (ty := 1) (v := v) (b := b) (cap := 3) (n := 3) (by simp) (by simp) (by simp)) vec_rand rfl (by simp)
  obtain ⟨_, m', h, _, hm'⟩ := ht.run (F := live (plainSpec (nf := True) Vec.intTy) 1 1 [3, 1, 2]) (s := m) (fun _ => ho) ((show _ ⊢ₛ _ by cancel) _ hm)
  refine ⟨m, m', v, b, x, y, h, _, (show _ ⊢ₛ _ by cancel) _ hm, ?_⟩
  rw [hex_sep] at hm'
  obtain ⟨ws, hm'⟩ := hm'
  rw [sep_assoc, hpure_sep_apply] at hm'
  obtain ⟨⟨hp, hsd⟩, hm'⟩ := hm'
  have : ws = [1, 2, 3] := by
    have hp2 : ws.Perm [1, 2, 3] := hp.trans (by decide)
    refine hp2.eq_of_pairwise (le := fun a b => a ≤ b) (fun a b _ _ h1 h2 => Nat.le_antisymm h1 h2) ?_ (by decide)
    unfold Sorted at hsd
    exact hsd.imp (by simp [Vec.intTy])
  subst this
  exact ⟨_, (show _ ⊢ₛ _ by cancel) _ hm'⟩

end CC.IAlgo
