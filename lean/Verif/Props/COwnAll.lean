import Verif.Own.Transfer
import Verif.Props.CSearch
import Verif.Props.CModify
import Verif.Props.CSort
/-!
# Property C67: algorithms on elements that own memory (generated by tools/gen_ownprops.py)

The same theorems as C41, C43 and C45-C51, for elements that are objects with arbitrary callbacks and may own memory: `oseg e c i vs` are the objects in a range with all they own, `Own e P` objects whose
values are described by `P`.  Since the fragments before and after are exactly the objects of the ranges, no object is lost, none is shared or destroyed twice, and no temporary object or what it owned is left.
Memories and callbacks that meet the hypotheses are constructed in Verif/Props/COwn.lean (`exists_boxes`, `boxCmp_ok`, `boxTest_ok` and the example there).
-/
namespace CC.Own
open CC CC.Tac
open CC.Algo (Slots seg Rng uniq uniqTail IsFirst IsLast FoundFirst FoundLast At AdjAt MatchAt RunAt Parted SplitAt FirstBest over overBack)
variable {V W : Type} {o : AOps V} (e : AElem o W) {P : HProp W} {c c' d : Slots} {i i' j k n : Nat} {vs us ws xs ys : List W} {value new : Loc} {w x : W} {comp : W → W → Bool} {comp2 eq2 : Loc → Loc → M V Bool}

/-- `algo_all_of`: do all elements satisfy the predicate? -/
theorem C67_all_of (pred : W → Bool) (h : Rng P c i vs) {pred2 : Loc → M V Bool} (hg : Tests e pred2 pred) :
    Triple True (Own e P) (Own.allOf c i (i + vs.length) pred2) (fun r => ⌜r = true ↔ ∀ v, v ∈ vs → pred v = true⌝ ∗ Own e P) := by
  refine transfer1 (e := e) (S_allOf hg) (Algo.C47_all_of (nf := True) pred h) ?_ ?_ <;> intros <;> simp only [own_sep, own_hpure, own_ex, own_seg]

/-- `algo_any_of` -/
theorem C67_any_of (pred : W → Bool) (h : Rng P c i vs) {pred2 : Loc → M V Bool} (hg : Tests e pred2 pred) :
    Triple True (Own e P) (Own.anyOf c i (i + vs.length) pred2) (fun r => ⌜r = true ↔ ∃ v, v ∈ vs ∧ pred v = true⌝ ∗ Own e P) := by
  refine transfer1 (e := e) (S_anyOf hg) (Algo.C47_any_of (nf := True) pred h) ?_ ?_ <;> intros <;> simp only [own_sep, own_hpure, own_ex, own_seg]

/-- `algo_none_of` -/
theorem C67_none_of (pred : W → Bool) (h : Rng P c i vs) {pred2 : Loc → M V Bool} (hg : Tests e pred2 pred) :
    Triple True (Own e P) (Own.noneOf c i (i + vs.length) pred2) (fun r => ⌜r = true ↔ ∀ v, v ∈ vs → pred v = false⌝ ∗ Own e P) := by
  refine transfer1 (e := e) (S_noneOf hg) (Algo.C47_none_of (nf := True) pred h) ?_ ?_ <;> intros <;> simp only [own_sep, own_hpure, own_ex, own_seg]

theorem forEachLoop_acts {op : W → W} {op2 : Loc → M V Unit} (ho : Acts e op2 op) {n : Nat} :
    Triple True (oseg e c i vs) (Own.forEachLoop c op2 i (i + vs.length) n) (fun r => ⌜r = n + vs.length⌝ ∗ oseg e c i (vs.map op)) := by
  induction vs generalizing i n with
  | nil =>
    rw [Own.forEachLoop, if_neg (by simp)]
    apply Triple.ret
    simp only [List.map_nil, List.length_nil, Nat.add_zero]
    cancel
  | cons w ws ih =>
    rw [Own.forEachLoop, if_pos (by simp)]
    refine Triple.bind_frame (ho (c i) w) (R := oseg e c (i + 1) ws) (ent_refl _) fun _ => ?_
    have h := ih (i := i + 1) (n := n + 1)
    rw [show i + 1 + ws.length = i + (w :: ws).length by simp; omega] at h
    refine Triple.pre (P' := oseg e c (i + 1) ws ∗ obj e (c i) (op w)) (by cancel) ?_
    refine Triple.post (Triple.frame (R := obj e (c i) (op w)) h) fun r => ?_
    show ((⌜r = n + 1 + ws.length⌝ ∗ oseg e c (i + 1) (ws.map op)) ∗ obj e (c i) (op w)) ⊢ₛ (⌜r = n + (w :: ws).length⌝ ∗ obj e (c i) (op w) ∗ oseg e c (i + 1) (ws.map op))
    have e1 : n + 1 + ws.length = n + (w :: ws).length := by simp; omega
    rw [e1]
    cancel

/-- `algo_for_each` with a callback that modifies the elements, and may change what they own: every element is modified once, the number of elements is returned -/
theorem C67_for_each (op : W → W) {op2 : Loc → M V Unit} (ho : Acts e op2 op) :
    Triple True (oseg e c i vs) (Own.forEach c i (i + vs.length) op2) (fun r => ⌜r = vs.length⌝ ∗ oseg e c i (vs.map op)) := by
  refine Triple.post (forEachLoop_acts e ho) fun r => ?_
  rw [Nat.zero_add]
  exact fun _ h => h

/-- `algo_for_each_n` -/
theorem C67_for_each_n (op : W → W) {op2 : Loc → M V Unit} (ho : Acts e op2 op) :
    Triple True (oseg e c i vs) (Own.forEachN c i vs.length op2) (fun r => ⌜r = i + vs.length⌝ ∗ oseg e c i (vs.map op)) := by
  induction vs generalizing i with
  | nil => exact Triple.ret (by simp only [List.map_nil, List.length_nil, Nat.add_zero]; cancel)
  | cons w ws ih =>
    rw [List.length_cons, Own.forEachN]
    refine Triple.bind_frame (ho (c i) w) (R := oseg e c (i + 1) ws) (ent_refl _) fun _ => ?_
    refine Triple.pre (P' := oseg e c (i + 1) ws ∗ obj e (c i) (op w)) (by cancel) ?_
    refine Triple.post (Triple.frame (R := obj e (c i) (op w)) (ih (i := i + 1))) fun r => ?_
    show ((⌜r = i + 1 + ws.length⌝ ∗ oseg e c (i + 1) (ws.map op)) ∗ obj e (c i) (op w)) ⊢ₛ (⌜r = i + (ws.length + 1)⌝ ∗ obj e (c i) (op w) ∗ oseg e c (i + 1) (ws.map op))
    rw [show i + 1 + ws.length = i + (ws.length + 1) by omega]
    cancel

/-- `algo_count`: the number of elements equal to the value -/
theorem C67_count (eq : W → W → Bool) (h : Rng P c i vs) (hw : Reads P value w) {eq2 : Loc → Loc → M V Bool} (hf : Compares e eq2 eq) :
    Triple True (Own e P) (Own.count c i (i + vs.length) value eq2) (fun r => ⌜r = (vs.filter fun v => eq v w).length⌝ ∗ Own e P) := by
  refine transfer1 (e := e) (S_count hf) (Algo.C47_count (nf := True) eq h hw) ?_ ?_ <;> intros <;> simp only [own_sep, own_hpure, own_ex, own_seg]

/-- `algo_count_if` -/
theorem C67_count_if (pred : W → Bool) (h : Rng P c i vs) {pred2 : Loc → M V Bool} (hg : Tests e pred2 pred) :
    Triple True (Own e P) (Own.countIf c i (i + vs.length) pred2) (fun r => ⌜r = (vs.filter pred).length⌝ ∗ Own e P) := by
  refine transfer1 (e := e) (S_countIf hg) (Algo.C47_count_if (nf := True) pred h) ?_ ?_ <;> intros <;> simp only [own_sep, own_hpure, own_ex, own_seg]

/-- `algo_mismatch_by`: the first pair of elements in corresponding positions that the predicate tells apart, or the ends -/
theorem C67_mismatch (pred : W → W → Bool) (h1 : Rng P c i vs) (h2 : Rng P d j us) (hl : vs.length ≤ us.length) {pred2 : Loc → Loc → M V Bool} (hf : Compares e pred2 pred) :
    Triple True (Own e P) (Own.mismatch c i (i + vs.length) d j pred2) (fun r => ⌜∃ k, r.2 = (i + k, j + k) ∧
      (r.1 = true ∧ IsFirst (fun m => ∃ a b, vs[m]? = some a ∧ us[m]? = some b ∧ pred a b = false) vs.length k ∨
       r.1 = false ∧ k = vs.length ∧ ∀ m, m < vs.length → ∃ a b, vs[m]? = some a ∧ us[m]? = some b ∧ pred a b = true)⌝ ∗ Own e P) := by
  refine transfer1 (e := e) (S_mismatch hf) (Algo.C47_mismatch (nf := True) pred h1 h2 hl) ?_ ?_ <;> intros <;> simp only [own_sep, own_hpure, own_ex, own_seg]

/-- `algo_equal_by`: are all pairs of elements in corresponding positions related? -/
theorem C67_equal (pred : W → W → Bool) (h1 : Rng P c i vs) (h2 : Rng P d j us) (hl : vs.length ≤ us.length) {pred2 : Loc → Loc → M V Bool} (hf : Compares e pred2 pred) :
    Triple True (Own e P) (Own.equal c i (i + vs.length) d j pred2) (fun r => ⌜r = true ↔ ∀ p, p ∈ vs.zip us → pred p.1 p.2 = true⌝ ∗ Own e P) := by
  refine transfer1 (e := e) (S_equal hf) (Algo.C47_equal (nf := True) pred h1 h2 hl) ?_ ?_ <;> intros <;> simp only [own_sep, own_hpure, own_ex, own_seg]

/-- `algo_find_by` -/
theorem C67_find (pred : W → W → Bool) (h : Rng P c i vs) (hw : Reads P value w) {pred2 : Loc → Loc → M V Bool} (hf : Compares e pred2 pred) :
    Triple True (Own e P) (Own.findBy c i (i + vs.length) value pred2) (fun r => ⌜FoundFirst (At vs fun v => pred v w = true) vs.length i r⌝ ∗ Own e P) := by
  refine transfer1 (e := e) (S_findBy hf) (Algo.C47_find (nf := True) pred h hw) ?_ ?_ <;> intros <;> simp only [own_sep, own_hpure, own_ex, own_seg]

/-- `algo_find_if` -/
theorem C67_find_if (pred : W → Bool) (h : Rng P c i vs) {pred2 : Loc → M V Bool} (hg : Tests e pred2 pred) :
    Triple True (Own e P) (Own.findIf c i (i + vs.length) pred2) (fun r => ⌜FoundFirst (At vs fun v => pred v = true) vs.length i r⌝ ∗ Own e P) := by
  refine transfer1 (e := e) (S_findIf hg) (Algo.C47_find_if (nf := True) pred h) ?_ ?_ <;> intros <;> simp only [own_sep, own_hpure, own_ex, own_seg]

/-- `algo_find_if_not` -/
theorem C67_find_if_not (pred : W → Bool) (h : Rng P c i vs) {pred2 : Loc → M V Bool} (hg : Tests e pred2 pred) :
    Triple True (Own e P) (Own.findIfNot c i (i + vs.length) pred2) (fun r => ⌜FoundFirst (At vs fun v => pred v = false) vs.length i r⌝ ∗ Own e P) := by
  refine transfer1 (e := e) (S_findIfNot hg) (Algo.C47_find_if_not (nf := True) pred h) ?_ ?_ <;> intros <;> simp only [own_sep, own_hpure, own_ex, own_seg]

/-- `algo_find_first_of_by`: the first element related to some element of the second range -/
theorem C67_find_first_of (pred : W → W → Bool) (h1 : Rng P c i vs) (h2 : Rng P d j us) {pred2 : Loc → Loc → M V Bool} (hf : Compares e pred2 pred) :
    Triple True (Own e P) (Own.findFirstOf c i (i + vs.length) d j (j + us.length) pred2) (fun r => ⌜FoundFirst (At vs fun v => ∃ u, u ∈ us ∧ pred v u = true) vs.length i r⌝ ∗ Own e P) := by
  refine transfer1 (e := e) (S_findFirstOf hf) (Algo.C47_find_first_of (nf := True) pred h1 h2) ?_ ?_ <;> intros <;> simp only [own_sep, own_hpure, own_ex, own_seg]

/-- `algo_find_last_of_by`: the last such element -/
theorem C67_find_last_of (pred : W → W → Bool) (h1 : Rng P c i vs) (h2 : Rng P d j us) {pred2 : Loc → Loc → M V Bool} (hf : Compares e pred2 pred) :
    Triple True (Own e P) (Own.findLastOf c i (i + vs.length) d j (j + us.length) pred2) (fun r => ⌜FoundLast (At vs fun v => ∃ u, u ∈ us ∧ pred v u = true) vs.length i r⌝ ∗ Own e P) := by
  refine transfer1 (e := e) (S_findLastOf hf) (Algo.C47_find_last_of (nf := True) pred h1 h2) ?_ ?_ <;> intros <;> simp only [own_sep, own_hpure, own_ex, own_seg]

/-- `algo_adjacent_find_by`: the first element related to its successor -/
theorem C67_adjacent_find (pred : W → W → Bool) (h : Rng P c i vs) {pred2 : Loc → Loc → M V Bool} (hf : Compares e pred2 pred) :
    Triple True (Own e P) (Own.adjacentFind c i (i + vs.length) pred2) (fun r => ⌜FoundFirst (AdjAt vs fun a b => pred a b = true) vs.length i r⌝ ∗ Own e P) := by
  refine transfer1 (e := e) (S_adjacentFind hf) (Algo.C47_adjacent_find (nf := True) pred h) ?_ ?_ <;> intros <;> simp only [own_sep, own_hpure, own_ex, own_seg]

/-- `algo_search_by`: the first occurrence of the second range -/
theorem C67_search (pred : W → W → Bool) (h1 : Rng P c i vs) (h2 : Rng P d j us) {pred2 : Loc → Loc → M V Bool} (hf : Compares e pred2 pred) :
    Triple True (Own e P) (Own.search c i (i + vs.length) d j (j + us.length) pred2) (fun r => ⌜FoundFirst (MatchAt vs us fun a b => pred a b = true) vs.length i r⌝ ∗ Own e P) := by
  refine transfer1 (e := e) (S_search hf) (Algo.C47_search (nf := True) pred h1 h2) ?_ ?_ <;> intros <;> simp only [own_sep, own_hpure, own_ex, own_seg]

/-- `algo_search_last_by`: the last occurrence of the second range -/
theorem C67_search_last (pred : W → W → Bool) (h1 : Rng P c i vs) (h2 : Rng P d j us) {pred2 : Loc → Loc → M V Bool} (hf : Compares e pred2 pred) :
    Triple True (Own e P) (Own.searchLast c i (i + vs.length) d j (j + us.length) pred2) (fun r => ⌜FoundLast (MatchAt vs us fun a b => pred a b = true) vs.length i r⌝ ∗ Own e P) := by
  refine transfer1 (e := e) (S_searchLast hf) (Algo.C47_search_last (nf := True) pred h1 h2) ?_ ?_ <;> intros <;> simp only [own_sep, own_hpure, own_ex, own_seg]

/-- `algo_search_n_by`: the first of `n > 0` consecutive elements related to the value -/
theorem C67_search_n (n : Nat) (hn : n ≠ 0) (pred : W → W → Bool) (h : Rng P c i vs) (hw : Reads P value w) {pred2 : Loc → Loc → M V Bool} (hf : Compares e pred2 pred) :
    Triple True (Own e P) (Own.searchN c i (i + vs.length) n value pred2) (fun r => ⌜FoundFirst (RunAt vs n fun v => pred v w = true) vs.length i r⌝ ∗ Own e P) := by
  refine transfer1 (e := e) (S_searchN hf) (Algo.C47_search_n (nf := True) n hn pred h hw) ?_ ?_ <;> intros <;> simp only [own_sep, own_hpure, own_ex, own_seg]

/-- `algo_search_last_n_by` -/
theorem C67_search_last_n (n : Nat) (hn : n ≠ 0) (pred : W → W → Bool) (h : Rng P c i vs) (hw : Reads P value w) {pred2 : Loc → Loc → M V Bool} (hf : Compares e pred2 pred) :
    Triple True (Own e P) (Own.searchLastN c i (i + vs.length) n value pred2) (fun r => ⌜FoundLast (RunAt vs n fun v => pred v w = true) vs.length i r⌝ ∗ Own e P) := by
  refine transfer1 (e := e) (S_searchLastN hf) (Algo.C47_search_last_n (nf := True) n hn pred h hw) ?_ ?_ <;> intros <;> simp only [own_sep, own_hpure, own_ex, own_seg]

/-- `algo_lower_bound_by`: on a range in which the elements less than the value come first, the boundary -/
theorem C67_lower_bound (comp : W → W → Bool) (h : Rng P c i vs) (hw : Reads P value w) (hp : Parted (fun v => comp v w) vs) {comp2 : Loc → Loc → M V Bool} (hf : Compares e comp2 comp) :
    Triple True (Own e P) (Own.lowerBound c i (i + vs.length) value comp2) (fun r => ⌜∃ k, r = i + k ∧ SplitAt (fun v => comp v w) vs k⌝ ∗ Own e P) := by
  refine transfer1 (e := e) (S_lowerBound hf) (Algo.C45_lower_bound (nf := True) comp h hw hp) ?_ ?_ <;> intros <;> simp only [own_sep, own_hpure, own_ex, own_seg]

/-- `algo_upper_bound_by`: on a range in which the elements greater than the value come last, the boundary -/
theorem C67_upper_bound (comp : W → W → Bool) (h : Rng P c i vs) (hw : Reads P value w) (hp : Parted (fun v => !comp w v) vs) {comp2 : Loc → Loc → M V Bool} (hf : Compares e comp2 comp) :
    Triple True (Own e P) (Own.upperBound c i (i + vs.length) value comp2) (fun r => ⌜∃ k, r = i + k ∧ SplitAt (fun v => !comp w v) vs k⌝ ∗ Own e P) := by
  refine transfer1 (e := e) (S_upperBound hf) (Algo.C45_upper_bound (nf := True) comp h hw hp) ?_ ?_ <;> intros <;> simp only [own_sep, own_hpure, own_ex, own_seg]

/-- `algo_binary_search_by`: is there an element equivalent to the value? -/
theorem C67_binary_search (comp : W → W → Bool) (h : Rng P c i vs) (hw : Reads P value w) (hp : Parted (fun v => comp v w) vs) (hp' : Parted (fun v => !comp w v) vs) {comp2 : Loc → Loc → M V Bool} (hf : Compares e comp2 comp) :
    Triple True (Own e P) (Own.binarySearch c i (i + vs.length) value comp2) (fun r => ⌜r = true ↔ ∃ v, v ∈ vs ∧ comp v w = false ∧ comp w v = false⌝ ∗ Own e P) := by
  refine transfer1 (e := e) (S_binarySearch hf) (Algo.C45_binary_search (nf := True) comp h hw hp hp') ?_ ?_ <;> intros <;> simp only [own_sep, own_hpure, own_ex, own_seg]

/-- `algo_equal_range_by`: both bounds -/
theorem C67_equal_range (comp : W → W → Bool) (h : Rng P c i vs) (hw : Reads P value w) (hp : Parted (fun v => comp v w) vs) (hp' : Parted (fun v => !comp w v) vs) {comp2 : Loc → Loc → M V Bool} (hf : Compares e comp2 comp) :
    Triple True (Own e P) (Own.equalRange c i (i + vs.length) value comp2)
      (fun r => ⌜∃ k l, r = (i + k, i + l) ∧ SplitAt (fun v => comp v w) vs k ∧ SplitAt (fun v => !comp w v) vs l⌝ ∗ Own e P) := by
  refine transfer1 (e := e) (S_equalRange hf) (Algo.C45_equal_range (nf := True) comp h hw hp hp') ?_ ?_ <;> intros <;> simp only [own_sep, own_hpure, own_ex, own_seg]

/-- `algo_copy` into a separate destination -/
theorem C67_copy (h : Rng P c i vs) (hl : vs.length ≤ us.length) :
    Triple True (Own e P ∗ oseg e d j us) (Own.copy o c i (i + vs.length) d j) (fun r => ⌜r = (vs.length, j + vs.length)⌝ ∗ Own e P ∗ oseg e d j (over us vs)) := by
  refine transfer1 (e := e) (S_copy) (Algo.C48_copy (nf := True) h hl) ?_ ?_ <;> intros <;> simp only [own_sep, own_hpure, own_ex, own_seg]

/-- `algo_copy` to a place further left in the same container: the destination begins before the source and may overlap it -/
theorem C67_copy_left (X : List W) :
    Triple True (oseg e c i (X ++ vs)) (Own.copy o c (i + X.length) (i + X.length + vs.length) c i)
      (fun r => ⌜r = (vs.length, i + vs.length)⌝ ∗ oseg e c i (over (X ++ vs) vs)) := by
  refine transfer1 (e := e) (S_copy) (Algo.C48_copy_left (nf := True) X) ?_ ?_ <;> intros <;> simp only [own_sep, own_hpure, own_ex, own_seg]

/-- `algo_copy_if` -/
theorem C67_copy_if (pred : W → Bool) (h : Rng P c i vs) (hl : (vs.filter pred).length ≤ us.length) {pred2 : Loc → M V Bool} (hg : Tests e pred2 pred) :
    Triple True (Own e P ∗ oseg e d j us) (Own.copyIf o c i (i + vs.length) d j pred2)
      (fun r => ⌜r = ((vs.filter pred).length, j + (vs.filter pred).length)⌝ ∗ Own e P ∗ oseg e d j (over us (vs.filter pred))) := by
  refine transfer1 (e := e) (S_copyIf hg) (Algo.C48_copy_if (nf := True) pred h hl) ?_ ?_ <;> intros <;> simp only [own_sep, own_hpure, own_ex, own_seg]

/-- `algo_copy_backward` into a separate destination: the elements end up in front of `d_last` -/
theorem C67_copy_backward (h : Rng P c i vs) (hl : vs.length ≤ us.length) :
    Triple True (Own e P ∗ oseg e d j us) (Own.copyBackward o c i (i + vs.length) d (j + us.length))
      (fun r => ⌜r = (vs.length, j + (us.length - vs.length))⌝ ∗ Own e P ∗ oseg e d j (overBack us vs)) := by
  refine transfer1 (e := e) (S_copyBackward) (Algo.C48_copy_backward (nf := True) h hl) ?_ ?_ <;> intros <;> simp only [own_sep, own_hpure, own_ex, own_seg]

/-- `algo_copy_backward` to a place further right in the same container, possibly overlapping -/
theorem C67_copy_backward_right (X : List W) :
    Triple True (oseg e c i (vs ++ X)) (Own.copyBackward o c i (i + vs.length) c (i + vs.length + X.length))
      (fun r => ⌜r = (vs.length, i + X.length)⌝ ∗ oseg e c i (overBack (vs ++ X) vs)) := by
  refine transfer1 (e := e) (S_copyBackward) (Algo.C48_copy_backward_right (nf := True) X) ?_ ?_ <;> intros <;> simp only [own_sep, own_hpure, own_ex, own_seg]

/-- `algo_fill` -/
theorem C67_fill (hw : Reads P value w) :
    Triple True (Own e P ∗ oseg e c i us) (Own.fill o c i (i + us.length) value) (fun r => ⌜r = us.length⌝ ∗ Own e P ∗ oseg e c i (List.replicate us.length w)) := by
  refine transfer1 (e := e) (S_fill) (Algo.C48_fill (nf := True) hw) ?_ ?_ <;> intros <;> simp only [own_sep, own_hpure, own_ex, own_seg]

/-- `algo_fill_n` -/
theorem C67_fill_n (hw : Reads P value w) :
    Triple True (Own e P ∗ oseg e c i us) (Own.fillN o c i us.length value) (fun r => ⌜r = i + us.length⌝ ∗ Own e P ∗ oseg e c i (List.replicate us.length w)) := by
  refine transfer1 (e := e) (S_fillN) (Algo.C48_fill_n (nf := True) hw) ?_ ?_ <;> intros <;> simp only [own_sep, own_hpure, own_ex, own_seg]

/-- `algo_transform` into a separate destination -/
theorem C67_transform (op : W → W) (h : Rng P c i vs) (hl : vs.length ≤ us.length) {op2 : Loc → M V Unit} (ho : Acts e op2 op) :
    Triple True (Own e P ∗ oseg e d j us) (Own.transform o c i (i + vs.length) d j op2) (fun r => ⌜r = vs.length⌝ ∗ Own e P ∗ oseg e d j (over us (vs.map op))) := by
  refine transfer1 (e := e) (S_transform ho) (Algo.C48_transform (nf := True) op h hl) ?_ ?_ <;> intros <;> simp only [own_sep, own_hpure, own_ex, own_seg]

/-- `algo_transform` in place -/
theorem C67_transform_in_place (op : W → W) {op2 : Loc → M V Unit} (ho : Acts e op2 op) :
    Triple True (oseg e c i vs) (Own.transform o c i (i + vs.length) c i op2) (fun r => ⌜r = vs.length⌝ ∗ oseg e c i (vs.map op)) := by
  refine transfer1 (e := e) (S_transform ho) (Algo.C48_transform_in_place (nf := True) op) ?_ ?_ <;> intros <;> simp only [own_sep, own_hpure, own_ex, own_seg]

/-- `algo_remove`: the remaining elements are moved to the front in their order; behind them are as many (unspecified) elements as were removed -/
theorem C67_remove (eq : W → W → Bool) (hw : Reads P value w) {eq2 : Loc → Loc → M V Bool} (hf : Compares e eq2 eq) :
    Triple True (Own e P ∗ oseg e c i vs) (Own.remove o c i (i + vs.length) value eq2)
      (fun r => ⌜r = ((vs.filter fun v => eq v w).length, i + (vs.filter fun v => !eq v w).length)⌝ ∗ Own e P ∗
        ∃ₛ T, ⌜T.length = (vs.filter fun v => eq v w).length⌝ ∗ oseg e c i ((vs.filter fun v => !eq v w) ++ T)) := by
  refine transfer1 (e := e) (S_remove hf) (Algo.C48_remove (nf := True) eq hw) ?_ ?_ <;> intros <;> simp only [own_sep, own_hpure, own_ex, own_seg]

/-- `algo_remove_if` -/
theorem C67_remove_if (pred : W → Bool) {pred2 : Loc → M V Bool} (hg : Tests e pred2 pred) :
    Triple True (oseg e c i vs) (Own.removeIf o c i (i + vs.length) pred2)
      (fun r => ⌜r = ((vs.filter pred).length, i + (vs.filter fun v => !pred v).length)⌝ ∗
        ∃ₛ T, ⌜T.length = (vs.filter pred).length⌝ ∗ oseg e c i ((vs.filter fun v => !pred v) ++ T)) := by
  refine transfer1 (e := e) (S_removeIf hg) (Algo.C48_remove_if (nf := True) pred) ?_ ?_ <;> intros <;> simp only [own_sep, own_hpure, own_ex, own_seg]

/-- `algo_remove_copy` -/
theorem C67_remove_copy (eq : W → W → Bool) (h : Rng P c i vs) (hw : Reads P value w) (hl : (vs.filter fun v => !eq v w).length ≤ us.length) {eq2 : Loc → Loc → M V Bool} (hf : Compares e eq2 eq) :
    Triple True (Own e P ∗ oseg e d j us) (Own.removeCopy o c i (i + vs.length) d j value eq2)
      (fun r => ⌜r = ((vs.filter fun v => !eq v w).length, j + (vs.filter fun v => !eq v w).length)⌝ ∗ Own e P ∗ oseg e d j (over us (vs.filter fun v => !eq v w))) := by
  refine transfer1 (e := e) (S_removeCopy hf) (Algo.C48_remove_copy (nf := True) eq h hw hl) ?_ ?_ <;> intros <;> simp only [own_sep, own_hpure, own_ex, own_seg]

/-- `algo_remove_copy_if` -/
theorem C67_remove_copy_if (pred : W → Bool) (h : Rng P c i vs) (hl : (vs.filter fun v => !pred v).length ≤ us.length) {pred2 : Loc → M V Bool} (hg : Tests e pred2 pred) :
    Triple True (Own e P ∗ oseg e d j us) (Own.removeCopyIf o c i (i + vs.length) d j pred2)
      (fun r => ⌜r = ((vs.filter fun v => !pred v).length, j + (vs.filter fun v => !pred v).length)⌝ ∗ Own e P ∗ oseg e d j (over us (vs.filter fun v => !pred v))) := by
  refine transfer1 (e := e) (S_removeCopyIf hg) (Algo.C48_remove_copy_if (nf := True) pred h hl) ?_ ?_ <;> intros <;> simp only [own_sep, own_hpure, own_ex, own_seg]

/-- `algo_replace`; returns the number of replaced elements -/
theorem C67_replace (eq : W → W → Bool) (hw : Reads P value w) (hx : Reads P new x) {eq2 : Loc → Loc → M V Bool} (hf : Compares e eq2 eq) :
    Triple True (Own e P ∗ oseg e c i vs) (Own.replace o c i (i + vs.length) value new eq2)
      (fun r => ⌜r = (vs.filter fun v => eq v w).length⌝ ∗ Own e P ∗ oseg e c i (vs.map fun v => if eq v w then x else v)) := by
  refine transfer1 (e := e) (S_replace hf) (Algo.C48_replace (nf := True) eq hw hx) ?_ ?_ <;> intros <;> simp only [own_sep, own_hpure, own_ex, own_seg]

/-- `algo_replace_if` -/
theorem C67_replace_if (pred : W → Bool) (hx : Reads P new x) {pred2 : Loc → M V Bool} (hg : Tests e pred2 pred) :
    Triple True (Own e P ∗ oseg e c i vs) (Own.replaceIf o c i (i + vs.length) pred2 new)
      (fun r => ⌜r = (vs.filter pred).length⌝ ∗ Own e P ∗ oseg e c i (vs.map fun v => if pred v then x else v)) := by
  refine transfer1 (e := e) (S_replaceIf hg) (Algo.C48_replace_if (nf := True) pred hx) ?_ ?_ <;> intros <;> simp only [own_sep, own_hpure, own_ex, own_seg]

/-- `algo_replace_copy` -/
theorem C67_replace_copy (eq : W → W → Bool) (h : Rng P c i vs) (hw : Reads P value w) (hx : Reads P new x) (hl : vs.length ≤ us.length) {eq2 : Loc → Loc → M V Bool} (hf : Compares e eq2 eq) :
    Triple True (Own e P ∗ oseg e d j us) (Own.replaceCopy o c i (i + vs.length) d j value new eq2)
      (fun r => ⌜r = (vs.length, j + vs.length)⌝ ∗ Own e P ∗ oseg e d j (over us (vs.map fun v => if eq v w then x else v))) := by
  refine transfer1 (e := e) (S_replaceCopy hf) (Algo.C48_replace_copy (nf := True) eq h hw hx hl) ?_ ?_ <;> intros <;> simp only [own_sep, own_hpure, own_ex, own_seg]

/-- `algo_replace_copy_if` -/
theorem C67_replace_copy_if (pred : W → Bool) (h : Rng P c i vs) (hx : Reads P new x) (hl : vs.length ≤ us.length) {pred2 : Loc → M V Bool} (hg : Tests e pred2 pred) :
    Triple True (Own e P ∗ oseg e d j us) (Own.replaceCopyIf o c i (i + vs.length) d j pred2 new)
      (fun r => ⌜r = (vs.length, j + vs.length)⌝ ∗ Own e P ∗ oseg e d j (over us (vs.map fun v => if pred v then x else v))) := by
  refine transfer1 (e := e) (S_replaceCopyIf hg) (Algo.C48_replace_copy_if (nf := True) pred h hx hl) ?_ ?_ <;> intros <;> simp only [own_sep, own_hpure, own_ex, own_seg]

/-- `algo_swap_range`: two separate ranges of the same length exchange their contents -/
theorem C67_swap_range (hl : vs.length = us.length) :
    Triple True (oseg e c i vs ∗ oseg e d j us) (Own.swapRange o c i (i + vs.length) d j) (fun r => ⌜r = vs.length⌝ ∗ oseg e c i us ∗ oseg e d j vs) := by
  refine transfer1 (e := e) (S_swapRange) (Algo.C48_swap_range (nf := True) hl) ?_ ?_ <;> intros <;> simp only [own_sep, own_hpure, own_ex, own_seg]

/-- `algo_reverse` -/
theorem C67_reverse :
    Triple True (oseg e c i vs) (Own.reverse o c i (i + vs.length)) (fun r => ⌜r = vs.length⌝ ∗ oseg e c i vs.reverse) := by
  refine transfer1 (e := e) (S_reverse) (Algo.C48_reverse (nf := True) ) ?_ ?_ <;> intros <;> simp only [own_sep, own_hpure, own_ex, own_seg]

/-- `algo_reverse_copy` -/
theorem C67_reverse_copy (h : Rng P c i vs) (hl : vs.length ≤ us.length) :
    Triple True (Own e P ∗ oseg e d j us) (Own.reverseCopy o c i (i + vs.length) d j) (fun r => ⌜r = (vs.length, j + vs.length)⌝ ∗ Own e P ∗ oseg e d j (over us vs.reverse)) := by
  refine transfer1 (e := e) (S_reverseCopy) (Algo.C48_reverse_copy (nf := True) h hl) ?_ ?_ <;> intros <;> simp only [own_sep, own_hpure, own_ex, own_seg]

/-- `algo_rotate`: the two parts of the range change places; the new place of the first element is returned -/
theorem C67_rotate (A B : List W) :
    Triple True (oseg e c i (A ++ B)) (Own.rotate o c i (i + A.length) (i + A.length + B.length)) (fun r => ⌜r = i + B.length⌝ ∗ oseg e c i (B ++ A)) := by
  refine transfer1 (e := e) (S_rotate) (Algo.C48_rotate (nf := True) A B) ?_ ?_ <;> intros <;> simp only [own_sep, own_hpure, own_ex, own_seg]

/-- `algo_rotate_copy` -/
theorem C67_rotate_copy (A B : List W) (h : Rng P c i (A ++ B)) (hl : A.length + B.length ≤ us.length) :
    Triple True (Own e P ∗ oseg e d j us) (Own.rotateCopy o c i (i + A.length) (i + A.length + B.length) d j)
      (fun r => ⌜r = (A.length + B.length, j + A.length + B.length)⌝ ∗ Own e P ∗ oseg e d j (over us (B ++ A))) := by
  refine transfer1 (e := e) (S_rotateCopy) (Algo.C48_rotate_copy (nf := True) A B h hl) ?_ ?_ <;> intros <;> simp only [own_sep, own_hpure, own_ex, own_seg]

/-- `algo_unique_by`: only the first element of each run of related elements remains -/
theorem C67_unique (pred : W → W → Bool) {pred2 : Loc → Loc → M V Bool} (hf : Compares e pred2 pred) :
    Triple True (oseg e c i vs) (Own.unique o c i (i + vs.length) pred2)
      (fun r => ⌜r = ((uniq pred vs).length, i + (uniq pred vs).length)⌝ ∗
        ∃ₛ T, ⌜(uniq pred vs).length + T.length = vs.length⌝ ∗ oseg e c i (uniq pred vs ++ T)) := by
  refine transfer1 (e := e) (S_unique hf) (Algo.C48_unique (nf := True) pred) ?_ ?_ <;> intros <;> simp only [own_sep, own_hpure, own_ex, own_seg]

/-- `algo_unique_copy_by` -/
theorem C67_unique_copy (pred : W → W → Bool) (h : Rng P c i vs) (hl : (uniq pred vs).length ≤ us.length) {pred2 : Loc → Loc → M V Bool} (hf : Compares e pred2 pred) :
    Triple True (Own e P ∗ oseg e d j us) (Own.uniqueCopy o c i (i + vs.length) d j pred2)
      (fun r => ⌜r = ((uniq pred vs).length, j + (uniq pred vs).length)⌝ ∗ Own e P ∗ oseg e d j (over us (uniq pred vs))) := by
  refine transfer1 (e := e) (S_uniqueCopy hf) (Algo.C48_unique_copy (nf := True) pred h hl) ?_ ?_ <;> intros <;> simp only [own_sep, own_hpure, own_ex, own_seg]

/-- `algo_is_partitioned` -/
theorem C67_is_partitioned (pred : W → Bool) (h : Rng P c i vs) {pred2 : Loc → M V Bool} (hg : Tests e pred2 pred) :
    Triple True (Own e P) (Own.isPartitioned c i (i + vs.length) pred2) (fun r => ⌜r = true ↔ Parted pred vs⌝ ∗ Own e P) := by
  refine transfer1 (e := e) (S_isPartitioned hg) (Algo.C49_is_partitioned (nf := True) pred h) ?_ ?_ <;> intros <;> simp only [own_sep, own_hpure, own_ex, own_seg]

/-- `algo_partition`: a permutation of the elements, first those with, then those without the property; the boundary is returned -/
theorem C67_partition (pred : W → Bool) {pred2 : Loc → M V Bool} (hg : Tests e pred2 pred) :
    Triple True (oseg e c i vs) (Own.partition o c i (i + vs.length) pred2)
      (fun r => ∃ₛ A, ∃ₛ B, ⌜r = i + A.length ∧ (A ++ B).Perm vs ∧ (∀ v, v ∈ A → pred v = true) ∧ (∀ v, v ∈ B → pred v = false)⌝ ∗ oseg e c i (A ++ B)) := by
  refine transfer1 (e := e) (S_partition hg) (Algo.C49_partition (nf := True) pred) ?_ ?_ <;> intros <;> simp only [own_sep, own_hpure, own_ex, own_seg]

/-- `algo_partition_point` -/
theorem C67_partition_point (pred : W → Bool) (h : Rng P c i vs) (hp : Parted pred vs) {pred2 : Loc → M V Bool} (hg : Tests e pred2 pred) :
    Triple True (Own e P) (Own.partitionPoint c i (i + vs.length) pred2) (fun r => ⌜∃ k, r = i + k ∧ SplitAt pred vs k⌝ ∗ Own e P) := by
  refine transfer1 (e := e) (S_partitionPoint hg) (Algo.C49_partition_point (nf := True) pred h hp) ?_ ?_ <;> intros <;> simp only [own_sep, own_hpure, own_ex, own_seg]

/-- `algo_max_element_by`: the first of the greatest elements -/
theorem C67_max_element (comp : W → W → Bool) (hsw : StrictWeak comp) (h : Rng P c i vs) (hne : vs ≠ []) {comp2 : Loc → Loc → M V Bool} (hf : Compares e comp2 comp) :
    Triple True (Own e P) (Own.maxElement c i (i + vs.length) comp2) (fun r => ⌜∃ k, r = i + k ∧ IsFirst (At vs fun v => ∀ u, u ∈ vs → comp v u = false) vs.length k⌝ ∗ Own e P) := by
  refine transfer1 (e := e) (S_maxElement hf) (Algo.C50_max_element (nf := True) comp hsw h hne) ?_ ?_ <;> intros <;> simp only [own_sep, own_hpure, own_ex, own_seg]

/-- `algo_min_element_by`: the first of the least elements -/
theorem C67_min_element (comp : W → W → Bool) (hsw : StrictWeak comp) (h : Rng P c i vs) (hne : vs ≠ []) {comp2 : Loc → Loc → M V Bool} (hf : Compares e comp2 comp) :
    Triple True (Own e P) (Own.minElement c i (i + vs.length) comp2) (fun r => ⌜∃ k, r = i + k ∧ IsFirst (At vs fun v => ∀ u, u ∈ vs → comp u v = false) vs.length k⌝ ∗ Own e P) := by
  refine transfer1 (e := e) (S_minElement hf) (Algo.C50_min_element (nf := True) comp hsw h hne) ?_ ?_ <;> intros <;> simp only [own_sep, own_hpure, own_ex, own_seg]

/-- `algo_minmax_element_by` -/
theorem C67_minmax_element (comp : W → W → Bool) (hsw : StrictWeak comp) (h : Rng P c i vs) (hne : vs ≠ []) {comp2 : Loc → Loc → M V Bool} (hf : Compares e comp2 comp) :
    Triple True (Own e P) (Own.minmaxElement c i (i + vs.length) comp2)
      (fun r => ⌜∃ k l, r = (i + k, i + l) ∧ IsFirst (At vs fun v => ∀ u, u ∈ vs → comp u v = false) vs.length k ∧
        IsFirst (At vs fun v => ∀ u, u ∈ vs → comp v u = false) vs.length l⌝ ∗ Own e P) := by
  refine transfer1 (e := e) (S_minmaxElement hf) (Algo.C50_minmax_element (nf := True) comp hsw h hne) ?_ ?_ <;> intros <;> simp only [own_sep, own_hpure, own_ex, own_seg]

/-- `algo_lexicographical_compare_by` is the dictionary order. -/
theorem C67_lexicographical_compare (comp : W → W → Bool) (h1 : Rng P c i vs) (h2 : Rng P d j us) {comp2 : Loc → Loc → M V Bool} (hf : Compares e comp2 comp) :
    Triple True (Own e P) (Own.lexCompare c i (i + vs.length) d j (j + us.length) comp2) (fun r => ⌜r = true ↔ LexLt comp vs us⌝ ∗ Own e P) := by
  refine transfer1 (e := e) (S_lexCompare hf) (Algo.C50_lexicographical_compare (nf := True) comp h1 h2) ?_ ?_ <;> intros <;> simp only [own_sep, own_hpure, own_ex, own_seg]

/-- `algo_random_shuffle_by` permutes, whatever the generator returns, provided `r(k)` is below `k` as documented -/
theorem C67_random_shuffle (r : Nat → Nat) (hr : ∀ k, k < vs.length - 1 → r (k + 1) < k + 2) :
    Triple True (oseg e c i vs) (Own.shuffle o c i (i + vs.length) r) (fun _ => ∃ₛ ws, ⌜ws.Perm vs⌝ ∗ oseg e c i ws) := by
  refine transfer1 (e := e) (S_shuffle) (Algo.C51_random_shuffle (nf := True) r hr) ?_ ?_ <;> intros <;> simp only [own_sep, own_hpure, own_ex, own_seg]

/-- `algo_sort_by` on at most 512 elements: a sorted permutation -/
theorem C67_sort_short_partial (hsw : StrictWeak comp) (hn : vs.length ≤ 512) {comp2 : Loc → Loc → M V Bool} (hf : Compares e comp2 comp) :
    Triple True (oseg e c i vs) (Own.sort o c i (i + vs.length) comp2) (fun _ => ∃ₛ ws, ⌜ws.Perm vs ∧ Sorted comp ws⌝ ∗ oseg e c i ws) := by
  refine transfer1 (e := e) (S_sort hf) (Algo.C41_sort_short_partial (nf := True) hsw hn) ?_ ?_ <;> intros <;> simp only [own_sep, own_hpure, own_ex, own_seg]

/-- `algo_sort_by` on any range: in bounds, terminates, the result is sorted and contains no strange elements.  Missing: that no element is lost (it is not true, see below). -/
theorem C67_sort_any_partial (hsw : StrictWeak comp) {comp2 : Loc → Loc → M V Bool} (hf : Compares e comp2 comp) :
    Triple True (oseg e c i vs) (Own.sort o c i (i + vs.length) comp2) (fun _ => ∃ₛ ws, ⌜ws.length = vs.length ∧ Sorted comp ws ∧ (∀ x, x ∈ ws → x ∈ vs)⌝ ∗ oseg e c i ws) := by
  refine transfer1 (e := e) (S_sort hf) (Algo.C41_sort_any_partial (nf := True) hsw) ?_ ?_ <;> intros <;> simp only [own_sep, own_hpure, own_ex, own_seg]

/-- `algo_make_heap_by` -/
theorem C67_make_heap (hsw : StrictWeak comp) {comp2 : Loc → Loc → M V Bool} (hf : Compares e comp2 comp) :
    Triple True (oseg e c i vs) (Own.makeHeap o c i (i + vs.length) comp2) (fun _ => ∃ₛ ws, ⌜ws.Perm vs ∧ IsHeap comp ws⌝ ∗ oseg e c i ws) := by
  refine transfer1 (e := e) (S_makeHeap hf) (Algo.C43_make_heap (nf := True) hsw) ?_ ?_ <;> intros <;> simp only [own_sep, own_hpure, own_ex, own_seg]

/-- `algo_pop_heap_by`: a maximum goes to the end, the others remain a heap -/
theorem C67_pop_heap (hsw : StrictWeak comp) (hne : vs ≠ []) (hh : IsHeap comp vs) {comp2 : Loc → Loc → M V Bool} (hf : Compares e comp2 comp) :
    Triple True (oseg e c i vs) (Own.popHeap o c i (i + vs.length) comp2)
      (fun _ => ∃ₛ ws, ∃ₛ a, ⌜(ws ++ [a]).Perm vs ∧ IsHeap comp ws ∧ IsMax comp vs a⌝ ∗ oseg e c i (ws ++ [a])) := by
  refine transfer1 (e := e) (S_popHeap hf) (Algo.C43_pop_heap (nf := True) hsw hne hh) ?_ ?_ <;> intros <;> simp only [own_sep, own_hpure, own_ex, own_seg]

/-- `algo_sort_heap_by` -/
theorem C67_sort_heap (hsw : StrictWeak comp) (hh : IsHeap comp vs) {comp2 : Loc → Loc → M V Bool} (hf : Compares e comp2 comp) :
    Triple True (oseg e c i vs) (Own.sortHeap o c i (i + vs.length) comp2) (fun _ => ∃ₛ ws, ⌜ws.Perm vs ∧ Sorted comp ws⌝ ∗ oseg e c i ws) := by
  refine transfer1 (e := e) (S_sortHeap hf) (Algo.C43_sort_heap (nf := True) hsw hh) ?_ ?_ <;> intros <;> simp only [own_sep, own_hpure, own_ex, own_seg]

/-- `algo_is_heap_by` -/
theorem C67_is_heap (hR : Rng P c i vs) {comp2 : Loc → Loc → M V Bool} (hf : Compares e comp2 comp) :
    Triple True (Own e P) (Own.isHeap c i (i + vs.length) comp2) (fun r => ⌜r = true ↔ IsHeap comp vs⌝ ∗ Own e P) := by
  refine transfer1 (e := e) (S_isHeap hf) (Algo.C43_is_heap (nf := True) hR) ?_ ?_ <;> intros <;> simp only [own_sep, own_hpure, own_ex, own_seg]

/-- `algo_is_sorted_by` -/
theorem C67_is_sorted (hsw : StrictWeak comp) (hR : Rng P c i vs) {comp2 : Loc → Loc → M V Bool} (hf : Compares e comp2 comp) :
    Triple True (Own e P) (Own.isSorted c i (i + vs.length) comp2) (fun r => ⌜r = true ↔ Sorted comp vs⌝ ∗ Own e P) := by
  refine transfer1 (e := e) (S_isSorted hf) (Algo.C44_is_sorted (nf := True) hsw hR) ?_ ?_ <;> intros <;> simp only [own_sep, own_hpure, own_ex, own_seg]

/-- `algo_merge_by`: a sorted permutation of both inputs; of equivalent elements those of the second range come first, in the order of the inputs -/
theorem C67_merge (hsw : StrictWeak comp) (hR : Rng P c i xs) (hR' : Rng P c' i' ys) (hx : Sorted comp xs) (hy : Sorted comp ys) (hl : xs.length + ys.length ≤ us.length) {comp2 : Loc → Loc → M V Bool} (hf : Compares e comp2 comp) :
    Triple True (Own e P ∗ oseg e d j us) (Own.merge o c i (i + xs.length) c' i' (i' + ys.length) d j comp2)
      (fun r => ∃ₛ zs, ⌜zs.Perm (xs ++ ys) ∧ Sorted comp zs ∧ StableOf comp (ys ++ xs) zs ∧ r = (zs.length, j + zs.length)⌝ ∗ Own e P ∗ oseg e d j (over us zs)) := by
  refine transfer1 (e := e) (S_merge hf) (Algo.C46_merge (nf := True) hsw hR hR' hx hy hl) ?_ ?_ <;> intros <;> simp only [own_sep, own_hpure, own_ex, own_seg]

/-- `algo_includes_by` -/
theorem C67_includes (hsw : StrictWeak comp) (hR : Rng P c i xs) (hR' : Rng P c' i' ys) (hx : Sorted comp xs) (hy : Sorted comp ys) {comp2 : Loc → Loc → M V Bool} (hf : Compares e comp2 comp) :
    Triple True (Own e P) (Own.includes c i (i + xs.length) c' i' (i' + ys.length) comp2) (fun r => ⌜r = true ↔ Includes comp xs ys⌝ ∗ Own e P) := by
  refine transfer1 (e := e) (S_includes hf) (Algo.C46_includes (nf := True) hsw hR hR' hx hy) ?_ ?_ <;> intros <;> simp only [own_sep, own_hpure, own_ex, own_seg]

/-- `algo_set_union_by` -/
theorem C67_union (hsw : StrictWeak comp) (hR : Rng P c i xs) (hR' : Rng P c' i' ys) (hx : Sorted comp xs) (hy : Sorted comp ys) (hl : xs.length + ys.length ≤ us.length) {comp2 : Loc → Loc → M V Bool} (hf : Compares e comp2 comp) :
    Triple True (Own e P ∗ oseg e d j us) (Own.setUnion o c i (i + xs.length) c' i' (i' + ys.length) d j comp2)
      (fun r => ∃ₛ zs, ⌜IsUnion comp xs ys zs ∧ r = (zs.length, j + zs.length)⌝ ∗ Own e P ∗ oseg e d j (over us zs)) := by
  refine transfer1 (e := e) (S_setUnion hf) (Algo.C46_union (nf := True) hsw hR hR' hx hy hl) ?_ ?_ <;> intros <;> simp only [own_sep, own_hpure, own_ex, own_seg]

/-- `algo_set_intersection_by`: the destination needs no more room than the first range -/
theorem C67_intersection (hsw : StrictWeak comp) (hR : Rng P c i xs) (hR' : Rng P c' i' ys) (hx : Sorted comp xs) (hy : Sorted comp ys) (hl : xs.length ≤ us.length) {comp2 : Loc → Loc → M V Bool} (hf : Compares e comp2 comp) :
    Triple True (Own e P ∗ oseg e d j us) (Own.setIntersection o c i (i + xs.length) c' i' (i' + ys.length) d j comp2)
      (fun r => ∃ₛ zs, ⌜IsIntersection comp xs ys zs ∧ r = (zs.length, j + zs.length)⌝ ∗ Own e P ∗ oseg e d j (over us zs)) := by
  refine transfer1 (e := e) (S_setIntersection hf) (Algo.C46_intersection (nf := True) hsw hR hR' hx hy hl) ?_ ?_ <;> intros <;> simp only [own_sep, own_hpure, own_ex, own_seg]

/-- `algo_set_difference_by` on any two sorted ranges: exactly what it does (an element of the second range strikes out at most one element of the first, and is used up even where it strikes
nothing; `struck`, see C46) -/
theorem C67_difference_exact_partial (hsw : StrictWeak comp) (hR : Rng P c i xs) (hR' : Rng P c' i' ys) (hy : Sorted comp ys) (hl : xs.length ≤ us.length) {comp2 : Loc → Loc → M V Bool} (hf : Compares e comp2 comp) :
    Triple True (Own e P ∗ oseg e d j us) (Own.setDifference o c i (i + xs.length) c' i' (i' + ys.length) d j comp2)
      (fun r => ⌜r = ((struck comp xs ys).length, j + (struck comp xs ys).length)⌝ ∗ Own e P ∗ oseg e d j (over us (struck comp xs ys))) := by
  refine transfer1 (e := e) (S_setDifference hf) (Algo.C46_difference_exact_partial (nf := True) hsw hR hR' hy hl) ?_ ?_ <;> intros <;> simp only [own_sep, own_hpure, own_ex, own_seg]

/-- `algo_set_difference_by`, under the hypothesis of C46 under which it computes the difference -/
theorem C67_difference_partial (hsw : StrictWeak comp) (hR : Rng P c i xs) (hR' : Rng P c' i' ys) (hx : Sorted comp xs) (hy : Sorted comp ys) (hi : IncludesLow comp xs ys) (hl : xs.length ≤ us.length) {comp2 : Loc → Loc → M V Bool} (hf : Compares e comp2 comp) :
    Triple True (Own e P ∗ oseg e d j us) (Own.setDifference o c i (i + xs.length) c' i' (i' + ys.length) d j comp2)
      (fun r => ∃ₛ zs, ⌜IsDifference comp xs ys zs ∧ r = (zs.length, j + zs.length)⌝ ∗ Own e P ∗ oseg e d j (over us zs)) := by
  refine transfer1 (e := e) (S_setDifference hf) (Algo.C46_difference_partial (nf := True) hsw hR hR' hx hy hi hl) ?_ ?_ <;> intros <;> simp only [own_sep, own_hpure, own_ex, own_seg]

/-- `algo_set_symmetric_difference_by` -/
theorem C67_symmetric_difference (hsw : StrictWeak comp) (hR : Rng P c i xs) (hR' : Rng P c' i' ys) (hx : Sorted comp xs) (hy : Sorted comp ys) (hl : xs.length + ys.length ≤ us.length) {comp2 : Loc → Loc → M V Bool} (hf : Compares e comp2 comp) :
    Triple True (Own e P ∗ oseg e d j us) (Own.setSymDifference o c i (i + xs.length) c' i' (i' + ys.length) d j comp2)
      (fun r => ∃ₛ zs, ⌜IsSymDifference comp xs ys zs ∧ r = (zs.length, j + zs.length)⌝ ∗ Own e P ∗ oseg e d j (over us zs)) := by
  refine transfer1 (e := e) (S_setSymDifference hf) (Algo.C46_symmetric_difference (nf := True) hsw hR hR' hx hy hl) ?_ ?_ <;> intros <;> simp only [own_sep, own_hpure, own_ex, own_seg]

end CC.Own
