import Verif.Algo.Alias
import Verif.Algo.NonModSpec2
import Verif.Algo.BSearch
import Verif.Props.CModify
/-!
# C91: value arguments that are elements of the range itself

`seg c i vs` is a range of elements with the values `vs` (Verif/Algo/Base.lean), `c (i + k)` the location of its element `k`.  The functions take the value to look for, to
remove, to replace or to write by reference; here the reference points into the range.
-/
namespace CC.Algo
open CC CC.Tac
variable {V : Type} {nf : Prop} {c : Slots} {i k : Nat} {vs : List V} {F : HProp V} {w x : V}

/-- Filling a range with one of its own elements: every element gets that value. -/
theorem C91_fill (hk : vs[k]? = some w) :
    Triple nf (seg c i vs ∗ F) (fill c i (i + vs.length) (c (i + k))) (fun r => ⌜r = vs.length⌝ ∗ seg c i (List.replicate vs.length w) ∗ F) := by
  have := fillLoop_own (nf := nf) (c := c) (i := i) (us := vs) (F := F) (j := 0) (n := 0) (Nat.zero_le _) hk
  unfold fill
  simpa using this

/-- `algo_fill_n` on the first `n` elements, with a value that may lie among them or behind them -/
theorem C91_fill_n {n : Nat} (hn : n ≤ vs.length) (hk : vs[k]? = some w) :
    Triple nf (seg c i vs ∗ F) (fillN c i n (c (i + k))) (fun r => ⌜r = i + n⌝ ∗ seg c i (List.replicate n w ++ vs.drop n) ∗ F) := by
  have := fillN_own (nf := nf) (c := c) (i := i) (us := vs) (F := F) (j := 0) (n := n) (by omega) hk
  simpa using this

/-- Replacing by an element of the range: the new value is the same throughout. -/
theorem C91_replace_new (eq : V → V → Bool) {old : Loc} (hw : Reads F old w) (hk : vs[k]? = some x) :
    Triple nf (seg c i vs ∗ F) (replace c i (i + vs.length) old (c (i + k)) eq)
      (fun r => ⌜r = (vs.filter fun v => eq v w).length⌝ ∗ seg c i (vs.map fun v => if eq v w then x else v) ∗ F) := replace_newOwn hw hk

theorem C91_replace_if_new (pred : V → Bool) (hk : vs[k]? = some x) :
    Triple nf (seg c i vs ∗ F) (replaceIf c i (i + vs.length) pred (c (i + k)))
      (fun r => ⌜r = (vs.filter pred).length⌝ ∗ seg c i (vs.map fun v => if pred v then x else v) ∗ F) := replaceIf_newOwn hk

/-- Replacing an element of the range and everything equal to it, exactly: up to the element itself equality with its value `w` decides, behind it equality with the new
value `x` (the element has been overwritten). -/
theorem C91_replace_old_exact (eq : V → V → Bool) {new : Loc} {A B : List V} (hx : Reads F new x) (he : eq w w = true) :
    Triple nf (seg c i (A ++ w :: B) ∗ F) (replace c i (i + (A ++ w :: B).length) (c (i + A.length)) new eq)
      (fun r => ⌜r = (A.filter fun v => eq v w).length + 1 + (B.filter fun v => eq v x).length⌝ ∗
        seg c i ((A.map fun v => if eq v w then x else v) ++ x :: B.map fun v => if eq v x then x else v) ∗ F) := replace_oldOwn hx he

/-- The part that holds: replace with a reference to the last element with that value (and no element already equal to the new one behind it) replaces them all. -/
theorem C91_replace_old_partial (eq : V → V → Bool) {new : Loc} {A B : List V} (hx : Reads F new x) (he : eq w w = true) (hB : ∀ v ∈ B, eq v w = false ∧ eq v x = false) :
    Triple nf (seg c i (A ++ w :: B) ∗ F) (replace c i (i + (A ++ w :: B).length) (c (i + A.length)) new eq)
      (fun r => ⌜r = ((A ++ w :: B).filter fun v => eq v w).length⌝ ∗ seg c i ((A ++ w :: B).map fun v => if eq v w then x else v) ∗ F) := by
  refine Triple.post (replace_oldOwn hx he) fun r => ?_
  refine ent_pure_left fun h => ent_pure_right ?_ ?_
  · have f1 : (B.filter fun v => eq v w) = [] := List.filter_eq_nil_iff.2 fun v hv => by simp [(hB v hv).1]
    have f2 : (B.filter fun v => eq v x) = [] := List.filter_eq_nil_iff.2 fun v hv => by simp [(hB v hv).2]
    rw [h, List.filter_append, List.filter_cons_of_pos (by simpa using he), f1, f2]
    simp
  · rw [List.map_append, List.map_cons, if_pos he]
    have e1 : (B.map fun v => if eq v w then x else v) = B := (List.map_congr_left (g := id) fun v hv => by simp [(hB v hv).1]).trans (List.map_id B)
    have e2 : (B.map fun v => if eq v x then x else v) = B := (List.map_congr_left (g := id) fun v hv => by simp [(hB v hv).2]).trans (List.map_id B)
    rw [e1, e2]
    exact ent_refl _

/-- Two equal elements, the first given as the value to replace: only the first is replaced. -/
theorem C91_replace_violated (eq : V → V → Bool) {new : Loc} (hx : Reads F new x) (he : eq w w = true) (hne : eq w x = false) :
    Triple nf (seg c i [w, w] ∗ F) (replace c i (i + 2) (c i) new eq) (fun r => ⌜r = 1⌝ ∗ seg c i [x, w] ∗ F) := by
  have := C91_replace_old_exact (nf := nf) (c := c) (i := i) (A := []) (B := [w]) eq hx he
  simpa [hne] using this

/-- The part that holds: remove with a reference to an element at a position that is not reached by the kept elements removes exactly the equal ones. -/
theorem C91_remove_partial (eq : V → V → Bool) (hk : vs[k]? = some w) (hs : (vs.filter fun v => !eq v w).length ≤ k) :
    Triple nf (seg c i vs ∗ F) (remove c i (i + vs.length) (c (i + k)) eq)
      (fun r => ⌜r = ((vs.filter fun v => eq v w).length, i + (vs.filter fun v => !eq v w).length)⌝ ∗
        (∃ₛ T, ⌜T.length = (vs.filter fun v => eq v w).length⌝ ∗ seg c i ((vs.filter fun v => !eq v w) ++ T)) ∗ F) := remove_own hk hs

/-- In general it does not: of `a b a`, with the first element as the value, one `a` survives. -/
theorem C91_remove_violated (eq : V → V → Bool) {a b : V} (h1 : eq a a = true) (h2 : eq b a = false) (h3 : eq a b = false) :
    Triple nf (seg c i [a, b, a] ∗ F) (remove c i (i + 3) (c i) eq) (fun r => ⌜r = (1, i + 2)⌝ ∗ seg c i [b, a, a] ∗ F) := remove_own_wrong h1 h2 h3

/-- Swapping an element with itself changes nothing. -/
theorem C91_swap_self {l : Loc} {v : V} : Triple nf (pts l (.obj (some v)) ∗ F) (swp l l) (fun _ => pts l (.obj (some v)) ∗ F) := swp_self

/-- Counting the elements equal to an element of the range -/
theorem C91_count (eq : V → V → Bool) (hk : vs[k]? = some w) :
    Triple nf (seg c i vs) (count c i (i + vs.length) (c (i + k)) eq) (fun r => ⌜r = (vs.filter fun v => eq v w).length⌝ ∗ seg c i vs) := by
  obtain ⟨hkl, hkv⟩ := List.getElem?_eq_some_iff.1 hk
  refine Triple.post (count_spec seg_rng (hkv ▸ seg_rng k hkl)) fun r => ?_
  rw [List.countP_eq_length_filter]
  exact ent_refl _

/-- Finding the first element equal to an element of the range -/
theorem C91_find (eq : V → V → Bool) (hk : vs[k]? = some w) :
    Triple nf (seg c i vs) (findBy c i (i + vs.length) (c (i + k)) eq) (fun r => ⌜FoundFirst (At vs fun v => eq v w = true) vs.length i r⌝ ∗ seg c i vs) := by
  obtain ⟨hkl, hkv⟩ := List.getElem?_eq_some_iff.1 hk
  have := findBy_spec (nf := nf) (pred := eq) (seg_rng (c := c) (i := i) (vs := vs)) (seg_rng k hkl)
  rw [hkv] at this
  exact this

/-- the hypotheses are met: `[5, 7, 5]` with its last element as the value can be handled by all of the above; the value to write is outside -/
example : ∃ (m : Mem Nat) (c : Slots) (new : Loc), (seg c 0 [5, 7, 5] ∗ pts new (.obj (some 9))) m.cells ∧ ([5, 7, 5] : List Nat)[2]? = some 5 ∧
    (([5, 7, 5] : List Nat).filter fun v => !(v == 5)).length ≤ 2 ∧ Reads (pts new (.obj (some (9 : Nat)))) new 9 := by
  obtain ⟨m, _, hm⟩ := exists_array [5, 7, 5, 9] (fun _ => 1)
  refine ⟨m, fun t => (1, 1 + t), (1, 4), ?_, rfl, by decide, ?_⟩
  · simpa [arr, seg, sep_assoc] using hm
  · exact Reads.pts

end CC.Algo
