import Verif.List.Time4
import Verif.Props.CList
/-!
# Property C86: operations on whole lists take linear time, sorting n log n

`TripleC nf P m Q k` (Verif/Core/Cost.lean) is `Triple nf P m Q` with the further claim that the call reads, writes, allocates and releases at most `k` times altogether.
The bounds are functions of the lengths of the lists alone: they hold for every value, comparison function, placement of the nodes and allocator.
-/
namespace CC.CList
open CC.Tac
variable {V : Type} {E : Types V} {nf : Prop} {l s o s2 : Addr} {ty t2 : Nat} {xs ys : List (Elem V)} {R : HProp V}

/-- `c_list_size` walks the list once -/
theorem C86_list_size : TripleC nf (isList l s ty xs) (size l) (fun r => ⌜r = xs.length⌝ ∗ isList l s ty xs) (xs.length + 3) :=
  TripleC.of_within (size_time (Nat.le_refl _))

theorem C86_list_clear : TripleC nf (isList l s ty xs) (clear l) (fun _ => isList l s ty []) (13 * xs.length + 6) :=
  TripleC.of_within (clear_time (Nat.le_refl _))

theorem C86_list_destroy : TripleC nf (isList l s ty xs) (destroy l) (fun _ => emp) (13 * xs.length + 12) :=
  TripleC.of_within (destroy_time (Nat.le_refl _))

/-- `c_list_erase_range` of the elements `Y`: nothing outside `Y` is paid for -/
theorem C86_list_erase_range {X Y Z : List (Elem V)} :
    TripleC nf (isList l s ty (X ++ Y ++ Z)) (eraseRange l (firstN Y (firstN Z s)) (firstN Z s))
      (fun r => ⌜r = firstN Z s⌝ ∗ isList l s ty (X ++ Z)) (13 * Y.length) :=
  TripleC.of_within (eraseRange_time (Nat.le_refl _))

/-- `c_list_resize_with_value` (the value lies in memory other than the list) -/
theorem C86_list_resize {c : Nat} {value : Loc} {v : V} (hv0 : value.1 ≠ 0) (hv : Reads R value v) :
    TripleC True (isList l s ty xs ∗ R) (resizeWithValue E l c value)
      (fun _ => ∃ₛ N, ⌜vals N = List.replicate (c - xs.length) v⌝ ∗ isList l s ty (xs.take c ++ N) ∗ R) (19 * c + 16 * xs.length + 5) := by
  refine (TripleC.of_within (resizeWithValue_time (nf := True) (R := R) (v := v)
    (fun N => Or.inr ⟨hv0, hv.right⟩) (Nat.le_refl _))).cons (ent_refl _) ?_
  intro _
  xintro N ⟨⟨k, h1, h2⟩, h3⟩
  xexists N
  cancel
  have := congrArg List.length h2
  simp only [List.length_map, List.length_replicate, h3 trivial] at this
  rw [h2, this]

theorem C86_list_copy (hty : ty ≠ 0) :
    TripleC True (isList l s ty xs) (copy E l)
      (fun r => isList l s ty xs ∗ ∃ₛ s' N, ⌜vals N = vals xs⌝ ∗ isList r s' ty N) (22 * xs.length + 13) := by
  refine (TripleC.of_within (copy_time hty (Nat.le_refl _))).cons (ent_refl _) ?_
  intro r
  xintro s' N ⟨h1, h2, h3⟩
  have hr : r ≠ 0 := fun h => h1 h trivial
  rw [if_neg hr]
  xexists s', N
  cancel
  exact h3 trivial

theorem C86_list_assign :
    TripleC True (isList l s ty xs ∗ isList o s2 t2 ys) (assign E l o)
      (fun r => ⌜r = l⌝ ∗ isList o s2 t2 ys ∗ ∃ₛ N, ⌜vals N = vals ys⌝ ∗ isList l s t2 N) (13 * xs.length + 22 * ys.length + 11) := by
  refine (TripleC.of_within (assign_time (Nat.le_refl _))).cons (ent_refl _) ?_
  intro r
  xintro h N ⟨h2, h3⟩
  xexists N
  cancel
  exact h3 trivial

theorem C86_list_create_from {b i : Nat} {vs : List V} (hty : ty ≠ 0) (hb : b ≠ 0) (hvs : vs ≠ []) :
    TripleC True (arr b i (vs.map fun v => .obj (some v))) (createFrom E ty (b, i) vs.length)
      (fun r => (arr b i (vs.map fun v => .obj (some v))) ∗ ∃ₛ s' N, ⌜vals N = vs⌝ ∗ isList r s' ty N) (19 * vs.length + 9) :=
  TripleC.intro (C11_create_from hty hb hvs) createFrom_cost (Le.refl _)

/-- `c_list_merge_by`: linear in the two lengths together -/
theorem C86_list_merge_by {comp : V → V → Bool} (hty : isSame ty t2 = true) :
    TripleC nf (isList l s ty xs ∗ isList o s2 t2 ys) (mergeBy l o (some comp))
      (fun _ => isList l s ty (mergeL (ltE comp) xs ys) ∗ isList o s2 t2 []) (17 * (xs.length + ys.length) + 23) :=
  TripleC.of_within (mergeBy_time hty (Nat.le_refl _))

theorem C86_list_merge (hty : isSame ty t2 = true) :
    TripleC nf (isList l s ty xs ∗ isList o s2 t2 ys) (merge E l o)
      (fun _ => isList l s ty (mergeL (ltE (E ty).less) xs ys) ∗ isList o s2 t2 []) (17 * (xs.length + ys.length) + 24) :=
  TripleC.of_within (merge_time hty (Nat.le_refl _))

theorem C86_list_remove_if {pred : V → Bool} :
    TripleC nf (isList l s ty xs) (removeIf l pred) (fun _ => isList l s ty (xs.filter fun e => !pred e.val)) (15 * xs.length + 6) :=
  TripleC.of_within (removeIf_time (Nat.le_refl _))

theorem C86_list_remove {value : Loc} {v : V} (hv0 : value.1 ≠ 0) (hv : Reads R value v) :
    TripleC nf (isList l s ty xs ∗ R) (remove E l value)
      (fun _ => isList l s ty (xs.filter fun e => !(E ty).equal e.val v) ∗ R) (17 * xs.length + 6) :=
  TripleC.of_within (remove_time hv0 hv (Nat.le_refl _))

theorem C86_list_reverse : TripleC nf (isList l s ty xs) (reverse l) (fun _ => isList l s ty xs.reverse) (6 * xs.length + 14) :=
  TripleC.of_within (reverse_time (Nat.le_refl _))

theorem C86_list_unique_if {pred : V → V → Bool} :
    TripleC nf (isList l s ty xs) (uniqueIf l (some pred)) (fun _ => isList l s ty (uniqBy (fun a b => pred a.val b.val) xs)) (19 * xs.length + 10) :=
  TripleC.of_within (uniqueIf_time (Nat.le_refl _))

theorem C86_list_unique :
    TripleC nf (isList l s ty xs) (unique E l) (fun _ => isList l s ty (uniqBy (fun a b => (E ty).equal a.val b.val) xs)) (19 * xs.length + 11) :=
  TripleC.of_within (unique_time (Nat.le_refl _))

/-- what sorting `n` elements may cost: n log n -/
def sortBound (n : Nat) : Nat := 68 * (n * (n.log2 + 1)) + 35 * n + 23 * (n.log2 + 1) + 1391

/-- `c_list_sort_by`: O(n log n) for every comparison function, also an inconsistent one, and every allocator -/
theorem C86_list_sort_by {comp : V → V → Bool} (hty : ty ≠ 0) (hlen : xs.length < 2 ^ 64) :
    TripleC nf (isList l s ty xs) (sortBy l (some comp))
      (fun _ => ∃ₛ s' ys, ⌜ys.Perm xs ∧ (nf → StrictWeak comp → Sorted comp (vals ys) ∧ StableOf (fun a b => comp a.val b.val) xs ys)⌝ ∗
        isList l s' ty ys) (sortBound xs.length) := by
  refine (TripleC.of_within (sortBy_time hty hlen (d := xs.length.log2 + 1) Nat.lt_log2_self ?_)).cons (ent_refl _) ?_
  · unfold sortBound
    generalize xs.length.log2 + 1 = d
    generalize xs.length = n
    rw [Nat.add_mul, Nat.mul_add, Nat.mul_assoc, Nat.mul_comm d n, Nat.mul_left_comm d 17 n, Nat.mul_comm d n]
    generalize n * d = q
    omega
  · intro _
    xintro s' ys ⟨h1, h2⟩
    xexists s', ys
    cancel
    refine ⟨h1.1, fun hn hc => ?_⟩
    rcases h2 with h2 | h2
    · exact ⟨by simpa [Sorted, vals, List.pairwise_map] using h2 hc, h1.2 hc⟩
    · exact absurd hn h2.1

theorem C86_list_sort (hty : ty ≠ 0) (hlen : xs.length < 2 ^ 64) :
    TripleC nf (isList l s ty xs) (sort E l)
      (fun _ => ∃ₛ s' ys, ⌜ys.Perm xs ∧ (nf → StrictWeak (E ty).less →
          Sorted (E ty).less (vals ys) ∧ StableOf (fun a b => (E ty).less a.val b.val) xs ys)⌝ ∗
        isList l s' ty ys) (sortBound xs.length) := by
  refine (TripleC.of_within (sort_time hty hlen (d := xs.length.log2 + 1) Nat.lt_log2_self ?_)).cons (ent_refl _) ?_
  · unfold sortBound
    generalize xs.length.log2 + 1 = d
    generalize xs.length = n
    rw [Nat.add_mul, Nat.mul_add, Nat.mul_assoc, Nat.mul_comm d n, Nat.mul_left_comm d 17 n, Nat.mul_comm d n]
    generalize n * d = q
    omega
  · intro _
    xintro s' ys ⟨h1, h2⟩
    xexists s', ys
    cancel
    refine ⟨h1.1, fun hn hc => ?_⟩
    rcases h2 with h2 | h2
    · exact ⟨by simpa [Sorted, vals, List.pairwise_map] using h2 hc, h1.2 hc⟩
    · exact absurd hn h2.1

/-- there is a list of three elements, and sorting it is accounted for -/
example : ∃ (m m' : Mem Nat) (l s : Addr) (xs : List (Elem Nat)) (F : HProp Nat), vals xs = [3, 1, 2] ∧ (isList l s 1 xs ∗ F) m.cells ∧
    (sortBy l (some fun a b => decide (a < b)) : M Nat Unit) m = some (.ok ((), m')) ∧ m'.clk ≤ m.clk + sortBound 3 := by
  obtain ⟨m, l, s, xs, ho, h, hm⟩ := exists_list (V := Nat) (fun _ => ⟨0, fun a b => a < b, fun a b => a == b⟩) 1 (by simp) [3, 1, 2] (by simp)
  have hl : xs.length = 3 := by simpa [vals] using congrArg List.length h
  obtain ⟨⟨⟩, m', e, _, c, _⟩ := C86_list_sort_by (nf := True) (comp := fun a b => decide (a < b)) (l := l) (s := s) (ty := 1) (xs := xs) (by simp) (by omega) m _ (fun _ => ho) hm
  exact ⟨m, m', l, s, xs, _, h, hm, e, by rw [hl] at c; exact c⟩

/-- a list and its copy can be merged within the bound -/
example : ∃ (m m' : Mem Nat) (l s o s2 : Addr) (xs ys : List (Elem Nat)) (F : HProp Nat), vals xs = [1, 3] ∧ vals ys = [1, 3] ∧
    ((isList l s 1 xs ∗ isList o s2 1 ys) ∗ F) m.cells ∧
    (mergeBy l o (some fun a b => decide (a < b)) : M Nat Unit) m = some (.ok ((), m')) ∧ m'.clk ≤ m.clk + 91 := by
  obtain ⟨m0, l, s, xs, ho, h, hm⟩ := exists_list (V := Nat) (fun _ => ⟨0, fun a b => a < b, fun a b => a == b⟩) 1 (by simp) [1, 3] (by simp)
  obtain ⟨o, m, _, ho', _, hm⟩ := C86_list_copy (E := fun _ => ⟨0, fun a b => decide (a < b), fun a b => a == b⟩) (l := l) (s := s) (ty := 1) (xs := xs) (by simp) m0 _ (fun _ => ho) hm
  have hm := (show _ ⊢ₛ (∃ₛ s' N, ⌜vals N = vals xs⌝ ∗ (isList l s 1 xs ∗ isList o s' 1 N) ∗ arr 1 1 ([1, 3].map fun v => .obj (some v))) from by
    xintro s' N h; xexists s', N; cancel) _ hm
  obtain ⟨s2, ys, hm⟩ := hm
  rw [hpure_sep_apply] at hm
  obtain ⟨hy, hm⟩ := hm
  have hx : xs.length = 2 := by simpa [vals] using congrArg List.length h
  have hyl : ys.length = 2 := by rw [← hx]; simpa [vals] using congrArg List.length hy
  obtain ⟨⟨⟩, m', e, _, c, _⟩ := C86_list_merge_by (nf := True) (comp := fun a b => decide (a < b)) (l := l) (s := s) (ty := 1) (t2 := 1) (xs := xs) (ys := ys) (o := o) (s2 := s2)
    (by simp [isSame]) m _ (fun _ t => by rw [ho']; exact ho t) hm
  exact ⟨m, m', l, s, o, s2, xs, ys, _, h, hy.trans h, hm, e, by rw [hx, hyl] at c; exact c⟩

end CC.CList
