import Verif.SList.Time4
import Verif.Props.CSList
/-!
# Property C86, forward lists

See Verif/Props/CListTime.lean.  `splice_after` and its variants are included: they walk to the end of the range they move.
-/
namespace CC.SList
open CC.Tac
open CC.CList (Elem nodes vals firstN lastN ltE Rearr)
variable {V : Type} {E : Types V} {nf : Prop} {l a s o a2 s2 : Addr} {ty t2 : Nat} {xs ys : List (Elem V)} {R : HProp V}

theorem C86_slist_clear : TripleC nf (isSList l a s ty xs) (clear l) (fun _ => isSList l a s ty []) (15 * xs.length + 7) :=
  TripleC.of_within (clear_time (Nat.le_refl _))

theorem C86_slist_destroy : TripleC nf (isSList l a s ty xs) (destroy l) (fun _ => emp) (15 * xs.length + 17) :=
  TripleC.of_within (destroy_time (Nat.le_refl _))

/-- `c_slist_erase_after_range` of the elements `Y`: nothing outside `Y` is paid for -/
theorem C86_slist_erase_after_range {X Y Z : List (Elem V)} :
    TripleC nf (isSList l a s ty (X ++ Y ++ Z)) (eraseAfterRange l (lastN X a) (firstN Z s))
      (fun r => ⌜r = firstN Z s⌝ ∗ isSList l a s ty (X ++ Z)) (15 * Y.length + 1) :=
  TripleC.of_within (eraseAfterRange_time (Nat.le_refl _))

/-- `c_slist_resize_with_value` (the value lies in memory other than the list) -/
theorem C86_slist_resize {c : Nat} {value : Loc} {v : V} (hv0 : value.1 ≠ 0) (hv : Reads R value v) :
    TripleC True (isSList l a s ty xs ∗ R) (resizeWithValue E l c value)
      (fun _ => ∃ₛ N, ⌜vals N = List.replicate (c - xs.length) v⌝ ∗ isSList l a s ty (xs.take c ++ N) ∗ R) (11 * c + 18 * xs.length + 4) := by
  refine (TripleC.of_within (resizeWithValue_time (nf := True) (R := R) (v := v)
    (fun N => Or.inr ⟨hv0, hv.right⟩) (Nat.le_refl _))).cons (ent_refl _) ?_
  intro _
  xintro N ⟨⟨k, h1, h2⟩, h3⟩
  xexists N
  cancel
  have := congrArg List.length h2
  simp only [List.length_map, List.length_replicate, h3 trivial] at this
  rw [h2, this]

theorem C86_slist_copy (hty : ty ≠ 0) :
    TripleC True (isSList l a s ty xs) (copy E l)
      (fun r => isSList l a s ty xs ∗ ∃ₛ a' s' N, ⌜vals N = vals xs⌝ ∗ isSList r a' s' ty N) (14 * xs.length + 23) := by
  refine (TripleC.of_within (copy_time hty (Nat.le_refl _))).cons (ent_refl _) ?_
  intro r
  xintro a' s' N ⟨h1, h2, h3⟩
  have hr : r ≠ 0 := fun h => h1 h trivial
  rw [if_neg hr]
  xexists a', s', N
  cancel
  exact h3 trivial

theorem C86_slist_assign :
    TripleC True (isSList l a s ty xs ∗ isSList o a2 s2 t2 ys) (assign E l o)
      (fun r => ⌜r = l⌝ ∗ isSList o a2 s2 t2 ys ∗ ∃ₛ N, ⌜vals N = vals ys⌝ ∗ isSList l a s t2 N) (15 * xs.length + 14 * ys.length + 13) := by
  refine (TripleC.of_within (assign_time (Nat.le_refl _))).cons (ent_refl _) ?_
  intro r
  xintro h N ⟨h2, h3⟩
  xexists N
  cancel
  exact h3 trivial

theorem C86_slist_create_from {b i : Nat} {vs : List V} (hty : ty ≠ 0) (hb : b ≠ 0) (hvs : vs ≠ []) :
    TripleC True (arr b i (vs.map fun v => .obj (some v))) (createFrom E ty (b, i) vs.length)
      (fun r => (arr b i (vs.map fun v => .obj (some v))) ∗ ∃ₛ a' s' N, ⌜vals N = vs⌝ ∗ isSList r a' s' ty N) (11 * vs.length + 19) :=
  TripleC.intro (C14_create_from hty hb hvs) createFrom_cost (Le.refl _)

/-- `c_slist_merge_by`: linear in the two lengths together -/
theorem C86_slist_merge_by {comp : V → V → Bool} (hty : isSame ty t2 = true) :
    TripleC nf (isSList l a s ty xs ∗ isSList o a2 s2 t2 ys) (mergeBy l o (some comp))
      (fun _ => isSList l a s ty (mergeS (ltE comp) xs ys) ∗ isSList o a2 s2 t2 []) (10 * xs.length + 28 * ys.length + 19) :=
  TripleC.of_within (mergeBy_time hty (Nat.le_refl _))

theorem C86_slist_merge (hty : isSame ty t2 = true) :
    TripleC nf (isSList l a s ty xs ∗ isSList o a2 s2 t2 ys) (merge E l o)
      (fun _ => isSList l a s ty (mergeS (ltE (E ty).less) xs ys) ∗ isSList o a2 s2 t2 []) (10 * xs.length + 28 * ys.length + 20) :=
  TripleC.of_within (merge_time hty (Nat.le_refl _))

/-- `c_slist_splice_after_range`: linear in the length of the range moved, whatever surrounds it -/
theorem C86_slist_splice_after_range {X Y Z M W : List (Elem V)} (hty : isSame ty t2 = true) :
    TripleC nf (isSList l a s ty (X ++ Y) ∗ isSList o a2 s2 t2 (Z ++ M ++ W)) (spliceAfterRange l (lastN X a) o (lastN Z a2) (firstN W s2))
      (fun _ => isSList l a s ty (X ++ M ++ Y) ∗ isSList o a2 s2 t2 (Z ++ W)) (M.length + 12) :=
  TripleC.of_within (spliceAfterRange_time hty (Nat.le_refl _))

theorem C86_slist_splice_after {X Y : List (Elem V)} (hty : isSame ty t2 = true) :
    TripleC nf (isSList l a s ty (X ++ Y) ∗ isSList o a2 s2 t2 ys) (spliceAfter l (lastN X a) o)
      (fun _ => isSList l a s ty (X ++ ys ++ Y) ∗ isSList o a2 s2 t2 []) (ys.length + 14) :=
  TripleC.of_within (spliceAfter_time hty (Nat.le_refl _))

theorem C86_slist_splice_after_from {X Y Z M : List (Elem V)} (hty : isSame ty t2 = true) :
    TripleC nf (isSList l a s ty (X ++ Y) ∗ isSList o a2 s2 t2 (Z ++ M)) (spliceAfterFrom l (lastN X a) o (lastN Z a2))
      (fun _ => isSList l a s ty (X ++ M ++ Y) ∗ isSList o a2 s2 t2 Z) (M.length + 13) :=
  TripleC.of_within (spliceAfterFrom_time hty (Nat.le_refl _))

theorem C86_slist_remove_if {pred : V → Bool} :
    TripleC nf (isSList l a s ty xs) (removeIf l pred) (fun _ => isSList l a s ty (xs.filter fun e => !pred e.val)) (17 * xs.length + 6) :=
  TripleC.of_within (removeIf_time (Nat.le_refl _))

theorem C86_slist_remove {value : Loc} {v : V} (hv0 : value.1 ≠ 0) (hv : Reads R value v) :
    TripleC nf (isSList l a s ty xs ∗ R) (remove E l value)
      (fun _ => isSList l a s ty (xs.filter fun e => !(E ty).equal e.val v) ∗ R) (19 * xs.length + 6) :=
  TripleC.of_within (remove_time hv0 hv (Nat.le_refl _))

theorem C86_slist_reverse : TripleC nf (isSList l a s ty xs) (reverse l) (fun _ => isSList l a s ty xs.reverse) (5 * xs.length + 11) :=
  TripleC.of_within (reverse_time (Nat.le_refl _))

theorem C86_slist_unique_if {pred : V → V → Bool} :
    TripleC nf (isSList l a s ty xs) (uniqueIf l (some pred)) (fun _ => isSList l a s ty (uniqBy (fun a b => pred a.val b.val) xs)) (19 * xs.length + 11) :=
  TripleC.of_within (uniqueIf_time (Nat.le_refl _))

theorem C86_slist_unique :
    TripleC nf (isSList l a s ty xs) (unique E l) (fun _ => isSList l a s ty (uniqBy (fun a b => (E ty).equal a.val b.val) xs)) (19 * xs.length + 12) :=
  TripleC.of_within (unique_time (Nat.le_refl _))

/-- what sorting `n` elements may cost: n log n -/
def sortBound (n : Nat) : Nat := 79 * (n * (n.log2 + 1)) + 33 * n + 19 * (n.log2 + 1) + 2300

/-- `c_slist_sort_by`: O(n log n) for every comparison function, also an inconsistent one, and every allocator -/
theorem C86_slist_sort_by {comp : V → V → Bool} (hty : ty ≠ 0) (hlen : xs.length < 2 ^ 64) :
    TripleC nf (isSList l a s ty xs) (sortBy l (some comp))
      (fun _ => ∃ₛ a' s' ys, ⌜ys.Perm xs ∧ (nf → StrictWeak comp → Sorted comp (vals ys) ∧ StableOf (fun a b => comp a.val b.val) xs ys)⌝ ∗
        isSList l a' s' ty ys) (sortBound xs.length) := by
  refine (TripleC.of_within (sortBy_time hty hlen (d := xs.length.log2 + 1) Nat.lt_log2_self ?_)).cons (ent_refl _) ?_
  · unfold sortBound
    generalize xs.length.log2 + 1 = d
    generalize xs.length = n
    rw [Nat.add_mul, Nat.mul_add, Nat.mul_assoc, Nat.mul_comm d n, Nat.mul_left_comm d 28 n, Nat.mul_comm d n]
    generalize n * d = q
    omega
  · intro _
    xintro a' s' ys ⟨h1, h2⟩
    xexists a', s', ys
    cancel
    refine ⟨h1.1, fun hn hc => ?_⟩
    rcases h2 with h2 | h2
    · exact ⟨by simpa [Sorted, vals, List.pairwise_map] using h2 hc, h1.2 hc⟩
    · exact absurd hn h2.1

theorem C86_slist_sort (hty : ty ≠ 0) (hlen : xs.length < 2 ^ 64) :
    TripleC nf (isSList l a s ty xs) (sort E l)
      (fun _ => ∃ₛ a' s' ys, ⌜ys.Perm xs ∧ (nf → StrictWeak (E ty).less →
          Sorted (E ty).less (vals ys) ∧ StableOf (fun a b => (E ty).less a.val b.val) xs ys)⌝ ∗
        isSList l a' s' ty ys) (sortBound xs.length) := by
  refine (TripleC.of_within (sort_time hty hlen (d := xs.length.log2 + 1) Nat.lt_log2_self ?_)).cons (ent_refl _) ?_
  · unfold sortBound
    generalize xs.length.log2 + 1 = d
    generalize xs.length = n
    rw [Nat.add_mul, Nat.mul_add, Nat.mul_assoc, Nat.mul_comm d n, Nat.mul_left_comm d 28 n, Nat.mul_comm d n]
    generalize n * d = q
    omega
  · intro _
    xintro a' s' ys ⟨h1, h2⟩
    xexists a', s', ys
    cancel
    refine ⟨h1.1, fun hn hc => ?_⟩
    rcases h2 with h2 | h2
    · exact ⟨by simpa [Sorted, vals, List.pairwise_map] using h2 hc, h1.2 hc⟩
    · exact absurd hn h2.1

/-- there is a list of three elements, and sorting it is accounted for -/
example : ∃ (m m' : Mem Nat) (l a s : Addr) (xs : List (Elem Nat)) (F : HProp Nat), vals xs = [3, 1, 2] ∧ (isSList l a s 1 xs ∗ F) m.cells ∧
    (sortBy l (some fun a b => decide (a < b)) : M Nat Unit) m = some (.ok ((), m')) ∧ m'.clk ≤ m.clk + sortBound 3 := by
  obtain ⟨m, l, a, s, xs, ho, h, hm⟩ := exists_slist (V := Nat) (fun _ => ⟨0, fun a b => a < b, fun a b => a == b⟩) 1 (by simp) [3, 1, 2] (by simp)
  have hl : xs.length = 3 := by simpa [vals] using congrArg List.length h
  obtain ⟨⟨⟩, m', e, _, c, _⟩ := C86_slist_sort_by (nf := True) (comp := fun a b => decide (a < b)) (l := l) (a := a) (s := s) (ty := 1) (xs := xs) (by simp) (by omega) m _ (fun _ => ho) hm
  exact ⟨m, m', l, a, s, xs, _, h, hm, e, by rw [hl] at c; exact c⟩

/-- a list and its copy can be merged within the bound -/
example : ∃ (m m' : Mem Nat) (l a s o a2 s2 : Addr) (xs ys : List (Elem Nat)) (F : HProp Nat), vals xs = [1, 3] ∧ vals ys = [1, 3] ∧
    ((isSList l a s 1 xs ∗ isSList o a2 s2 1 ys) ∗ F) m.cells ∧
    (mergeBy l o (some fun a b => decide (a < b)) : M Nat Unit) m = some (.ok ((), m')) ∧ m'.clk ≤ m.clk + 95 := by
  obtain ⟨m0, l, a, s, xs, ho, h, hm⟩ := exists_slist (V := Nat) (fun _ => ⟨0, fun a b => a < b, fun a b => a == b⟩) 1 (by simp) [1, 3] (by simp)
  obtain ⟨o, m, _, ho', _, hm⟩ := C86_slist_copy (E := fun _ => ⟨0, fun a b => decide (a < b), fun a b => a == b⟩) (l := l) (a := a) (s := s) (ty := 1) (xs := xs) (by simp) m0 _ (fun _ => ho) hm
  have hm := (show _ ⊢ₛ (∃ₛ a' s' N, ⌜vals N = vals xs⌝ ∗ (isSList l a s 1 xs ∗ isSList o a' s' 1 N) ∗ arr 1 1 ([1, 3].map fun v => .obj (some v))) from by
    xintro a' s' N h; xexists a', s', N; cancel) _ hm
  obtain ⟨a2, s2, ys, hm⟩ := hm
  rw [hpure_sep_apply] at hm
  obtain ⟨hy, hm⟩ := hm
  have hx : xs.length = 2 := by simpa [vals] using congrArg List.length h
  have hyl : ys.length = 2 := by rw [← hx]; simpa [vals] using congrArg List.length hy
  obtain ⟨⟨⟩, m', e, _, c, _⟩ := C86_slist_merge_by (nf := True) (comp := fun a b => decide (a < b)) (l := l) (a := a) (s := s) (ty := 1) (t2 := 1) (xs := xs) (ys := ys) (o := o) (a2 := a2) (s2 := s2)
    (by simp [isSame]) m _ (fun _ t => by rw [ho']; exact ho t) hm
  exact ⟨m, m', l, a, s, o, a2, s2, xs, ys, _, h, hy.trans h, hm, e, by rw [hx, hyl] at c; exact c⟩

end CC.SList
