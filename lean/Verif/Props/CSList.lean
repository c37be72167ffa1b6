import Verif.SList.History
import Verif.SList.OwnRemove
/-!
# Properties C13–C15: `c_slist`

`isSList l a s ty xs` (Verif/SList/Rep.lean) says that a heap fragment is exactly a well-formed forward list object `l` (before-begin node `a`,
end node `s`) holding the elements `xs`; an element carries its address (`node`, `box`) and its value.  The position behind the elements `X` of a
list `X ++ Y` is `lastN X a` (the last node of `X`, or `a`); the position of `Y` itself is `firstN Y s` (the first node of `Y`, or `s`).
`Triple` is explained in Verif/Props/CList.lean and Verif/Core/Sep.lean.
-/
namespace CC.SList
open CC.Tac
open CC.CList (Elem nodes vals firstN lastN firstN_nil firstN_cons lastN_nil lastN_cons lastN_append_cons firstN_append
  blk_ne ArgVal ltE vals_mergeL Rearr Inserted inserted_of)
variable {V : Type} {E : Types V} {l a s o a2 s2 : Addr} {ty t2 : Nat} {xs ys : List (Elem V)} {R : HProp V}

/-- Non-vacuity for everything below: for all values `vs`, a memory holding a forward list of `vs` exists and is reached by the API
itself (`c_slist_create_from`). -/
theorem exists_slist (E : Types V) (ty : Nat) (hty : ty ≠ 0) (vs : List V) (hvs : vs ≠ []) :
    ∃ (m : Mem V) (l a s : Addr) (xs : List (Elem V)), (∀ t, m.orc t ≠ 0) ∧ vals xs = vs ∧
      (isSList l a s ty xs ∗ arr 1 1 (vs.map fun v => .obj (some v))) m.cells := by
  obtain ⟨m, ho, hm⟩ := exists_array vs (fun _ => 1)
  obtain ⟨r, m', _, ho', hm'⟩ := (createFrom_spec (nf := True) (E := E) (b := 1) (i := 1) hty (by omega) hvs).run
    (F := emp) (s := m) (fun _ t => by rw [ho]; simp) (by rw [sep_emp]; exact hm)
  rw [sep_emp, sep_comm, hex_sep] at hm'
  obtain ⟨a', hm'⟩ := hm'
  rw [hex_sep] at hm'
  obtain ⟨s', hm'⟩ := hm'
  rw [hex_sep] at hm'
  obtain ⟨N, hm'⟩ := hm'
  rw [sep_assoc, hpure_sep_apply] at hm'
  obtain ⟨⟨h1, _, h3⟩, hm'⟩ := hm'
  have hr : r ≠ 0 := fun h => h1 h trivial
  rw [if_neg hr] at hm'
  exact ⟨m', r, a', s', N, by rw [ho', ho]; simp, h3 trivial, hm'⟩

example : ∃ (m : Mem Nat) (l a s : Addr) (xs : List (Elem Nat)), vals xs = [3, 1, 2] ∧
    (isSList l a s 1 xs ∗ arr 1 1 ([3, 1, 2].map fun v => .obj (some v))) m.cells := by
  obtain ⟨m, l, a, s, xs, _, h, hm⟩ := exists_slist (V := Nat) (fun _ => ⟨0, fun a b => a < b, fun a b => a == b⟩) 1 (by simp) [3, 1, 2] (by simp)
  exact ⟨m, l, a, s, xs, h, hm⟩

/-! ## C13 edits -/

theorem C13_push_front {value : Loc} {v : V} (hv0 : value.1 ≠ 0) (hv : Reads (isSList l a s ty xs ∗ R) value v) :
    Triple True (isSList l a s ty xs ∗ R) (pushFront E l value)
      (fun _ => ∃ₛ e, ⌜e.val = v⌝ ∗ isSList l a s ty (e :: xs) ∗ R) := by
  refine Triple.post (pushFront_spec hv0 hv) ?_
  intro _
  xintro N ⟨h1, h2⟩
  rcases h2 with rfl | ⟨e, rfl, he⟩
  · exact absurd rfl (h1 trivial)
  · xexists e
    cancel

/-- insert_after behind the position of `X` (before-begin if `X = []`); the result is the position of the new element. -/
theorem C13_insert_after {X Y : List (Elem V)} {value : Loc} {v : V} (hv0 : value.1 ≠ 0)
    (hv : Reads (isSList l a s ty (X ++ Y) ∗ R) value v) :
    Triple True (isSList l a s ty (X ++ Y) ∗ R) (insertAfter E l (lastN X a) value)
      (fun r => ∃ₛ e, ⌜e.val = v ∧ r = e.node⌝ ∗ isSList l a s ty (X ++ e :: Y) ∗ R) := by
  refine Triple.post (insertAfter_spec hv0 hv) ?_
  intro r
  xintro N ⟨h1, h2, h3⟩
  rcases h2 with rfl | ⟨e, rfl, he⟩
  · exact absurd rfl (h1 trivial)
  · xexists e
    rw [List.append_assoc, List.singleton_append]
    rw [lastN_append_cons, lastN_nil] at h3
    cancel

/-- with any allocator: one element more, or nothing changed and the position itself returned -/
theorem C13_insert_after_any {X Y : List (Elem V)} {value : Loc} {v : V} (hv0 : value.1 ≠ 0)
    (hv : Reads (isSList l a s ty (X ++ Y) ∗ R) value v) :
    Triple False (isSList l a s ty (X ++ Y) ∗ R) (insertAfter E l (lastN X a) value)
      (fun r => ∃ₛ N, ⌜(N = [] ∨ ∃ e, N = [e] ∧ e.val = v) ∧ r = lastN (X ++ N) a⌝ ∗ isSList l a s ty (X ++ N ++ Y) ∗ R) := by
  refine Triple.post (insertAfter_spec hv0 hv) ?_
  intro r
  xintro N ⟨h1, h2, h3⟩
  xexists N
  cancel

theorem C13_pop_front {nf : Prop} :
    Triple nf (isSList l a s ty xs) (popFront l) (fun _ => isSList l a s ty xs.tail) := popFront_spec

/-- erase_after removes the element behind the position and returns the position after the removed one -/
theorem C13_erase_after {nf : Prop} {X Y : List (Elem V)} {e : Elem V} :
    Triple nf (isSList l a s ty (X ++ e :: Y)) (eraseAfter l (lastN X a))
      (fun r => ⌜r = firstN Y s⌝ ∗ isSList l a s ty (X ++ Y)) := eraseAfter_spec

/-- behind the last element there is nothing to erase -/
theorem C13_erase_after_last {nf : Prop} :
    Triple nf (isSList l a s ty xs) (eraseAfter l (lastN xs a)) (fun r => ⌜r = s⌝ ∗ isSList l a s ty xs) := eraseAfter_end

theorem C13_erase_after_range {nf : Prop} {X Y Z : List (Elem V)} :
    Triple nf (isSList l a s ty (X ++ Y ++ Z)) (eraseAfterRange l (lastN X a) (firstN Z s))
      (fun r => ⌜r = firstN Z s⌝ ∗ isSList l a s ty (X ++ Z)) := eraseAfterRange_spec

theorem C13_clear {nf : Prop} : Triple nf (isSList l a s ty xs) (clear l) (fun _ => isSList l a s ty []) := clear_spec

/-- resize_with_value cuts the list to `n` elements or appends copies of the value until it has `n`. -/
theorem C13_resize_with_value {n : Nat} {value : Loc} {v : V} (hv0 : value.1 ≠ 0) (hv : Reads R value v) :
    Triple True (isSList l a s ty xs ∗ R) (resizeWithValue E l n value)
      (fun _ => ∃ₛ N, ⌜vals N = List.replicate (n - xs.length) v⌝ ∗ isSList l a s ty (xs.take n ++ N) ∗ R) := by
  refine Triple.post (resizeWithValue_spec (v := v) (fun N => Or.inr ⟨hv0, hv.right⟩)) ?_
  intro _
  xintro N ⟨⟨k, h1, h2⟩, h3⟩
  xexists N
  cancel
  have := congrArg List.length h2
  simp only [List.length_map, List.length_replicate, h3 trivial] at this
  rw [h2, this]

/-- resize appends default-constructed elements -/
theorem C13_resize {n : Nat} :
    Triple True (isSList l a s ty xs ∗ R) (resize E l n)
      (fun _ => ∃ₛ N, ⌜vals N = List.replicate (n - xs.length) (E ty).dflt⌝ ∗ isSList l a s ty (xs.take n ++ N) ∗ R) := by
  refine Triple.post (resizeWithValue_spec (fun N => Or.inl ⟨rfl, rfl⟩)) ?_
  intro _
  xintro N ⟨⟨k, h1, h2⟩, h3⟩
  xexists N
  cancel
  have := congrArg List.length h2
  simp only [List.length_map, List.length_replicate, h3 trivial] at this
  rw [h2, this]

theorem C13_empty {nf : Prop} :
    Triple nf (isSList l a s ty xs) (empty l) (fun r => ⌜r = true ↔ xs = []⌝ ∗ isSList l a s ty xs) := by
  refine Triple.post empty_spec ?_
  intro r
  xsub
  cancel
  exact List.isEmpty_iff

/-- front is a reference to the first element, NULL for the empty list -/
theorem C13_front {nf : Prop} :
    Triple nf (isSList l a s ty xs) (front l)
      (fun r => ⌜r = match xs.head? with | none => (0, 1) | some e => (e.box, 1)⌝ ∗ isSList l a s ty xs) := by
  have := front_spec (nf := nf) (l := l) (a := a) (s := s) (ty := ty) (xs := xs)
  cases xs <;> exact this

/-- In every list, reading from begin to end gives the elements in order. -/
theorem C13_forward {nf : Prop} :
    Triple nf (isSList l a s ty xs) (readAll l) (fun r => ⌜r = vals xs⌝ ∗ isSList l a s ty xs) := readAll_spec

/-- advancing before-begin by `k ≤ n` reaches the position behind the first `k` elements -/
theorem C13_advance {nf : Prop} {k : Nat} (hk : k ≤ xs.length) :
    Triple nf (isSList l a s ty xs) (do let b ← beforeBegin l; iterAdvance b k)
      (fun r => ⌜r = lastN (xs.take k) a⌝ ∗ isSList l a s ty xs) := iterAt_spec hk

/-- Every history of operations (including operations whose value argument is an element of the list itself) does what the
operations mean on sequences (`Step`, Verif/SList/History.lean). -/
theorem C13_history {nf : Prop} {ops : List (Op V)} {ρ : Loc → V} (hty : ty ≠ 0) (hv : ValidOps E ty R ρ nf ops xs) :
    Triple nf (isSList l a s ty xs ∗ R) (runOps E l ops)
      (fun _ => ∃ₛ a' s' ys, ⌜Steps E ty ρ nf ops xs ys⌝ ∗ isSList l a' s' ty ys ∗ R) := runOps_spec hty hv

/-- After every history a walk over the list sees exactly the elements the history leaves. -/
theorem C13_history_read {nf : Prop} {ops : List (Op V)} {ρ : Loc → V} (hty : ty ≠ 0) (hv : ValidOps E ty R ρ nf ops xs) :
    Triple nf (isSList l a s ty xs ∗ R) (do
        runOps E l ops
        readAll l)
      (fun r => ∃ₛ a' s' ys, ⌜Steps E ty ρ nf ops xs ys ∧ r = vals ys⌝ ∗ isSList l a' s' ty ys ∗ R) := by
  refine Triple.bind (runOps_spec hty hv) ?_
  intro _
  xintro a' s' ys h
  call (readAll_spec (l := l))
  intro r
  xsub
  xexists a', s', ys
  cancel

/-- a valid history: push 7 and 8 at the front, insert a copy of element 0 behind position 1, erase behind position 0, reverse -/
example (lt : Nat → Nat → Bool) (ρ : Loc → Nat) (hρ : ρ (1, 1) = 7 ∧ ρ (2, 1) = 8) :
    ValidOps (fun _ => ⟨0, lt, fun a b => a == b⟩) 1
      (pts (1,1) (.obj (some 7)) ∗ pts (2,1) (.obj (some 8))) ρ True
      [.pushFront (1,1), .pushFront (2,1), .insertAfterAlias 1 0, .eraseAfter 0, .reverse] [] := by
  have r1 : Reads (pts (1,1) (.obj (some 7)) ∗ pts (2,1) (.obj (some 8))) (1,1) (ρ (1,1)) := by
    rw [hρ.1]; exact Reads.pts.left
  have r2 : Reads (pts (1,1) (.obj (some 7)) ∗ pts (2,1) (.obj (some 8))) (2,1) (ρ (2,1)) := by
    rw [hρ.2]; exact Reads.pts.right
  refine ⟨⟨by simp, r1⟩, fun ys hy => ⟨⟨by simp, r2⟩, fun zs hz => ⟨?_, fun ws hw => ⟨?_, fun us _ => ⟨trivial, fun _ _ => trivial⟩⟩⟩⟩⟩
  · obtain ⟨e, _, rfl⟩ | ⟨h, _⟩ := hy
    · obtain ⟨e', _, rfl⟩ | ⟨h, _⟩ := hz
      · simp [Valid]
      · exact absurd trivial h
    · exact absurd trivial h
  · simp [Valid]

/-- The distance between two positions of a forward list is the number of elements in between. -/
theorem C13_distance {X Y Z : List (Elem V)} :
    Triple nf (isSList l a s ty (X ++ Y ++ Z)) (distanceLoop (firstN Y (firstN Z s)) (firstN Z s) 0)
      (fun r => ⌜r = Y.length⌝ ∗ isSList l a s ty (X ++ Y ++ Z)) := by
  refine Triple.post distanceLoop_spec ?_
  intro r
  rw [Nat.zero_add]
  exact fun _ h => h

/-! ## C14 merge, sort, splice, reverse, unique, remove -/

/-- Every merge keeps all elements (same nodes); merging sorted lists gives a sorted list, stably: elements of the first list come
before equivalent elements of the second. -/
theorem C14_merge {nf : Prop} {comp : V → V → Bool} (hty : ty ≠ 0) :
    Triple nf (isSList l a s ty xs ∗ isSList o a2 s2 ty ys) (mergeBy l o (some comp))
      (fun _ => ∃ₛ zs, ⌜zs.Perm (xs ++ ys) ∧
          (StrictWeak comp → Sorted comp (vals xs) → Sorted comp (vals ys) →
            Sorted comp (vals zs) ∧ StableOf (fun a b => comp a.val b.val) (xs ++ ys) zs)⌝ ∗
        isSList l a s ty zs ∗ isSList o a2 s2 ty []) := by
  refine Triple.post (mergeBy_spec (by simp [isSame, hty])) ?_
  intro _
  xexists mergeS (ltE comp) xs ys
  cancel
  refine ⟨mergeS_perm _ _ _, fun hc hx hy => ?_⟩
  have hy' : Sorted (ltE comp) ys := by simpa [Sorted, vals, List.pairwise_map] using hy
  rw [mergeS_eq hy']
  refine ⟨?_, mergeL_stable (hc.comap Elem.val) ?_⟩
  · rw [vals_mergeL]; exact mergeL_sorted hc hx hy
  · simpa [Sorted, vals, List.pairwise_map] using hx

/-- merge uses the element type's `less` -/
theorem C14_merge_default {nf : Prop} (hty : ty ≠ 0) :
    Triple nf (isSList l a s ty xs ∗ isSList o a2 s2 ty ys) (merge E l o)
      (fun _ => ∃ₛ zs, ⌜zs.Perm (xs ++ ys) ∧
          (StrictWeak (E ty).less → Sorted (E ty).less (vals xs) → Sorted (E ty).less (vals ys) →
            Sorted (E ty).less (vals zs) ∧ StableOf (fun a b => (E ty).less a.val b.val) (xs ++ ys) zs)⌝ ∗
        isSList l a s ty zs ∗ isSList o a2 s2 ty []) := by
  refine Triple.post (merge_spec (by simp [isSame, hty])) ?_
  intro _
  xexists mergeS (ltE (E ty).less) xs ys
  cancel
  refine ⟨mergeS_perm _ _ _, fun hc hx hy => ?_⟩
  have hy' : Sorted (ltE (E ty).less) ys := by simpa [Sorted, vals, List.pairwise_map] using hy
  rw [mergeS_eq hy']
  refine ⟨?_, mergeL_stable (hc.comap Elem.val) ?_⟩
  · rw [vals_mergeL]; exact mergeL_sorted hc hx hy
  · simpa [Sorted, vals, List.pairwise_map] using hx

/-- With an allocator that does not fail: a sorted, stable permutation (of the same elements: no copies). -/
theorem C14_sort {comp : V → V → Bool} (hty : ty ≠ 0) (hlen : xs.length < 2 ^ 64) (hc : StrictWeak comp) :
    Triple True (isSList l a s ty xs) (sortBy l (some comp))
      (fun _ => ∃ₛ a' s' ys, ⌜ys.Perm xs ∧ Sorted comp (vals ys) ∧ StableOf (fun a b => comp a.val b.val) xs ys⌝ ∗
        isSList l a' s' ty ys) := by
  refine Triple.post (sortBy_spec hty hlen) ?_
  intro _
  xintro a' s' ys ⟨h1, h2⟩
  xexists a', s', ys
  cancel
  rcases h2 with h2 | h2
  · exact ⟨h1.1, by simpa [Sorted, vals, List.pairwise_map] using h2 hc, h1.2 hc⟩
  · exact absurd trivial h2.1

/-- `c_slist_sort` sorts by the element type's `less` -/
theorem C14_sort_default (hty : ty ≠ 0) (hlen : xs.length < 2 ^ 64) (hc : StrictWeak (E ty).less) :
    Triple True (isSList l a s ty xs) (sort E l)
      (fun _ => ∃ₛ a' s' ys, ⌜ys.Perm xs ∧ Sorted (E ty).less (vals ys) ∧ StableOf (fun a b => (E ty).less a.val b.val) xs ys⌝ ∗
        isSList l a' s' ty ys) := by
  refine Triple.post (sort_spec hty hlen) ?_
  intro _
  xintro a' s' ys ⟨h1, h2⟩
  xexists a', s', ys
  cancel
  rcases h2 with h2 | h2
  · exact ⟨h1.1, by simpa [Sorted, vals, List.pairwise_map] using h2 hc, h1.2 hc⟩
  · exact absurd trivial h2.1

/-- With any allocator and any comparison function: some permutation, no fault, no leak. -/
theorem C14_sort_any {comp : V → V → Bool} (hty : ty ≠ 0) (hlen : xs.length < 2 ^ 64) :
    Triple False (isSList l a s ty xs) (sortBy l (some comp))
      (fun _ => ∃ₛ a' s' ys, ⌜ys.Perm xs⌝ ∗ isSList l a' s' ty ys) := by
  refine Triple.post (sortBy_spec hty hlen) ?_
  intro _
  xintro a' s' ys ⟨h1, h2⟩
  xexists a', s', ys
  cancel
  exact h1.1

/-- sort leaves the list untouched or sorts it completely; the auxiliary lists are released in any case -/
theorem C14_sort_oom (hty : ty ≠ 0) (hlen : xs.length < 2 ^ 64) {comp : V → V → Bool} (hc : StrictWeak comp) :
    Triple False (isSList l a s ty xs) (sortBy l (some comp))
      (fun _ => ∃ₛ a' s' ys, ⌜ys = xs ∨ (ys.Perm xs ∧ Sorted comp (vals ys))⌝ ∗ isSList l a' s' ty ys) := by
  refine Triple.post (sortBy_spec hty hlen) ?_
  intro _
  xintro a' s' ys ⟨h1, h2⟩
  xexists a', s', ys
  cancel
  rcases h2 with h2 | h2
  · exact Or.inr ⟨h1.1, by simpa [Sorted, vals, List.pairwise_map] using h2 hc⟩
  · exact Or.inl h2.2

/-- splice_after_range moves the elements `M` (same nodes, same storage) behind `X` -/
theorem C14_splice_after_range {nf : Prop} {X Y Z M W : List (Elem V)} (hty : ty ≠ 0) :
    Triple nf (isSList l a s ty (X ++ Y) ∗ isSList o a2 s2 ty (Z ++ M ++ W))
      (spliceAfterRange l (lastN X a) o (lastN Z a2) (firstN W s2))
      (fun _ => isSList l a s ty (X ++ M ++ Y) ∗ isSList o a2 s2 ty (Z ++ W)) := spliceAfterRange_spec (by simp [isSame, hty])

theorem C14_splice_after {nf : Prop} {X Y : List (Elem V)} (hty : ty ≠ 0) :
    Triple nf (isSList l a s ty (X ++ Y) ∗ isSList o a2 s2 ty ys) (spliceAfter l (lastN X a) o)
      (fun _ => isSList l a s ty (X ++ ys ++ Y) ∗ isSList o a2 s2 ty []) := spliceAfter_spec (by simp [isSame, hty])

theorem C14_splice_after_from {nf : Prop} {X Y Z M : List (Elem V)} (hty : ty ≠ 0) :
    Triple nf (isSList l a s ty (X ++ Y) ∗ isSList o a2 s2 ty (Z ++ M)) (spliceAfterFrom l (lastN X a) o (lastN Z a2))
      (fun _ => isSList l a s ty (X ++ M ++ Y) ∗ isSList o a2 s2 ty Z) := spliceAfterFrom_spec (by simp [isSame, hty])

/-- within one list, behind a later element (the last of `Y`) … -/
theorem C14_splice_later {nf : Prop} {X M Y Z : List (Elem V)} (hY : Y ≠ []) (hty : ty ≠ 0) :
    Triple nf (isSList l a s ty (X ++ M ++ Y ++ Z))
      (spliceAfterRange l (lastN (X ++ M ++ Y) a) l (lastN X a) (firstN Y s))
      (fun _ => isSList l a s ty (X ++ Y ++ M ++ Z)) := spliceAfterRange_later hY (by simp [isSame, hty])

/-- … or behind an earlier one (the last of `X`) -/
theorem C14_splice_earlier {nf : Prop} {X Y M Z : List (Elem V)} (hty : ty ≠ 0) :
    Triple nf (isSList l a s ty (X ++ Y ++ M ++ Z))
      (spliceAfterRange l (lastN X a) l (lastN (X ++ Y) a) (firstN Z s))
      (fun _ => isSList l a s ty (X ++ M ++ Y ++ Z)) := spliceAfterRange_earlier (by simp [isSame, hty])

/-- lists of different element types are left alone -/
theorem C14_splice_mismatch {nf : Prop} (hty : ty ≠ t2) {pos first last : Addr} :
    Triple nf (isSList l a s ty xs ∗ isSList o a2 s2 t2 ys) (spliceAfterRange l pos o first last)
      (fun _ => isSList l a s ty xs ∗ isSList o a2 s2 t2 ys) := splice_mismatch (by simp [isSame, hty])

theorem C14_remove_if {nf : Prop} {pred : V → Bool} :
    Triple nf (isSList l a s ty xs) (removeIf l pred) (fun _ => isSList l a s ty (xs.filter fun e => !pred e.val)) :=
  removeIf_spec

/-- the removed value must not live inside the list (values inside the list: C92) -/
theorem C14_remove {nf : Prop} {value : Loc} {v : V} (hv0 : value.1 ≠ 0) (hv : Reads R value v) :
    Triple nf (isSList l a s ty xs ∗ R) (remove E l value)
      (fun _ => isSList l a s ty (xs.filter fun e => !(E ty).equal e.val v) ∗ R) := remove_spec hv0 hv

example : Reads (V := Nat) (pts (1, 1) (.obj (some 5))) (1, 1) 5 := Reads.pts

/-! ## C92 remove with a reference into the forward list — violated -/

/-- The value does not live in the list. Missing: most values that do, see below. -/
theorem C92_other_partial {nf : Prop} {value : Loc} {v : V} (hv0 : value.1 ≠ 0) (hv : Reads R value v) :
    Triple nf (isSList l a s ty xs ∗ R) (remove E l value)
      (fun _ => isSList l a s ty (xs.filter fun e => !(E ty).equal e.val v) ∗ R) := remove_spec hv0 hv

/-- References to elements of the list (`(e.box, 1)` is what `c_slist_front` and an iterator's dereference return for `e`): the call
is correct for the last element … -/
theorem C92_own_last_partial {nf : Prop} {X : List (Elem V)} {e : Elem V} :
    Triple nf (isSList l a s ty (X ++ [e])) (remove E l (e.box, 1))
      (fun _ => isSList l a s ty ((X ++ [e]).filter fun x => !(E ty).equal x.val e.val)) := remove_own_last

/-- … and for an element that is not equal to itself, which is never removed … -/
theorem C92_own_kept_partial {nf : Prop} {X Y : List (Elem V)} {e : Elem V} (hirr : (E ty).equal e.val e.val = false) :
    Triple nf (isSList l a s ty (X ++ e :: Y)) (remove E l (e.box, 1))
      (fun _ => isSList l a s ty ((X ++ e :: Y).filter fun x => !(E ty).equal x.val e.val)) := remove_own_kept hirr

/-- … and in all other cases it is undefined behaviour (the erased element is read again). Together the three theorems decide every call with a
reference to an own element. -/
theorem C92_own_violated {X Y : List (Elem V)} {e y : Elem V} {F : HProp V} {m : Mem V} (hrefl : (E ty).equal e.val e.val = true)
    (ho : ∀ t, m.orc t ≠ 0) (hm : (isSList l a s ty (X ++ e :: y :: Y) ∗ F) m.cells) : remove E l (e.box, 1) m = some (.error .ub) :=
  remove_own_bad hrefl m ho hm

/-- In particular `c_slist_remove(list, c_slist_front(list))`, in every list of two or more elements. -/
theorem C92_front_violated {Y : List (Elem V)} {e y : Elem V} {F : HProp V} {m : Mem V} (hrefl : (E ty).equal e.val e.val = true)
    (ho : ∀ t, m.orc t ≠ 0) (hm : (isSList l a s ty (e :: y :: Y) ∗ F) m.cells) :
    (do let r ← front l; remove E l r : M V Unit) m = some (.error .ub) := by
  have : Bad (isSList l a s ty (e :: y :: Y) ∗ F) (do let r ← front l; remove E l r : M V Unit) := by
    refine Bad.bind front_spec fun r => ?_
    rw [sep_assoc]
    refine Bad.pure_left ?_
    rintro rfl
    exact remove_own_bad (X := []) hrefl
  exact this m ho hm

/-- … such lists exist: `3 1 2`, removing by a reference to the element 1 in the middle -/
example : ∃ (m : Mem Nat) (l a s : Addr) (x e y : Elem Nat) (F : HProp Nat), (∀ t, m.orc t ≠ 0) ∧ e.val = 1 ∧
    (isSList l a s 1 ([x] ++ e :: y :: []) ∗ F) m.cells := by
  obtain ⟨m, l, a, s, xs, ho, h, hm⟩ := exists_slist (V := Nat) (fun _ => ⟨0, fun a b => a < b, fun a b => a == b⟩) 1 (by simp) [3, 1, 2] (by simp)
  rcases xs with _ | ⟨x, _ | ⟨e, _ | ⟨y, _ | ⟨z, Z⟩⟩⟩⟩ <;> simp at h
  exact ⟨m, l, a, s, x, e, y, _, ho, h.2.1, hm⟩

theorem C14_reverse {nf : Prop} : Triple nf (isSList l a s ty xs) (reverse l) (fun _ => isSList l a s ty xs.reverse) := reverse_spec

/-- `uniqBy` (Verif/Spec/Order.lean) keeps the first element of every run of elements related to the run's first one. -/
theorem C14_unique {nf : Prop} {pred : V → V → Bool} :
    Triple nf (isSList l a s ty xs) (uniqueIf l (some pred))
      (fun _ => ∃ₛ ys, ⌜vals ys = uniqBy pred (vals xs) ∧ ys.Sublist xs⌝ ∗ isSList l a s ty ys) := by
  refine Triple.post uniqueIf_spec ?_
  intro _
  xexists _
  cancel
  exact ⟨by rw [vals, vals, uniqBy_map], uniqBy_sublist _ _⟩

theorem C14_unique_default {nf : Prop} :
    Triple nf (isSList l a s ty xs) (unique E l)
      (fun _ => ∃ₛ ys, ⌜vals ys = uniqBy (E ty).equal (vals xs) ∧ ys.Sublist xs⌝ ∗ isSList l a s ty ys) := by
  refine Triple.post unique_spec ?_
  intro _
  xexists _
  cancel
  exact ⟨by rw [vals, vals, uniqBy_map], uniqBy_sublist _ _⟩

/-- copy: the source is unchanged; the copy (if the memory suffices) is a separate list with equal values -/
theorem C14_copy (hty : ty ≠ 0) :
    Triple True (isSList l a s ty xs) (copy E l)
      (fun r => isSList l a s ty xs ∗ ∃ₛ a' s' N, ⌜vals N = vals xs⌝ ∗ isSList r a' s' ty N) := by
  refine Triple.post (copy_spec hty) ?_
  intro r
  xintro a' s' N ⟨h1, h2, h3⟩
  have hr : r ≠ 0 := fun h => h1 h trivial
  rw [if_neg hr]
  xexists a', s', N
  cancel
  exact h3 trivial

/-- with any allocator: NULL, or a separate list with a subsequence of the values; the source is unchanged -/
theorem C14_copy_any (hty : ty ≠ 0) :
    Triple False (isSList l a s ty xs) (copy E l)
      (fun r => isSList l a s ty xs ∗ ∃ₛ a' s' N, ⌜(vals N).Sublist (vals xs)⌝ ∗ if r = 0 then emp else isSList r a' s' ty N) := by
  refine Triple.post (copy_spec hty) ?_
  intro r
  xintro a' s' N ⟨h1, h2, h3⟩
  xexists a', s', N
  cancel

theorem C14_assign :
    Triple True (isSList l a s ty xs ∗ isSList o a2 s2 t2 ys) (assign E l o)
      (fun r => ⌜r = l⌝ ∗ isSList o a2 s2 t2 ys ∗ ∃ₛ N, ⌜vals N = vals ys⌝ ∗ isSList l a s t2 N) := by
  refine Triple.post assign_spec ?_
  intro r
  xintro h N ⟨h2, h3⟩
  xexists N
  cancel
  exact h3 trivial

theorem C14_assign_self {nf : Prop} :
    Triple nf (isSList l a s ty xs) (assign E l l) (fun r => ⌜r = l⌝ ∗ isSList l a s ty xs) := assign_self

/-- create_from copies an array -/
theorem C14_create_from {b i : Nat} {vs : List V} (hty : ty ≠ 0) (hb : b ≠ 0) (hvs : vs ≠ []) :
    Triple True (arr b i (vs.map fun v => .obj (some v))) (createFrom E ty (b, i) vs.length)
      (fun r => (arr b i (vs.map fun v => .obj (some v))) ∗ ∃ₛ a' s' N, ⌜vals N = vs⌝ ∗ isSList r a' s' ty N) := by
  refine Triple.post (createFrom_spec hty hb hvs) ?_
  intro r
  xintro a' s' N ⟨h1, h2, h3⟩
  have hr : r ≠ 0 := fun h => h1 h trivial
  rw [if_neg hr]
  xexists a', s', N
  cancel
  exact h3 trivial

theorem C14_swap {nf : Prop} :
    Triple nf (isSList l a s ty xs ∗ isSList o a2 s2 t2 ys) (swap l o)
      (fun _ => isSList l a2 s2 t2 ys ∗ isSList o a s ty xs) := swap_spec

/-! ## C15 no leaks -/

/-- create returns NULL and allocates nothing, or returns a fresh empty list -/
theorem C15_create {nf : Prop} (hty : ty ≠ 0) :
    Triple (V := V) nf emp (create ty)
      (fun r => ⌜r = 0 → ¬ nf⌝ ∗ if r = 0 then emp else ∃ₛ a s, isSList r a s ty []) := by
  rw [← bind_pure (create ty)]
  apply create_spec hty
  · intro h
    apply Triple.ret
    rw [if_pos rfl]
    cancel
    exact fun _ => h
  · intro l a s hl
    apply Triple.ret
    rw [if_neg hl]
    xexists a, s
    cancel
    exact fun h => absurd h hl

/-- create, any history of operations, destroy: whatever is in memory and whatever the allocator does, afterwards the memory is
bit for bit what it was before. -/
theorem C15_lifecycle {ops : List (Op V)} {ρ : Loc → V} (hty : ty ≠ 0) (m : Mem V)
    (hv : ValidOps E ty (exactly m.cells) ρ False ops []) :
    ∃ m' : Mem V, (do
        let l ← create ty
        if l = 0 then pure () else do
        runOps E l ops
        destroy l : M V Unit) m = some (.ok ((), m')) ∧ m'.cells = m.cells := by
  have ht : Triple False (exactly m.cells) (do
        let l ← create ty
        if l = 0 then pure () else do
        runOps E l ops
        destroy l) (fun _ => exactly m.cells) := by
    apply create_spec hty
    · intro _
      rw [if_pos rfl]
      exact Triple.ret (ent_refl _)
    · intro l a s hl
      rw [if_neg hl]
      refine Triple.bind (runOps_spec hty hv) ?_
      intro _
      xintro a' s' ys h
      call (destroy_spec (l := l))
      intro _
      rw [emp_sep]
      exact ent_refl _
  obtain ⟨_, m', h1, _, h2⟩ := ht.run (F := emp) (s := m) (fun h => absurd h id) (by rw [sep_emp]; exact (rfl : m.cells = m.cells))
  rw [sep_emp] at h2
  exact ⟨m', h1, h2⟩

/-- destroy releases exactly the list: the rest of the memory (`F`) is all that remains -/
theorem C15_destroy {F : HProp V} {m : Mem V} (hm : (isSList l a s ty xs ∗ F) m.cells) :
    ∃ m' : Mem V, destroy l m = some (.ok ((), m')) ∧ F m'.cells := by
  obtain ⟨_, m', h1, _, h2⟩ := (destroy_spec (nf := False)).run (F := F) (fun h => absurd h id) hm
  rw [emp_sep] at h2
  exact ⟨m', h1, h2⟩

theorem C15_destroy_null {m : Mem V} : destroy (V := V) 0 m = some (.ok ((), m)) := rfl

end CC.SList
