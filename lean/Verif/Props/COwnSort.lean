import Verif.Info.OwnSort
import Verif.Info.OwnSSort
import Verif.Props.COwnRemove
/-!
# Property C100: merging and sorting lists and forward lists whose elements own something

As C97 and C98 for `merge_by`, `merge`, `sort_by` and `sort`.  The client's comparator is an arbitrary program answering a question `p` about the values of two elements, reading whatever they own and keeping
data `D` of its own (`Asks2`, Verif/Info/OwnRemove.lean).  The elements are moved, never copied: the results are lists of the *same* elements (`Elem` is the address of an element together with its value).
`Sorted`, `StableOf` and `StrictWeak` are those of Verif/Spec/Order.lean.
-/
namespace CC.Info
open CC.Tac
open CC.CList (Elem vals ltE vals_mergeL)
variable {V W α β : Type} {nf : Prop} {C : Funs V} {i : Table} {t : Addr} {A D R : HProp V} {Own : Addr → HProp V} {e : ElemSpec nf (ops C i) W} {l o a a2 s s2 : Addr} {xs ys : List (Elem W)}

/-- `zs` is what merging `ys` into `xs` must give: the same elements, and if both were sorted by the strict weak order `p`, then sorted and stable, elements of the first coming before equivalent ones of the second -/
def Merged (p : W → W → Bool) (xs ys zs : List (Elem W)) : Prop :=
  zs.Perm (xs ++ ys) ∧
    (StrictWeak p → Sorted p (vals xs) → Sorted p (vals ys) → Sorted p (vals zs) ∧ StableOf (fun a b => p a.val b.val) (xs ++ ys) zs)

theorem merged (p : W → W → Bool) (xs ys : List (Elem W)) : Merged p xs ys (mergeL (ltE p) xs ys) := by
  refine ⟨mergeL_perm _ _ _, fun hc hx hy => ⟨?_, mergeL_stable (hc.comap Elem.val) ?_⟩⟩
  · rw [vals_mergeL]; exact mergeL_sorted hc hx hy
  · simpa [Sorted, vals, List.pairwise_map] using hx

/-- `c_list_merge_by` moves all elements of the other list of the same type into this one; the other one is left empty. -/
theorem C100_list_merge_by {comp : Loc → Loc → M V Bool} {p : W → W → Bool} (ht : t ≠ 0) (hp : Asks2 e D comp p) :
    Triple nf (L.isList e Own l s t xs ∗ L.isList e Own o s2 t ys ∗ D ∗ R) (L.mergeBy l o (some comp))
      (fun _ => ∃ₛ zs, ⌜Merged p xs ys zs⌝ ∗ L.isList e Own l s t zs ∗ L.isList e Own o s2 t [] ∗ D ∗ R) := by
  refine Triple.call_frame (L.mergeBy_spec (l := l) (s := s) (t := t) (t2 := t) (xs := xs) (o := o) (s2 := s2) (ys := ys) hp (by simp [isSame, ht])) (R := R) (by cancel) fun _ => ?_
  apply ent_ex_right (mergeL (ltE p) xs ys)
  cancel
  exact merged p xs ys

/-- `c_list_merge` does so with the type's `less` function. -/
theorem C100_list_merge {Q : Nat → Loc → Loc → M V Bool} {p : W → W → Bool} (ht : t ≠ 0) (hq : i.less ≠ 0) (hp : Asks2 e D (Q i.less) p) :
    Triple nf (info t i ∗ L.isList e Own l s t xs ∗ L.isList e Own o s2 t ys ∗ D ∗ R) (L.merge Q l o)
      (fun _ => ∃ₛ zs, ⌜Merged p xs ys zs⌝ ∗ info t i ∗ L.isList e Own l s t zs ∗ L.isList e Own o s2 t [] ∗ D ∗ R) := by
  refine Triple.call_frame (L.merge_spec ht hq hp) (R := R) (by cancel) fun _ => ?_
  apply ent_ex_right (mergeL (ltE p) xs ys)
  cancel
  exact merged p xs ys

/-- `c_list_sort_by`, with an allocator that does not fail: the same elements, sorted and stable if `p` is a strict weak order. -/
theorem C100_list_sort_by {comp : Loc → Loc → M V Bool} {p : W → W → Bool} (hnf : nf) (ha : Storage nf C i A Own) (hi : Complete i) (ht : t ≠ 0) (hp : Asks2 e D comp p) (hlen : xs.length < 2 ^ 64) :
    Triple nf (A ∗ info t i ∗ L.isList e Own l s t xs ∗ D ∗ R) (L.sortBy C l (some comp))
      (fun _ => hex fun s' => ∃ₛ ys, ⌜ys.Perm xs ∧ (StrictWeak p → Sorted p (vals ys) ∧ StableOf (fun a b => p a.val b.val) xs ys)⌝ ∗ A ∗ info t i ∗ L.isList e Own l s' t ys ∗ D ∗ R) := by
  refine Triple.call_frame (L.sortBy_spec ha hi ht hp hlen) (R := R) (by cancel) fun _ => ?_
  xintro s' ys ⟨h1, h2⟩
  xexists s', ys
  cancel
  rcases h2 with h2 | h2
  · exact ⟨h1.1, fun hc => ⟨by simpa [Sorted, vals, List.pairwise_map] using h2 hc, h1.2 hc⟩⟩
  · exact absurd hnf h2.1

/-- … and whatever the allocator does: the list is either as before or a sorted, stable permutation; the auxiliary lists are gone in any case, and no element has been created or destroyed. -/
theorem C100_list_sort_by_oom {comp : Loc → Loc → M V Bool} {p : W → W → Bool} (ha : Storage nf C i A Own) (hi : Complete i) (ht : t ≠ 0) (hp : Asks2 e D comp p) (hlen : xs.length < 2 ^ 64) :
    Triple nf (A ∗ info t i ∗ L.isList e Own l s t xs ∗ D ∗ R) (L.sortBy C l (some comp))
      (fun _ => hex fun s' => ∃ₛ ys, ⌜ys.Perm xs ∧ (ys = xs ∨ (StrictWeak p → Sorted p (vals ys) ∧ StableOf (fun a b => p a.val b.val) xs ys))⌝ ∗
        A ∗ info t i ∗ L.isList e Own l s' t ys ∗ D ∗ R) := by
  refine Triple.call_frame (L.sortBy_spec ha hi ht hp hlen) (R := R) (by cancel) fun _ => ?_
  xintro s' ys ⟨h1, h2⟩
  xexists s', ys
  cancel
  rcases h2 with h2 | h2
  · exact ⟨h1.1, Or.inr fun hc => ⟨by simpa [Sorted, vals, List.pairwise_map] using h2 hc, h1.2 hc⟩⟩
  · exact ⟨h1.1, Or.inl h2.2⟩

/-- `c_list_sort` sorts with the type's `less` function. -/
theorem C100_list_sort {Q : Nat → Loc → Loc → M V Bool} {p : W → W → Bool} (hnf : nf) (ha : Storage nf C i A Own) (hi : Complete i) (ht : t ≠ 0) (hq : i.less ≠ 0) (hp : Asks2 e D (Q i.less) p)
    (hlen : xs.length < 2 ^ 64) :
    Triple nf (A ∗ info t i ∗ L.isList e Own l s t xs ∗ D ∗ R) (L.sort C Q l)
      (fun _ => hex fun s' => ∃ₛ ys, ⌜ys.Perm xs ∧ (StrictWeak p → Sorted p (vals ys) ∧ StableOf (fun a b => p a.val b.val) xs ys)⌝ ∗ A ∗ info t i ∗ L.isList e Own l s' t ys ∗ D ∗ R) := by
  refine Triple.call_frame (L.sort_spec ha hi ht hq hp hlen) (R := R) (by cancel) fun _ => ?_
  xintro s' ys ⟨h1, h2⟩
  xexists s', ys
  cancel
  rcases h2 with h2 | h2
  · exact ⟨h1.1, fun hc => ⟨by simpa [Sorted, vals, List.pairwise_map] using h2 hc, h1.2 hc⟩⟩
  · exact absurd hnf h2.1

/-- … whatever the allocator does. -/
theorem C100_list_sort_oom {Q : Nat → Loc → Loc → M V Bool} {p : W → W → Bool} (ha : Storage nf C i A Own) (hi : Complete i) (ht : t ≠ 0) (hq : i.less ≠ 0) (hp : Asks2 e D (Q i.less) p)
    (hlen : xs.length < 2 ^ 64) :
    Triple nf (A ∗ info t i ∗ L.isList e Own l s t xs ∗ D ∗ R) (L.sort C Q l)
      (fun _ => hex fun s' => ∃ₛ ys, ⌜ys.Perm xs ∧ (ys = xs ∨ (StrictWeak p → Sorted p (vals ys) ∧ StableOf (fun a b => p a.val b.val) xs ys))⌝ ∗
        A ∗ info t i ∗ L.isList e Own l s' t ys ∗ D ∗ R) := by
  refine Triple.call_frame (L.sort_spec ha hi ht hq hp hlen) (R := R) (by cancel) fun _ => ?_
  xintro s' ys ⟨h1, h2⟩
  xexists s', ys
  cancel
  rcases h2 with h2 | h2
  · exact ⟨h1.1, Or.inr fun hc => ⟨by simpa [Sorted, vals, List.pairwise_map] using h2 hc, h1.2 hc⟩⟩
  · exact ⟨h1.1, Or.inl h2.2⟩

theorem sort_none : Triple nf (L.isList e Own l s t xs ∗ R) (L.sortBy C l none) (fun _ => L.isList e Own l s t xs ∗ R) := by
  unfold L.sortBy
  refine Triple.bind_frame (L.empty_spec (e := e) (Own := Own) (l := l) (s := s) (t := t) (xs := xs)) (R := R) (ent_refl _) fun r => ?_
  xsub
  split
  · exact Triple.ret (ent_refl _)
  · refine Triple.bind_frame (L.size_spec (e := e) (Own := Own) (l := l) (s := s) (t := t) (xs := xs)) (R := R) (ent_refl _) fun r => ?_
    xsub
    split <;> exact Triple.ret (ent_refl _)

/-- Without a comparator nothing happens. -/
theorem C100_list_none : Triple nf (L.isList e Own l s t xs ∗ L.isList e Own o s2 t ys ∗ R) (do L.mergeBy l o none; L.sortBy C l none)
    (fun _ => L.isList e Own l s t xs ∗ L.isList e Own o s2 t ys ∗ R) := by
  unfold L.mergeBy
  split
  · rw [pure_bind]
    exact sort_none
  · simp only [bind_assoc]
    refine Triple.bind_frame (L.empty_spec (e := e) (Own := Own) (l := o) (s := s2) (t := t) (xs := ys)) (R := L.isList e Own l s t xs ∗ R) (by cancel) fun r => ?_
    xsub
    simp only [ite_self, pure_bind]
    exact (sort_none (e := e) (Own := Own) (l := l) (s := s) (t := t) (xs := xs) (R := L.isList e Own o s2 t ys ∗ R)).conseq (by cancel) fun _ => by cancel

theorem sort_noneS : Triple nf (S.isL e Own l a s t xs ∗ R) (S.sortBy C l none) (fun _ => S.isL e Own l a s t xs ∗ R) := by
  unfold S.sortBy
  refine S.cps S.empty_spec ?_
  cases xs with
  | nil => exact Triple.ret (ent_refl _)
  | cons x xs =>
    rw [if_neg (by simp)]
    refine S.single_spec ?_
    split <;> exact Triple.ret (ent_refl _)

/-- … nor for forward lists. -/
theorem C100_slist_none : Triple nf (S.isL e Own l a s t xs ∗ S.isL e Own o a2 s2 t ys ∗ R) (do S.mergeBy l o none; S.sortBy C l none)
    (fun _ => S.isL e Own l a s t xs ∗ S.isL e Own o a2 s2 t ys ∗ R) := by
  unfold S.mergeBy
  rw [pure_bind]
  exact sort_noneS

theorem mergedS (p : W → W → Bool) (xs ys : List (Elem W)) : Merged p xs ys (CC.SList.mergeS (ltE p) xs ys) := by
  refine ⟨CC.SList.mergeS_perm _ _ _, fun hc hx hy => ?_⟩
  rw [CC.SList.mergeS_eq (by simpa [Sorted, vals, List.pairwise_map] using hy)]
  exact (merged p xs ys).2 hc hx hy

/-- `c_slist_merge_by` moves all elements of the other list of the same type into this one; the other one is left empty. -/
theorem C100_slist_merge_by {comp : Loc → Loc → M V Bool} {p : W → W → Bool} (ht : t ≠ 0) (hp : Asks2 e D comp p) :
    Triple nf (S.isL e Own l a s t xs ∗ S.isL e Own o a2 s2 t ys ∗ D ∗ R) (S.mergeBy l o (some comp))
      (fun _ => ∃ₛ zs, ⌜Merged p xs ys zs⌝ ∗ S.isL e Own l a s t zs ∗ S.isL e Own o a2 s2 t [] ∗ D ∗ R) := by
  refine Triple.call_frame (S.mergeBy_spec (l := l) (a := a) (s := s) (t := t) (t2 := t) (xs := xs) (o := o) (a2 := a2) (s2 := s2) (ys := ys) hp (by simp [isSame, ht])) (R := R) (by cancel) fun _ => ?_
  apply ent_ex_right (CC.SList.mergeS (ltE p) xs ys)
  cancel
  exact mergedS p xs ys

/-- `c_slist_merge` does so with the type's `less` function. -/
theorem C100_slist_merge {Q : Nat → Loc → Loc → M V Bool} {p : W → W → Bool} (ht : t ≠ 0) (hq : i.less ≠ 0) (hp : Asks2 e D (Q i.less) p) :
    Triple nf (info t i ∗ S.isL e Own l a s t xs ∗ S.isL e Own o a2 s2 t ys ∗ D ∗ R) (S.merge Q l o)
      (fun _ => ∃ₛ zs, ⌜Merged p xs ys zs⌝ ∗ info t i ∗ S.isL e Own l a s t zs ∗ S.isL e Own o a2 s2 t [] ∗ D ∗ R) := by
  refine Triple.call_frame (S.merge_spec ht hq hp) (R := R) (by cancel) fun _ => ?_
  apply ent_ex_right (CC.SList.mergeS (ltE p) xs ys)
  cancel
  exact mergedS p xs ys

/-- `c_slist_sort_by`, with an allocator that does not fail: the same elements, sorted and stable if `p` is a strict weak order. -/
theorem C100_slist_sort_by {comp : Loc → Loc → M V Bool} {p : W → W → Bool} (hnf : nf) (ha : Storage nf C i A Own) (hi : Complete i) (ht : t ≠ 0) (hp : Asks2 e D comp p) (hlen : xs.length < 2 ^ 64) :
    Triple nf (A ∗ info t i ∗ S.isL e Own l a s t xs ∗ D ∗ R) (S.sortBy C l (some comp))
      (fun _ => hex fun a' => hex fun s' => ∃ₛ ys, ⌜ys.Perm xs ∧ (StrictWeak p → Sorted p (vals ys) ∧ StableOf (fun a b => p a.val b.val) xs ys)⌝ ∗ A ∗ info t i ∗ S.isL e Own l a' s' t ys ∗ D ∗ R) := by
  refine Triple.call_frame (S.sortBy_spec ha hi ht hp hlen) (R := R) (by cancel) fun _ => ?_
  xintro a' s' ys ⟨h1, h2⟩
  xexists a', s', ys
  cancel
  rcases h2 with h2 | h2
  · exact ⟨h1.1, fun hc => ⟨by simpa [Sorted, vals, List.pairwise_map] using h2 hc, h1.2 hc⟩⟩
  · exact absurd hnf h2.1

/-- … and whatever the allocator does: the list is either as before or a sorted, stable permutation; the auxiliary lists are gone in any case, and no element has been created or destroyed. -/
theorem C100_slist_sort_by_oom {comp : Loc → Loc → M V Bool} {p : W → W → Bool} (ha : Storage nf C i A Own) (hi : Complete i) (ht : t ≠ 0) (hp : Asks2 e D comp p) (hlen : xs.length < 2 ^ 64) :
    Triple nf (A ∗ info t i ∗ S.isL e Own l a s t xs ∗ D ∗ R) (S.sortBy C l (some comp))
      (fun _ => hex fun a' => hex fun s' => ∃ₛ ys, ⌜ys.Perm xs ∧ (ys = xs ∨ (StrictWeak p → Sorted p (vals ys) ∧ StableOf (fun a b => p a.val b.val) xs ys))⌝ ∗
        A ∗ info t i ∗ S.isL e Own l a' s' t ys ∗ D ∗ R) := by
  refine Triple.call_frame (S.sortBy_spec ha hi ht hp hlen) (R := R) (by cancel) fun _ => ?_
  xintro a' s' ys ⟨h1, h2⟩
  xexists a', s', ys
  cancel
  rcases h2 with h2 | h2
  · exact ⟨h1.1, Or.inr fun hc => ⟨by simpa [Sorted, vals, List.pairwise_map] using h2 hc, h1.2 hc⟩⟩
  · exact ⟨h1.1, Or.inl h2.2⟩

/-- `c_slist_sort` sorts with the type's `less` function. -/
theorem C100_slist_sort {Q : Nat → Loc → Loc → M V Bool} {p : W → W → Bool} (hnf : nf) (ha : Storage nf C i A Own) (hi : Complete i) (ht : t ≠ 0) (hq : i.less ≠ 0) (hp : Asks2 e D (Q i.less) p)
    (hlen : xs.length < 2 ^ 64) :
    Triple nf (A ∗ info t i ∗ S.isL e Own l a s t xs ∗ D ∗ R) (S.sort C Q l)
      (fun _ => hex fun a' => hex fun s' => ∃ₛ ys, ⌜ys.Perm xs ∧ (StrictWeak p → Sorted p (vals ys) ∧ StableOf (fun a b => p a.val b.val) xs ys)⌝ ∗ A ∗ info t i ∗ S.isL e Own l a' s' t ys ∗ D ∗ R) := by
  refine Triple.call_frame (S.sort_spec ha hi ht hq hp hlen) (R := R) (by cancel) fun _ => ?_
  xintro a' s' ys ⟨h1, h2⟩
  xexists a', s', ys
  cancel
  rcases h2 with h2 | h2
  · exact ⟨h1.1, fun hc => ⟨by simpa [Sorted, vals, List.pairwise_map] using h2 hc, h1.2 hc⟩⟩
  · exact absurd hnf h2.1

/-- … whatever the allocator does. -/
theorem C100_slist_sort_oom {Q : Nat → Loc → Loc → M V Bool} {p : W → W → Bool} (ha : Storage nf C i A Own) (hi : Complete i) (ht : t ≠ 0) (hq : i.less ≠ 0) (hp : Asks2 e D (Q i.less) p)
    (hlen : xs.length < 2 ^ 64) :
    Triple nf (A ∗ info t i ∗ S.isL e Own l a s t xs ∗ D ∗ R) (S.sort C Q l)
      (fun _ => hex fun a' => hex fun s' => ∃ₛ ys, ⌜ys.Perm xs ∧ (ys = xs ∨ (StrictWeak p → Sorted p (vals ys) ∧ StableOf (fun a b => p a.val b.val) xs ys))⌝ ∗
        A ∗ info t i ∗ S.isL e Own l a' s' t ys ∗ D ∗ R) := by
  refine Triple.call_frame (S.sort_spec ha hi ht hq hp hlen) (R := R) (by cancel) fun _ => ?_
  xintro a' s' ys ⟨h1, h2⟩
  xexists a', s', ys
  cancel
  rcases h2 with h2 | h2
  · exact ⟨h1.1, Or.inr fun hc => ⟨by simpa [Sorted, vals, List.pairwise_map] using h2 hc, h1.2 hc⟩⟩
  · exact ⟨h1.1, Or.inl h2.2⟩

/-! ## an example: lists of boxes, in storage marked by their allocator, ordered by their contents; the comparator counts its calls -/

example (ty : Ty V) (c : Loc) (f : V → V → Bool) (ht : t ≠ 0) {xs : List (Elem V)} (hlen : xs.length < 2 ^ 64) :
    Triple True (emp ∗ info t ⟨1, 8, 2, 3, 4, 9, 5, 0, 0⟩ ∗ L.isList (i := ⟨1, 8, 2, 3, 4, 9, 5, 0, 0⟩) (C := L.marked ty) (boxSpec ty) (fun a => blk a 2 ∗ fld a 2 77) l s t xs ∗
        (hex fun n : Nat => pts c (.num n)) ∗ emp) (L.sortBy (L.marked ty) l (some (sameBox ty c f)))
      (fun _ => hex fun s' => ∃ₛ ys, ⌜ys.Perm xs ∧ (StrictWeak f → Sorted f (vals ys) ∧ StableOf (fun a b => f a.val b.val) xs ys)⌝ ∗ emp ∗ info t ⟨1, 8, 2, 3, 4, 9, 5, 0, 0⟩ ∗
        L.isList (i := ⟨1, 8, 2, 3, 4, 9, 5, 0, 0⟩) (C := L.marked ty) (boxSpec ty) (fun a => blk a 2 ∗ fld a 2 77) l s' t ys ∗ (hex fun n : Nat => pts c (.num n)) ∗ emp) :=
  C100_list_sort_by trivial (L.marked_storage ty _ (by decide) (by decide)) (by simp [Complete]) ht (asks_sameBox ty c f) hlen

example (ty : Ty V) (c : Loc) (f : V → V → Bool) (ht : t ≠ 0) {xs : List (Elem V)} (hlen : xs.length < 2 ^ 64) :
    Triple True (emp ∗ info t ⟨1, 8, 2, 3, 4, 9, 5, 0, 0⟩ ∗ S.isL (i := ⟨1, 8, 2, 3, 4, 9, 5, 0, 0⟩) (C := L.marked ty) (boxSpec ty) (fun a => blk a 2 ∗ fld a 2 77) l a s t xs ∗
        (hex fun n : Nat => pts c (.num n)) ∗ emp) (S.sortBy (L.marked ty) l (some (sameBox ty c f)))
      (fun _ => hex fun a' => hex fun s' => ∃ₛ ys, ⌜ys.Perm xs ∧ (StrictWeak f → Sorted f (vals ys) ∧ StableOf (fun a b => f a.val b.val) xs ys)⌝ ∗ emp ∗ info t ⟨1, 8, 2, 3, 4, 9, 5, 0, 0⟩ ∗
        S.isL (i := ⟨1, 8, 2, 3, 4, 9, 5, 0, 0⟩) (C := L.marked ty) (boxSpec ty) (fun a => blk a 2 ∗ fld a 2 77) l a' s' t ys ∗ (hex fun n : Nat => pts c (.num n)) ∗ emp) :=
  C100_slist_sort_by trivial (L.marked_storage ty _ (by decide) (by decide)) (by simp [Complete]) ht (asks_sameBox ty c f) hlen

example : StrictWeak (fun a b : Nat => decide (a < b)) ∧ Sorted (fun a b : Nat => decide (a < b)) [1, 2, 2, 5] := by
  refine ⟨?_, by simp [Sorted]⟩
  constructor <;> simp <;> omega

end CC.Info
