import Verif.SList.SelfMerge
import Verif.Adapter.History
import Verif.Props.CList
import Verif.Props.CSList
import Verif.Tree.SelfRange
import Verif.Tree.Whole
import Verif.Tree.SetMap
import Verif.Props.CTree
import Verif.Vec.Spec3
import Verif.Deq.Spec3
/-!
# C76: a container passed as both arguments of a function

`c_X_assign(x, x)` and `c_X_swap(x, x)` change nothing.  `c_list_merge(l, l)` never returns for sorted lists with a repeated element that is not the greatest one,
and changes nothing for the others; `c_slist_merge(l, l)` never returns unless all elements are equivalent, and then all of them are lost.
Inserting the own elements of a set or map changes nothing; inserting those of a multiset or multimap (from any position to the end) never returns.

A program that never returns is one whose run is `none` (Verif/Core/Mem.lean): not a result, not an abort, not undefined behaviour.
-/
namespace CC.CSelf
open CC.Tac
variable {V W : Type} {nf : Prop}

/-! ## assign and swap -/

theorem C76_list_assign_swap {E : Types V} {l s : Addr} {ty : Nat} {xs : List (CList.Elem V)} :
    Triple nf (CList.isList l s ty xs) (CList.assign E l l) (fun r => ⌜r = l⌝ ∗ CList.isList l s ty xs) ∧
    Triple nf (CList.isList l s ty xs) (CList.swap l l) (fun _ => CList.isList l s ty xs) :=
  ⟨CList.assign_self, CList.swap_self⟩

theorem C76_forward_list_assign_swap {E : Types V} {l a s : Addr} {ty : Nat} {xs : List (CList.Elem V)} :
    Triple nf (SList.isSList l a s ty xs) (SList.assign E l l) (fun r => ⌜r = l⌝ ∗ SList.isSList l a s ty xs) ∧
    Triple nf (SList.isSList l a s ty xs) (SList.swap l l) (fun _ => SList.isSList l a s ty xs) :=
  ⟨SList.assign_self, SList.swap_self⟩

theorem C76_vector_assign_swap {T : Nat → Ops V} {ty : Nat} {e : ElemSpec nf (T ty) W} {v b cap : Nat} {ws : List W} :
    Triple nf (Vec.isVec e v b cap ws) (Vec.assign T v v) (fun r => ⌜r = v⌝ ∗ Vec.isVec e v b cap ws) ∧
    Triple nf (Vec.isVec e v b cap ws) (Vec.swap v v) (fun _ => Vec.isVec e v b cap ws) := by
  refine ⟨Vec.assign_self, ?_⟩
  refine Triple.fact (p := v ≠ 0) (fun h hh => ?_) fun hv => ?_
  · unfold Vec.isVec Vec.vhdr blk at hh
    simp only [sep_assoc] at hh
    exact pts_ne_zero hh
  unfold Vec.swap
  rw [if_neg (by simp [hv])]
  unfold Vec.isVec Vec.vhdr
  xintro _
  steps
  apply Triple.ret
  cancel

theorem C76_deque_assign_swap {T : Nat → Ops V} {ty : Nat} {e : ElemSpec nf (T ty) W} {v b lo hi : Nat} {ws : List W} :
    Triple nf (Deq.isDeq e v b lo hi ws) (Deq.assign T v v) (fun r => ⌜r = v⌝ ∗ Deq.isDeq e v b lo hi ws) ∧
    Triple nf (Deq.isDeq e v b lo hi ws) (Deq.swap v v) (fun _ => Deq.isDeq e v b lo hi ws) := by
  refine ⟨Deq.assign_self, ?_⟩
  refine Triple.fact (p := v ≠ 0) (fun h hh => ?_) fun hv => ?_
  · unfold Deq.isDeq Deq.dhdr blk at hh
    simp only [sep_assoc] at hh
    exact pts_ne_zero hh
  unfold Deq.swap
  rw [if_neg (by simp [hv])]
  unfold Deq.isDeq Deq.dhdr
  steps
  apply Triple.ret
  cancel

theorem C76_tree_swap {a h : Nat} {g : Tree.Cfg} {es : List (CList.Elem V)} {F : HProp V} :
    Triple nf (Tree.isTree a h g es ∗ F) (Tree.swap a a) (fun _ => Tree.isTree a h g es ∗ F) := Tree.swap_self

section
open Adapter
variable {E : Types V} {k : Kind} {a b ty : Nat} {ws : List V}

theorem kind_swap_self : Triple nf ((kindSpec E nf k).rep ty a ws) ((k.impl E).swap a a) (fun _ => (kindSpec E nf k).rep ty a ws) := by
  cases k with
  | list =>
    show Triple nf (listRep ty a ws) (CList.swap a a) (fun _ => listRep ty a ws)
    unfold listRep
    xintro s xs h
    refine Triple.post CList.swap_self fun _ => ?_
    xexists s, xs
    cancel
  | vector =>
    show Triple nf (vecRep E nf ty a ws) (Vec.swap a a) (fun _ => vecRep E nf ty a ws)
    unfold vecRep
    xintro b cap
    rw [sep_emp]
    refine Triple.post (C76_vector_assign_swap (T := fun ty => plainOps (E ty)) (e := plainSpec (E ty))).2 fun _ => ?_
    xexists b, cap
    cancel
  | deque =>
    show Triple nf (deqRep E nf ty a ws) (Deq.swap a a) (fun _ => deqRep E nf ty a ws)
    unfold deqRep
    xintro b lo hi
    rw [sep_emp]
    refine Triple.post (C76_deque_assign_swap (T := fun ty => plainOps (E ty)) (e := plainSpec (E ty))).2 fun _ => ?_
    xexists b, lo, hi
    cancel

theorem back_swap_self : Triple nf (isBack E nf k b ty ws) ((wrap (k.impl E)).swap b b) (fun _ => isBack E nf k b ty ws) := by
  refine Triple.fact (p := b ≠ 0) (fun h hh => back_ne (P := emp) (by rw [sep_emp]; exact hh)) ?_
  intro hb
  unfold wrap
  dsimp only
  rw [if_neg (by simp [hb])]
  unfold isBack
  xintro impl
  steps
  call kind_swap_self
  intro _
  steps
  apply Triple.ret
  xexists impl
  cancel

/-- `c_stack_swap`, `c_queue_swap`, with any backend -/
theorem C76_stack_queue_swap : Triple nf (isAd E nf k a ty ws) (swap E a a) (fun _ => isAd E nf k a ty ws) := by
  refine Triple.fact (p := a ≠ 0) (fun h hh => ad_ne (P := emp) (by rw [sep_emp]; exact hh)) ?_
  intro ha
  unfold swap isAd
  rw [if_neg (by simp [ha])]
  xintro b
  steps
  refine Triple.pre (P' := isBack E nf k b ty ws ∗ (blk a 1 ∗ fld a 1 b)) (by cancel) ?_
  apply ops_spec
  call back_swap_self
  intro _
  xexists b
  cancel

/-- `c_priority_queue_swap`, with any backend -/
theorem C76_priority_queue_swap {comp : Nat} : Triple nf (isPq E nf k a ty comp ws) (swap E a a) (fun _ => isPq E nf k a ty comp ws) := by
  refine Triple.fact (p := a ≠ 0) (fun h hh => pq_ne (P := emp) (by rw [sep_emp]; exact hh)) ?_
  intro ha
  unfold swap isPq
  rw [if_neg (by simp [ha])]
  xintro b
  steps
  refine Triple.pre (P' := isBack E nf k b ty ws ∗ (blk a 2 ∗ fld a 1 b ∗ fld a 2 comp)) (by cancel) ?_
  apply ops_spec
  call back_swap_self
  intro _
  xexists b
  cancel

end

/-! ## merge of lists -/

/-- Some element is not less than its successor, although a greater element follows later: in a sorted list, an element that occurs twice and is not the
greatest one. -/
def Repeats {α : Type} (lt : α → α → Bool) (vs : List α) : Prop :=
  ∃ A a b B c, vs = A ++ a :: b :: B ∧ lt a b = false ∧ c ∈ B ∧ lt a c = true

theorem C76_list_merge_partial {l s : Addr} {ty : Nat} {xs : List (CList.Elem V)} {comp : V → V → Bool} (hty : ty ≠ 0) (hc : StrictWeak comp)
    (hs : Sorted comp (CList.vals xs)) (hr : ¬ Repeats comp (CList.vals xs)) :
    Triple nf (CList.isList l s ty xs) (CList.mergeBy l l (some comp)) (fun _ => CList.isList l s ty xs) :=
  CList.mergeBy_self hc hs hr (by simp [isSame, hty])

theorem C76_list_merge_violated {l s : Addr} {ty : Nat} {xs : List (CList.Elem V)} {comp : V → V → Bool} (hty : ty ≠ 0) (hc : StrictWeak comp)
    (hs : Sorted comp (CList.vals xs)) (hr : Repeats comp (CList.vals xs)) {F : HProp V} (m : Mem V) (hm : (CList.isList l s ty xs ∗ F) m.cells) :
    CList.mergeBy l l (some comp) m = none :=
  CList.mergeBy_self_never (nf := False) hc hs hr (by simp [isSame, hty]) m (fun h => h.elim) hm

theorem ltNat : StrictWeak (fun a b : Nat => decide (a < b)) := by constructor <;> simp <;> omega

/-- the list `1, 1, 2` made by `c_list_create_from`: merging it with itself never returns -/
example : ∃ (m : Mem Nat) (l s : Addr) (xs : List (CList.Elem Nat)), CList.vals xs = [1, 1, 2] ∧
    (CList.isList l s 1 xs ∗ arr 1 1 ([1, 1, 2].map fun v => .obj (some v))) m.cells ∧
    CList.mergeBy l l (some fun a b => decide (a < b)) m = none := by
  obtain ⟨m, l, s, xs, _, h, hm⟩ := CList.exists_list (V := Nat) (fun _ => ⟨0, fun a b => a < b, fun a b => a == b⟩) 1 (by simp) [1, 1, 2] (by simp)
  refine ⟨m, l, s, xs, h, hm, C76_list_merge_violated (by simp) ltNat ?_ ?_ m hm⟩
  · rw [h]; simp [Sorted]
  · rw [h]; exact ⟨[], 1, 1, [2], 2, rfl, by simp, by simp, by simp⟩

/-- the lists to which the partial theorem applies -/
example : Sorted (fun a b : Nat => decide (a < b)) [1, 2, 4, 4] ∧ ¬ Repeats (fun a b : Nat => decide (a < b)) [1, 2, 4, 4] := by
  refine ⟨by simp [Sorted], ?_⟩
  rintro ⟨A, a, b, B, c, h, h1, h2, h3⟩
  rcases A with _ | ⟨_, _ | ⟨_, _ | ⟨_, A⟩⟩⟩ <;> simp at h h1 h3
  · omega
  · omega
  · obtain ⟨_, _, _, _, rfl⟩ := h; simp at h2
  · have := congrArg List.length h.2.2.2; simp at this; omega

/-! ## merge of forward lists -/

/-- A sorted forward list with two different elements: `c_slist_merge(l, l)` never returns. -/
theorem C76_forward_list_merge_violated {l a s : Addr} {ty : Nat} {x : CList.Elem V} {xs : List (CList.Elem V)} {comp : V → V → Bool} (hty : ty ≠ 0)
    (hc : StrictWeak comp) (hs : Sorted comp (CList.vals (x :: xs))) (hg : ∃ y ∈ xs, comp x.val y.val = true) {F : HProp V} (m : Mem V)
    (hm : (SList.isSList l a s ty (x :: xs) ∗ F) m.cells) : SList.mergeBy l l (some comp) m = none :=
  SList.mergeBy_self_never (nf := False) hc hs rfl hg (by simp [isSame, hty]) m (fun h => h.elim) hm

/-- A non-empty forward list in which no element is greater than the first one: the list is empty afterwards, and its nodes and elements are still allocated
(they form a ring to which nothing points). -/
theorem C76_forward_list_merge_lost_violated {l a s : Addr} {ty : Nat} {x : CList.Elem V} {xs : List (CList.Elem V)} {comp : V → V → Bool} (hty : ty ≠ 0)
    (hg : ∀ y ∈ x :: xs, comp x.val y.val = false) :
    Triple nf (SList.isSList l a s ty (x :: xs)) (SList.mergeBy l l (some comp)) (fun _ => SList.isSList l a s ty [] ∗ SList.ring (x :: xs)) :=
  SList.mergeBy_self_lost hg (by simp [isSame, hty])

/-- the only list that is left alone -/
theorem C76_forward_list_merge_partial {l a s : Addr} {ty : Nat} {comp : V → V → Bool} :
    Triple nf (SList.isSList l a s ty []) (SList.mergeBy l l (some comp)) (fun _ => SList.isSList (V := V) l a s ty []) := by
  unfold SList.mergeBy
  dsimp only
  call SList.spliceGuard_self; intro r; xsub
  rw [if_pos (by simp)]
  apply Triple.ret
  cancel

/-- the forward lists `1, 2` and `3` made by `c_slist_create_from` -/
example : (∃ (m : Mem Nat) (l a s : Addr) (xs : List (CList.Elem Nat)), CList.vals xs = [1, 2] ∧
      (SList.isSList l a s 1 xs ∗ arr 1 1 ([1, 2].map fun v => .obj (some v))) m.cells ∧ SList.mergeBy l l (some fun a b => decide (a < b)) m = none) ∧
    (∃ (m m' : Mem Nat) (l a s : Addr) (x : CList.Elem Nat), x.val = 3 ∧
      (SList.isSList l a s 1 [x] ∗ arr 1 1 ([3].map fun v => .obj (some v))) m.cells ∧ SList.mergeBy l l (some fun a b => decide (a < b)) m = some (.ok ((), m')) ∧
      ((SList.isSList l a s 1 [] ∗ SList.ring [x]) ∗ arr 1 1 ([3].map fun v => .obj (some v))) m'.cells) := by
  constructor
  · obtain ⟨m, l, a, s, xs, _, h, hm⟩ := SList.exists_slist (V := Nat) (fun _ => ⟨0, fun a b => a < b, fun a b => a == b⟩) 1 (by simp) [1, 2] (by simp)
    obtain ⟨x, xs, rfl⟩ := List.exists_cons_of_ne_nil (l := xs) (by rintro rfl; simp [CList.vals] at h)
    obtain ⟨y, xs, rfl⟩ := List.exists_cons_of_ne_nil (l := xs) (by rintro rfl; simp [CList.vals] at h)
    refine ⟨m, l, a, s, _, h, hm, C76_forward_list_merge_violated (by simp) ltNat ?_ ?_ m hm⟩
    · rw [h]; simp [Sorted]
    · simp [CList.vals] at h
      exact ⟨y, by simp, by simp [h.1, h.2.1]⟩
  · obtain ⟨m, l, a, s, xs, _, h, hm⟩ := SList.exists_slist (V := Nat) (fun _ => ⟨0, fun a b => a < b, fun a b => a == b⟩) 1 (by simp) [3] (by simp)
    obtain ⟨x, xs, rfl⟩ := List.exists_cons_of_ne_nil (l := xs) (by rintro rfl; simp [CList.vals] at h)
    simp [CList.vals] at h
    obtain ⟨h, rfl⟩ := h
    obtain ⟨_, m', h1, _, h2⟩ := (C76_forward_list_merge_lost_violated (nf := False) (l := l) (a := a) (s := s) (ty := 1) (x := x) (xs := [])
      (comp := fun a b => decide (a < b)) (by simp) (by simp)).run (fun h => h.elim) hm
    exact ⟨m, m', l, a, s, x, h, hm, h1, h2⟩

/-! ## insert_range of sets and maps -/

/-- Inserting any range of its own elements into a set or map: they are all there already, nothing changes. -/
theorem C76_insert_unique_range {E : Tree.Env V} {a h : Addr} {g : Tree.Cfg} {X W Y : List (CList.Elem V)} {F : HProp V} (hw : StrictWeak (Tree.klt E g))
    (hs : Tree.KSorted E g (X ++ W ++ Y)) :
    Triple True (Tree.isTree a h g (X ++ W ++ Y) ∗ F) (CSet.insertRange E a (CList.firstN (W ++ Y) h) (CList.firstN Y h))
      (fun _ => Tree.isTree a h g (X ++ W ++ Y) ∗ F) ∧
    Triple True (Tree.isTree a h g (X ++ W ++ Y) ∗ F) (CMap.insertRange E a (CList.firstN (W ++ Y) h) (CList.firstN Y h))
      (fun _ => Tree.isTree a h g (X ++ W ++ Y) ∗ F) :=
  ⟨Tree.insertUniqueRange_self hw hs, Tree.insertUniqueRange_self hw hs⟩

/-- Inserting the elements from any position of a multiset or multimap up to its end into itself never returns while memory can be allocated. -/
theorem C76_insert_equal_range_violated {E : Tree.Env V} {a h : Addr} {g : Tree.Cfg} {X Y : List (CList.Elem V)} {e : CList.Elem V} {F : HProp V}
    (hw : StrictWeak (Tree.klt E g)) (hs : Tree.KSorted E g (X ++ e :: Y)) (m : Mem V) (ho : ∀ t, m.orc t ≠ 0)
    (hm : (Tree.isTree a h g (X ++ e :: Y) ∗ F) m.cells) :
    CMultiset.insertRange E a e.node h m = none ∧ CMultimap.insertRange E a e.node h m = none :=
  ⟨Tree.insertEqualRange_self hw hs m (fun _ => ho) hm, Tree.insertEqualRange_self hw hs m (fun _ => ho) hm⟩

/-- the set (and multiset) `1, 2, 3` -/
example : ∃ (m : Mem Nat) (a h : Addr) (x : CList.Elem Nat) (xs : List (CList.Elem Nat)), (CList.vals (x :: xs)).Perm [3, 1, 2] ∧
    CMultiset.insertRange Tree.natEnv a x.node h m = none ∧
    ∃ m', CSet.insertRange Tree.natEnv a x.node h m = some (.ok ((), m')) ∧
      (Tree.isTree a h Tree.natCfg (x :: xs) ∗ arr 1 1 ([3, 1, 2].map fun v => .obj (some v))) m'.cells := by
  obtain ⟨m, a, h, es, ho, h1, h2, hm⟩ := Tree.exists_tree Tree.natEnv Tree.natCfg (by simp [Tree.natCfg]) Tree.natEnv_order [3, 1, 2]
  obtain ⟨x, xs, rfl⟩ := List.exists_cons_of_ne_nil (l := es) (by rintro rfl; simp [CList.vals] at h1)
  refine ⟨m, a, h, x, xs, h1, (C76_insert_equal_range_violated (X := []) Tree.natEnv_order h2 m ho hm).1, ?_⟩
  have h3 := (C76_insert_unique_range (a := a) (h := h) (X := []) (W := x :: xs) (Y := []) (F := emp) Tree.natEnv_order (by simpa using h2)).1
  simp only [List.append_nil, List.nil_append, CList.firstN_cons, sep_emp] at h3
  obtain ⟨_, m', g1, _, g2⟩ := h3.run (fun _ => ho) hm
  exact ⟨m', g1, g2⟩

end CC.CSelf
