import Verif.Core.Never
import Verif.List.Spec3
import Verif.Spec.Order
/-!
# `c_list_merge` with the list itself as second argument
-/
namespace CC.CList
open CC.Tac
variable {V : Type} {nf : Prop} {l s : Addr} {ty : Nat} {comp : V → V → Bool}

/-- one round of the loop of `c_list_merge_by` (c_list.c:831-838): the new `node` and `other_node` -/
def mergeIter (comp : V → V → Bool) (node otherNode : Addr) : M V (Addr × Addr) := do
  let x ← valOf otherNode
  let y ← valOf node
  let vx ← ldV x
  let vy ← ldV y
  if comp vx vy then do
    let otherNext ← nxt otherNode
    transfer node otherNode otherNext
    pure (node, otherNext)
  else do
    let node ← nxt node
    pure (node, otherNode)

theorem mergeStep (comp : V → V → Bool) (f : Addr → Addr → M V Addr) (node last otherNode otherLast : Addr) :
    (if node ≠ last ∧ otherNode ≠ otherLast then do
      let x ← valOf otherNode
      let y ← valOf node
      let vx ← ldV x
      let vy ← ldV y
      if comp vx vy = true then do
          let otherNext ← nxt otherNode
          transfer node otherNode otherNext
          f node otherNext
        else do
          let node ← nxt node
          f node otherNode
    else pure otherNode) =
    (if node ≠ last ∧ otherNode ≠ otherLast then mergeIter comp node otherNode >>= fun r => f r.1 r.2 else pure otherNode) := by
  split
  · unfold mergeIter
    simp only [bind_assoc]
    iterate 6 refine bind_congr fun _ => ?_
    split <;> simp only [bind_assoc, pure_bind]
  · rfl

theorem mergeLoop_eq (node last otherNode otherLast : Addr) : mergeLoop comp node last otherNode otherLast =
    (if node ≠ last ∧ otherNode ≠ otherLast then mergeIter comp node otherNode >>= fun r => mergeLoop comp r.1 last r.2 otherLast else pure otherNode) := by
  rw [mergeLoop]
  exact mergeStep comp (fun n o => mergeLoop comp n last o otherLast) _ _ _ _

theorem iter_ge {zs X₁ Y₁ X₂ Y₂ : List (Elem V)} {e₁ e₂ : Elem V} (h₁ : zs = X₁ ++ e₁ :: Y₁) (h₂ : zs = X₂ ++ e₂ :: Y₂) (hc : comp e₁.val e₂.val = false) :
    Triple nf (isList l s ty zs) (mergeIter comp e₂.node e₁.node) (fun r => ⌜r = (firstN Y₂ s, e₁.node)⌝ ∗ isList l s ty zs) := by
  unfold mergeIter
  subst h₁
  call (valOf_in (l := l)); intro r; xsub
  rw [h₂]
  call (valOf_in (l := l)); intro r; xsub
  rw [← h₂]
  call (ldV_in (l := l)); intro r; xsub
  rw [h₂]
  call (ldV_in (l := l)); intro r; xsub
  rw [if_neg (by simp [hc])]
  call (nxt_spec (l := l)); intro r; xsub
  apply Triple.ret
  cancel

theorem iter_lt {X Y Z : List (Elem V)} {e₁ e₂ : Elem V} (hc : comp e₁.val e₂.val = true) :
    Triple nf (isList l s ty (X ++ e₁ :: (Y ++ e₂ :: Z))) (mergeIter comp e₂.node e₁.node)
      (fun r => ⌜r = (e₂.node, firstN (Y ++ e₂ :: Z) s)⌝ ∗ isList l s ty (X ++ (Y ++ e₁ :: e₂ :: Z))) := by
  unfold mergeIter
  have h₂ : X ++ e₁ :: (Y ++ e₂ :: Z) = (X ++ e₁ :: Y) ++ e₂ :: Z := by simp
  call (valOf_in (l := l)); intro r; xsub
  rw [h₂]
  call (valOf_in (l := l)); intro r; xsub
  rw [← h₂]
  call (ldV_in (l := l)); intro r; xsub
  rw [h₂]
  call (ldV_in (l := l)); intro r; xsub
  rw [if_pos hc, ← h₂]
  call (nxt_spec (l := l)); intro r; xsub
  have ht := transfer_later (nf := nf) (l := l) (s := s) (ty := ty) (X := X) (M := [e₁]) (Y := Y) (Z := e₂ :: Z)
  rw [firstN_append] 
  simp only [List.append_assoc, List.cons_append, List.nil_append, firstN_cons, firstN_nil] at ht ⊢
  call ht
  intro _
  apply Triple.ret
  cancel

theorem list_fact {xs : List (Elem V)} {F : HProp V} {h : Heap V} (hh : (isList l s ty xs ∗ F) h) : ∀ e ∈ xs, e.node ≠ s := by
  unfold isList hdr at hh
  exact elts_nodes_ne (s := s) (n := 3) (xs := xs) (h := h)
        (R := blk l 2 ∗ fld l 1 s ∗ fld l 2 ty ∗ fld s 3 0 ∗ path s (nodes xs ++ [s]) ∗ F)
        (by refine Eq.mp (congrFun ?_ h) hh; ac_rfl)

/-- The loop has come to `c`, `Q` are two or more elements in front of it that are all less than `c`: they are moved in front of `c` one after the other,
for ever. -/
theorem spin {X Q Z : List (Elem V)} {c : Elem V} {F : HProp V} (h2 : 2 ≤ Q.length) (hlt : ∀ q ∈ Q, comp q.val c.val = true) :
    Never nf (isList l s ty (X ++ (Q ++ c :: Z)) ∗ F) (mergeLoop comp c.node s (firstN Q s) s) := by
  refine mergeLoop.fixpoint_induct comp s s
    (fun f => ∀ n o R, (∃ Q : List (Elem V), n = c.node ∧ o = firstN Q s ∧ 2 ≤ Q.length ∧ (∀ q ∈ Q, comp q.val c.val = true) ∧ R = (isList l s ty (X ++ (Q ++ c :: Z)) ∗ F)) →
      Never nf R (f n o)) Never.adm2 ?_ _ _ _ ⟨Q, rfl, rfl, h2, hlt, rfl⟩
  rintro f ih _ _ _ ⟨Q, rfl, rfl, h2, hlt, rfl⟩
  dsimp only
  rw [mergeStep]
  obtain ⟨q, Q, rfl⟩ := List.exists_cons_of_ne_nil (l := Q) (by rintro rfl; simp at h2)
  obtain ⟨y, Q, rfl⟩ := List.exists_cons_of_ne_nil (l := Q) (by rintro rfl; simp at h2)
  refine Never.fact (p := ∀ e ∈ X ++ ((q :: y :: Q) ++ c :: Z), e.node ≠ s) (fun _ hh => list_fact hh) fun hs => ?_
  rw [if_pos ⟨hs c (by simp), hs q (by simp)⟩]
  simp only [List.cons_append, firstN_cons]
  refine Never.step (iter_lt (Y := y :: Q) (hlt q (by simp))) ?_
  refine ih _ _ _ ⟨(y :: Q) ++ [q], rfl, rfl, by simp, ?_, by simp⟩
  intro z hz
  apply hlt
  simp at hz ⊢
  rcases hz with h | h | h <;> simp [h]

/-- walking over elements that are not greater than the first one -/
theorem walk {X Y W Z : List (Elem V)} {q c : Elem V} {F : HProp V} (hW : ∀ y ∈ W, comp q.val y.val = false)
    (h : Never nf (isList l s ty (X ++ q :: (Y ++ W ++ c :: Z)) ∗ F) (mergeLoop comp c.node s q.node s)) :
    Never nf (isList l s ty (X ++ q :: (Y ++ W ++ c :: Z)) ∗ F) (mergeLoop comp (firstN (W ++ c :: Z) s) s q.node s) := by
  induction W generalizing Y with
  | nil => exact h
  | cons w W ih =>
    refine Never.fact (p := ∀ e ∈ X ++ q :: (Y ++ (w :: W) ++ c :: Z), e.node ≠ s) (fun _ hh => list_fact hh) fun hs => ?_
    rw [mergeLoop_eq, List.cons_append, firstN_cons, if_pos ⟨hs w (by simp), hs q (by simp)⟩]
    refine Never.step (iter_ge (X₁ := X) (X₂ := X ++ q :: Y) (Y₂ := W ++ c :: Z) (e₂ := w) rfl (by simp) (hW w (by simp))) ?_
    have := ih (Y := Y ++ [w]) (fun y hy => hW y (by simp [hy]))
    simp only [List.append_assoc, List.cons_append, List.nil_append] at this h ⊢
    exact this h

theorem spins {A X Y Z : List (Elem V)} {q y c : Elem V} {F : HProp V} (hirr : ∀ e ∈ X ++ [q], comp e.val e.val = false)
    (hX : (X ++ [q]).Pairwise (fun a b => comp a.val b.val = true)) (hY : ∀ z ∈ y :: Y, comp q.val z.val = false)
    (hc : ∀ z ∈ q :: y :: Y, comp z.val c.val = true) :
    Never nf (isList l s ty (A ++ (X ++ q :: y :: (Y ++ c :: Z))) ∗ F) (mergeLoop comp (firstN (X ++ [q]) s) s (firstN (X ++ [q]) s) s) := by
  induction X generalizing A with
  | nil =>
    refine Never.fact (p := ∀ e ∈ A ++ ([] ++ q :: y :: (Y ++ c :: Z)), e.node ≠ s) (fun _ hh => list_fact hh) fun hs => ?_
    simp only [List.nil_append, firstN_cons] at hs ⊢
    rw [mergeLoop_eq, if_pos ⟨hs q (by simp), hs q (by simp)⟩]
    refine Never.step (iter_ge (X₁ := A) (X₂ := A) (Y₂ := y :: (Y ++ c :: Z)) (e₁ := q) (e₂ := q) rfl rfl (hirr q (by simp))) ?_
    have h1 := spin (nf := nf) (l := l) (s := s) (ty := ty) (comp := comp) (F := F) (X := A) (Q := q :: y :: Y) (c := c) (Z := Z) (by simp) hc
    have h2 := walk (nf := nf) (l := l) (s := s) (ty := ty) (comp := comp) (F := F) (X := A) (Y := []) (W := y :: Y) (q := q) (c := c) (Z := Z) hY
    simp only [List.cons_append, List.nil_append, firstN_cons] at h1 h2
    exact h2 h1
  | cons x X ih =>
    refine Never.fact (p := ∀ e ∈ A ++ (x :: X ++ q :: y :: (Y ++ c :: Z)), e.node ≠ s) (fun _ hh => list_fact hh) fun hs => ?_
    have hf : firstN (X ++ q :: y :: (Y ++ c :: Z)) s = firstN (X ++ [q]) s := by cases X <;> rfl
    obtain ⟨w, W, hw⟩ := List.exists_cons_of_ne_nil (l := X ++ q :: y :: (Y ++ c :: Z)) (by simp)
    have hxw : comp x.val w.val = true := by
      rcases X with _ | ⟨x', X⟩
      · simp at hw; rw [← hw.1]; simpa using hX
      · simp at hw; rw [← hw.1]; simp only [List.cons_append, List.pairwise_cons] at hX; exact hX.1 x' (by simp)
    have hiw : comp w.val w.val = false := by
      rcases X with _ | ⟨x', X⟩
      · simp at hw; rw [← hw.1]; exact hirr q (by simp)
      · simp at hw; rw [← hw.1]; exact hirr x' (by simp)
    have ih' := ih (A := A ++ [x]) (fun e he => hirr e (by simp at he ⊢; rcases he with h | h <;> simp [h])) (by
      simp only [List.cons_append, List.pairwise_cons] at hX; exact hX.2)
    simp only [List.append_assoc, List.cons_append, List.nil_append, firstN_cons] at ih' ⊢
    simp only [List.cons_append] at hs
    rw [mergeLoop_eq, if_pos ⟨hs x (by simp), hs x (by simp)⟩]
    refine Never.step (iter_ge (X₁ := A) (X₂ := A) (e₁ := x) (e₂ := x) rfl rfl (hirr x (by simp))) ?_
    rw [← hf] at ih'
    rw [hw] at ih' hs ⊢
    simp only [firstN_cons] at ih' ⊢
    rw [mergeLoop_eq, if_pos ⟨hs w (by simp), hs x (by simp)⟩]
    have := iter_lt (nf := nf) (l := l) (s := s) (ty := ty) (X := A) (Y := []) (Z := W) hxw
    simp only [List.nil_append, firstN_cons] at this
    exact Never.step this ih'

/-- walking to the end over elements that are not greater than the first one -/
theorem walk_end {X Y W : List (Elem V)} {q : Elem V} (hW : ∀ y ∈ W, comp q.val y.val = false) :
    Triple nf (isList l s ty (X ++ q :: (Y ++ W))) (mergeLoop comp (firstN W s) s q.node s)
      (fun r => ⌜r = q.node⌝ ∗ isList l s ty (X ++ q :: (Y ++ W))) := by
  induction W generalizing Y with
  | nil =>
    rw [mergeLoop_eq, if_neg (by simp)]
    apply Triple.ret
    cancel
  | cons w W ih =>
    apply list_facts0; intro _ _ hs _
    rw [mergeLoop_eq, firstN_cons, if_pos ⟨hs w (by simp), hs q (by simp)⟩]
    call (iter_ge (X₁ := X) (Y₁ := Y ++ w :: W) (e₁ := q) (X₂ := X ++ q :: Y) (Y₂ := W) (e₂ := w) rfl (by simp) (hW w (by simp)))
    intro r; xsub
    have := ih (Y := Y ++ [w]) (fun y hy => hW y (by simp [hy]))
    simp only [List.append_assoc, List.cons_append, List.nil_append] at this ⊢
    exact this

theorem settles {A X Q : List (Elem V)} {q : Elem V} (hirr : ∀ e ∈ X ++ [q], comp e.val e.val = false)
    (hX : (X ++ [q]).Pairwise (fun a b => comp a.val b.val = true)) (hQ : ∀ z ∈ Q, comp q.val z.val = false) :
    Triple nf (isList l s ty (A ++ (X ++ q :: Q))) (mergeLoop comp (firstN (X ++ q :: Q) s) s (firstN (X ++ q :: Q) s) s)
      (fun r => ⌜r = q.node⌝ ∗ isList l s ty (A ++ (X ++ q :: Q))) := by
  induction X generalizing A with
  | nil =>
    apply list_facts0; intro _ _ hs _
    simp only [List.nil_append, firstN_cons] at hs ⊢
    rw [mergeLoop_eq, if_pos ⟨hs q (by simp), hs q (by simp)⟩]
    call (iter_ge (X₁ := A) (X₂ := A) (Y₂ := Q) (e₁ := q) (e₂ := q) rfl rfl (hirr q (by simp)))
    intro r; xsub
    exact walk_end (Y := []) hQ
  | cons x X ih =>
    apply list_facts0; intro _ _ hs _
    obtain ⟨w, W, hw⟩ := List.exists_cons_of_ne_nil (l := X ++ q :: Q) (by simp)
    have hxw : comp x.val w.val = true := by
      rcases X with _ | ⟨x', X⟩
      · simp at hw; rw [← hw.1]; simpa using hX
      · simp at hw; rw [← hw.1]; simp only [List.cons_append, List.pairwise_cons] at hX; exact hX.1 x' (by simp)
    have ih' := ih (A := A ++ [x]) (fun e he => hirr e (by simp at he ⊢; rcases he with h | h <;> simp [h])) (by
      simp only [List.cons_append, List.pairwise_cons] at hX; exact hX.2)
    simp only [List.append_assoc, List.cons_append, List.nil_append, firstN_cons] at ih' hs ⊢
    rw [mergeLoop_eq, if_pos ⟨hs x (by simp), hs x (by simp)⟩]
    call (iter_ge (X₁ := A) (X₂ := A) (e₁ := x) (e₂ := x) rfl rfl (hirr x (by simp)))
    intro r; xsub
    rw [hw] at ih' hs ⊢
    simp only [firstN_cons] at ih' ⊢
    rw [mergeLoop_eq, if_pos ⟨hs w (by simp), hs x (by simp)⟩]
    have := iter_lt (nf := nf) (l := l) (s := s) (ty := ty) (X := A) (Y := []) (Z := W) hxw
    simp only [List.nil_append, firstN_cons] at this
    call this
    intro r; xsub
    exact ih'

/-! ## The shape of a sorted list -/

/-- Every non-empty sorted list is a strictly ascending prefix followed by a class of equivalent elements, which is either the rest or has at least two
elements and is followed by a greater one. -/
theorem sorted_shape {α : Type} {lt : α → α → Bool} (hc : StrictWeak lt) {xs : List α} (hs : Sorted lt xs) (hne : xs ≠ []) :
    (∃ X q Q, xs = X ++ q :: Q ∧ (X ++ [q]).Pairwise (fun a b => lt a b = true) ∧ ∀ z ∈ Q, lt q z = false) ∨
    (∃ X q y Y c Z, xs = X ++ q :: y :: (Y ++ c :: Z) ∧ (X ++ [q]).Pairwise (fun a b => lt a b = true) ∧ (∀ z ∈ y :: Y, lt q z = false) ∧
      ∀ z ∈ q :: y :: Y, lt z c = true) := by
  induction xs with
  | nil => exact absurd rfl hne
  | cons x xs ih =>
    rcases xs with _ | ⟨y, xs⟩
    · exact Or.inl ⟨[], x, [], rfl, by simp, by simp⟩
    · obtain ⟨hx, hs'⟩ := List.pairwise_cons.1 hs
      cases hxy : lt x y with
      | true =>
        have hlt : ∀ z ∈ y :: xs, lt x z = true := by
          intro z hz
          rcases List.mem_cons.1 hz with rfl | hz
          · exact hxy
          · have := (List.pairwise_cons.1 hs').1 z hz
            by_cases h : lt x z = true
            · exact h
            · exact absurd hxy (by simp [hc.negtrans (Bool.eq_false_iff.2 h) this])
        have hp : ∀ {X : List α} {q : α} {R : List α}, y :: xs = X ++ q :: R → (X ++ [q]).Pairwise (fun a b => lt a b = true) →
            (x :: X ++ [q]).Pairwise (fun a b => lt a b = true) := by
          intro X q R he hX
          refine List.pairwise_cons.2 ⟨fun z hz => hlt z ?_, hX⟩
          rw [he]
          simp at hz ⊢
          rcases hz with h | h <;> simp [h]
        rcases ih hs' (by simp) with ⟨X, q, Q, he, h1, h2⟩ | ⟨X, q, y', Y, c, Z, he, h1, h2, h3⟩
        · exact Or.inl ⟨x :: X, q, Q, by simp [he], hp he h1, h2⟩
        · exact Or.inr ⟨x :: X, q, y', Y, c, Z, by simp [he], hp he h1, h2, h3⟩
      | false =>
        have hsp := List.takeWhile_append_dropWhile (p := fun z => !lt x z) (l := xs)
        rcases hd : xs.dropWhile (fun z => !lt x z) with _ | ⟨c, Z⟩
        · refine Or.inl ⟨[], x, y :: xs, rfl, by simp, ?_⟩
          rw [hd, List.append_nil] at hsp
          intro z hz
          rcases List.mem_cons.1 hz with rfl | hz
          · exact hxy
          · rw [← hsp] at hz
            simpa using List.all_takeWhile (p := fun z => !lt x z) (l := xs) |> List.all_eq_true.1 |> fun h => h z hz
        · have hY : ∀ z ∈ y :: xs.takeWhile (fun z => !lt x z), lt x z = false := by
            intro z hz
            rcases List.mem_cons.1 hz with rfl | hz
            · exact hxy
            · simpa using List.all_takeWhile (p := fun z => !lt x z) (l := xs) |> List.all_eq_true.1 |> fun h => h z hz
          have hxc : lt x c = true := by
            have := List.head?_dropWhile_not (fun z => !lt x z) xs
            rw [hd] at this
            simpa using this
          rw [hd] at hsp
          refine Or.inr ⟨[], x, y, _, c, Z, by rw [hsp]; rfl, by simp, hY, ?_⟩
          intro z hz
          rcases List.mem_cons.1 hz with rfl | hz
          · exact hxc
          · by_cases h : lt z c = true
            · exact h
            · exact absurd hxc (by simp [hc.negtrans (hY z hz) (Bool.eq_false_iff.2 h)])

/-- some element is not less than its successor although a greater element follows -/
def Repeats {α : Type} (lt : α → α → Bool) (xs : List α) : Prop :=
  ∃ A a b B c, xs = A ++ a :: b :: B ∧ lt a b = false ∧ c ∈ B ∧ lt a c = true

theorem shape_not {α : Type} {lt : α → α → Bool} (hc : StrictWeak lt) {X Q : List α} {q : α} (hs : Sorted lt (X ++ q :: Q))
    (hX : (X ++ [q]).Pairwise (fun a b => lt a b = true)) (hQ : ∀ z ∈ Q, lt q z = false) : ¬ Repeats lt (X ++ q :: Q) := by
  rintro ⟨A, a, b, B, c, he, hab, hcB, hac⟩
  rcases List.append_eq_append_iff.1 he with ⟨Y, rfl, hY⟩ | ⟨Y, rfl, hY⟩
  · -- a is in the class
    have haq : lt a q = false := by
      rcases Y with _ | ⟨y, Y⟩
      · simp at hY; rw [hY.1]; exact hc.irrefl _
      · simp at hY
        have := (List.pairwise_append.1 hs).2.1
        rw [hY.2] at this
        exact (List.pairwise_cons.1 this).1 a (by simp)
    have hcQ : c ∈ Q := by
      rcases Y with _ | ⟨y, Y⟩
      · simp at hY; rw [hY.2]; exact List.mem_cons_of_mem _ hcB
      · simp at hY; rw [hY.2]; simp [hcB]
    rw [hc.negtrans haq (hQ c hcQ)] at hac
    cases hac
  · rcases Y with _ | ⟨y, Y⟩
    · simp at hY
      rw [hY.1] at hac
      rw [hc.negtrans (hc.irrefl q) (hQ c (by rw [← hY.2]; simp [hcB]))] at hac
      cases hac
    · simp at hY
      obtain ⟨rfl, hY⟩ := hY
      have hb : b ∈ Y ++ [q] := by
        rcases Y with _ | ⟨y', Y⟩
        · simp at hY; simp [hY.1]
        · simp at hY; simp [hY.1]
      rw [List.append_assoc, List.pairwise_append] at hX
      have := (List.pairwise_cons.1 hX.2.1).1 b hb
      rw [hab] at this
      cases this

/-! ## `c_list_merge_by(list, list, comp)` -/

theorem mergeBy_self_eq {xs : List (Elem V)} {F : HProp V} {e : Elem V} {Y : List (Elem V)} (hxs : xs = e :: Y) (hty : isSame ty ty = true)
    (h : Never nf (isList l s ty xs ∗ F) (mergeLoop comp e.node s e.node s)) : Never nf (isList l s ty xs ∗ F) (mergeBy l l (some comp)) := by
  unfold mergeBy
  refine Never.fact (p := l ≠ 0) (fun _ hh => ?_) fun hl => ?_
  · unfold isList hdr blk at hh
    simp only [sep_assoc] at hh
    exact pts_ne_zero hh
  rw [if_neg hl]
  refine Never.step empty_spec ?_
  rw [if_neg (by simp [hxs])]
  dsimp only
  refine Never.step ltype_spec ?_
  refine Never.step ltype_spec ?_
  rw [if_neg (by simp [hty])]
  refine Never.step begin_spec ?_
  refine Never.step end_spec ?_
  refine Never.step begin_spec ?_
  refine Never.step end_spec ?_
  rw [hxs] at h ⊢
  exact Never.head h

theorem mergeBy_self_never {xs : List (Elem V)} {F : HProp V} (hc : StrictWeak comp) (hs : Sorted comp (vals xs)) (hr : Repeats comp (vals xs)) (hty : isSame ty ty = true) :
    Never nf (isList l s ty xs ∗ F) (mergeBy l l (some comp)) := by
  have hne : xs ≠ [] := by
    rintro rfl
    obtain ⟨A, a, b, B, c, he, _⟩ := hr
    simp at he
  have hr' : Repeats (fun a b : Elem V => comp a.val b.val) xs := by
    obtain ⟨A, a, b, B, c, he, h1, h2, h3⟩ := hr
    obtain ⟨A', R, rfl, rfl, he1⟩ := List.map_eq_append_iff.1 he
    obtain ⟨a', R, rfl, rfl, he2⟩ := List.map_eq_cons_iff.1 he1
    obtain ⟨b', B', rfl, rfl, rfl⟩ := List.map_eq_cons_iff.1 he2
    obtain ⟨c', hc', rfl⟩ := List.mem_map.1 h2
    exact ⟨A', a', b', B', c', rfl, h1, hc', h3⟩
  have hs' : Sorted (fun a b : Elem V => comp a.val b.val) xs := by simpa [Sorted, vals, List.pairwise_map] using hs
  rcases sorted_shape (hc.comap Elem.val) hs' hne with ⟨X, q, Q, rfl, h1, h2⟩ | ⟨X, q, y, Y, c, Z, rfl, h1, h2, h3⟩
  · exact absurd hr' (shape_not (hc.comap Elem.val) hs' h1 h2)
  · have := spins (nf := nf) (l := l) (s := s) (ty := ty) (comp := comp) (F := F) (A := []) (Z := Z) (fun e _ => hc.irrefl e.val) h1 h2 h3
    rw [List.nil_append] at this
    rcases X with _ | ⟨x, X⟩
    · exact mergeBy_self_eq rfl hty this
    · exact mergeBy_self_eq rfl hty this

theorem mergeBy_self {xs : List (Elem V)} (hc : StrictWeak comp) (hs : Sorted comp (vals xs)) (hr : ¬ Repeats comp (vals xs)) (hty : isSame ty ty = true) :
    Triple nf (isList l s ty xs) (mergeBy l l (some comp)) (fun _ => isList l s ty xs) := by
  apply list_facts0; intro hl _ hsn _
  unfold mergeBy
  rw [if_neg hl]
  call empty_spec
  intro r; xsub
  by_cases hne : xs = []
  · subst hne
    simp
    apply Triple.ret; cancel
  rw [if_neg (by simpa using hne)]
  dsimp only
  call ltype_spec; intro r; xsub
  call ltype_spec; intro r; xsub
  rw [if_neg (by simp [hty])]
  call begin_spec; intro r; xsub
  call end_spec; intro r; xsub
  call begin_spec; intro r; xsub
  call end_spec; intro r; xsub
  have hs' : Sorted (fun a b : Elem V => comp a.val b.val) xs := by simpa [Sorted, vals, List.pairwise_map] using hs
  rcases sorted_shape (hc.comap Elem.val) hs' hne with ⟨X, q, Q, rfl, h1, h2⟩ | ⟨X, q, y, Y, c, Z, rfl, h1, h2, h3⟩
  · have hset := settles (nf := nf) (l := l) (s := s) (ty := ty) (comp := comp) (A := []) (fun e _ => hc.irrefl e.val) h1 h2
    rw [List.nil_append] at hset
    call hset
    intro r; xsub
    rw [if_pos (hsn q (by simp))]
    unfold transfer
    rw [if_neg (by simp)]
    apply Triple.ret
    cancel
  · exfalso
    apply hr
    refine ⟨vals X, q.val, y.val, vals Y ++ c.val :: vals Z, c.val, by simp [vals], h2 y (by simp), by simp, h3 q (by simp)⟩

end CC.CList
