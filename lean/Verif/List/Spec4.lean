import Verif.List.Spec3
/-!
# Specifications of the public list functions, part 4: iteration, remove, reverse, unique (proof layer)
-/
namespace CC.CList
open CC.Tac
variable {V β : Type} {E : Types V} {nf : Prop} {l s o s2 : Addr} {ty t2 : Nat} {xs ys : List (Elem V)}

/-! ### iteration -/

theorem walkFwd_spec {X Y Z : List (Elem V)} :
    Triple nf (isList l s ty (X ++ Y ++ Z)) (walkFwd (firstN Y (firstN Z s)) (firstN Z s))
      (fun r => ⌜r = vals Y⌝ ∗ isList l s ty (X ++ Y ++ Z)) := by
  induction Y generalizing X with
  | nil =>
    rw [walkFwd, if_neg (by simp)]
    apply Triple.ret
    cancel
  | cons e Y ih =>
    apply list_facts0; intro _ _ hs hnd
    have h2 : e.node ≠ firstN Z s := by
      cases Z with
      | nil => exact hs e (by simp)
      | cons z Z =>
        intro h
        simp only [firstN_cons] at h
        simp [List.nodup_append, h] at hnd
    rw [walkFwd, if_pos (by simpa using h2)]
    have ih' := ih (X := X ++ [e])
    simp only [List.append_assoc, List.cons_append, List.nil_append] at ih' ⊢
    unfold iterDereference iterIncrement
    rw [firstN_cons]
    call valOf_in
    intro r
    xsub
    call ldV_in
    intro r
    xsub
    call nxt_spec
    intro r
    xsub
    rw [firstN_append]
    call ih'
    intro r
    xsub
    apply Triple.ret
    cancel

theorem readAll_spec : Triple nf (isList l s ty xs) (readAll l) (fun r => ⌜r = vals xs⌝ ∗ isList l s ty xs) := by
  unfold readAll
  call begin_spec
  intro r
  xsub
  call end_spec
  intro r
  xsub
  have := walkFwd_spec (nf := nf) (l := l) (s := s) (ty := ty) (X := []) (Y := xs) (Z := [])
  simpa using this

theorem walkRev_spec {X Y Z : List (Elem V)} :
    Triple nf (isList l s ty (X ++ Y ++ Z)) (walkRev (firstN Z s) (firstN Y (firstN Z s)))
      (fun r => ⌜r = (vals Y).reverse⌝ ∗ isList l s ty (X ++ Y ++ Z)) := by
  induction h : Y.length generalizing Y Z with
  | zero =>
    obtain rfl := List.length_eq_zero_iff.1 h
    rw [walkRev, if_neg (by simp)]
    apply Triple.ret
    cancel
  | succ n ih =>
    rcases List.eq_nil_or_concat Y with rfl | ⟨Y, e, rfl⟩
    · simp at h
    rw [List.concat_eq_append] at h ⊢
    have hY : Y.length = n := by simpa using h
    apply list_facts0; intro _ _ hs hnd
    have h2 : firstN Z s ≠ firstN (Y ++ [e]) (firstN Z s) := by
      intro h
      have hm : firstN (Y ++ [e]) (firstN Z s) ∈ nodes (Y ++ [e]) := by
        cases Y <;> simp
      rw [← h] at hm
      cases Z with
      | nil =>
        obtain ⟨e', he', hh⟩ := List.mem_map.1 hm
        exact hs e' (by simp at he' ⊢; grind) hh
      | cons z Z =>
        simp only [firstN_cons] at hm
        obtain ⟨e', he', hh⟩ := List.mem_map.1 hm
        have : (nodes (X ++ (Y ++ [e]) ++ z :: Z)).Nodup := hnd
        rw [nodes, List.map_append, List.nodup_append] at this
        exact this.2.2 z.node (by rw [List.map_append]; exact List.mem_append_right _ hm) z.node (by simp) rfl
    rw [walkRev, if_pos h2]
    have ih' := ih (Y := Y) (Z := e :: Z) hY
    rw [show X ++ (Y ++ [e]) ++ Z = (X ++ Y ++ [e]) ++ Z by simp]
    unfold revDereference revIncrement
    step
    call prv_spec
    intro r
    xsub
    rw [lastN_append_cons, lastN_nil]
    rw [show (X ++ Y ++ [e]) ++ Z = (X ++ Y) ++ e :: Z by simp]
    call valOf_in
    intro r
    xsub
    call ldV_in
    intro r
    xsub
    rw [show X ++ Y ++ e :: Z = (X ++ Y ++ [e]) ++ Z by simp]
    call prv_spec
    intro r
    xsub
    rw [lastN_append_cons, lastN_nil]
    rw [show (X ++ Y ++ [e]) ++ Z = (X ++ Y) ++ e :: Z by simp]
    simp only [firstN_cons] at ih'
    rw [firstN_append, firstN_cons]
    call ih'
    intro r
    xsub
    apply Triple.ret
    cancel_core
    simp

theorem readAllRev_spec : Triple nf (isList l s ty xs) (readAllRev l)
    (fun r => ⌜r = (vals xs).reverse⌝ ∗ isList l s ty xs) := by
  unfold readAllRev rbegin rend
  call end_spec
  intro r
  xsub
  call begin_spec
  intro r
  xsub
  have := walkRev_spec (nf := nf) (l := l) (s := s) (ty := ty) (X := []) (Y := xs) (Z := [])
  simpa using this

theorem advanceFwd_spec {X Y Z : List (Elem V)} :
    Triple nf (isList l s ty (X ++ Y ++ Z)) (advanceFwd (firstN Y (firstN Z s)) Y.length)
      (fun r => ⌜r = firstN Z s⌝ ∗ isList l s ty (X ++ Y ++ Z)) := by
  induction Y generalizing X with
  | nil => simp only [List.length_nil, advanceFwd]; apply Triple.ret; cancel
  | cons e Y ih =>
    have ih' := ih (X := X ++ [e])
    simp only [List.append_assoc, List.cons_append, List.nil_append] at ih' ⊢
    simp only [List.length_cons, advanceFwd, firstN_cons]
    call nxt_spec
    intro r
    xsub
    rw [firstN_append]
    exact ih'

theorem advanceBwd_spec {X Y Z : List (Elem V)} :
    Triple nf (isList l s ty (X ++ Y ++ Z)) (advanceBwd (firstN Z s) Y.length)
      (fun r => ⌜r = firstN Y (firstN Z s)⌝ ∗ isList l s ty (X ++ Y ++ Z)) := by
  induction h : Y.length generalizing Y Z with
  | zero =>
    obtain rfl := List.length_eq_zero_iff.1 h
    simp only [advanceBwd]; apply Triple.ret; cancel
  | succ n ih =>
    rcases List.eq_nil_or_concat Y with rfl | ⟨Y, e, rfl⟩
    · simp at h
    rw [List.concat_eq_append] at h ⊢
    have hY : Y.length = n := by simpa using h
    have ih' := ih (Y := Y) (Z := e :: Z) hY
    simp only [advanceBwd]
    rw [show X ++ (Y ++ [e]) ++ Z = (X ++ Y ++ [e]) ++ Z by simp]
    call prv_spec
    intro r
    xsub
    rw [lastN_append_cons, lastN_nil]
    rw [show (X ++ Y ++ [e]) ++ Z = (X ++ Y) ++ e :: Z by simp]
    rw [firstN_append, firstN_cons]
    simpa using ih'

theorem revDistanceLoop_spec {X Y Z : List (Elem V)} {n : Nat} :
    Triple nf (isList l s ty (X ++ Y ++ Z)) (revDistanceLoop (firstN Z s) (firstN Y (firstN Z s)) n)
      (fun r => ⌜r = n + Y.length⌝ ∗ isList l s ty (X ++ Y ++ Z)) := by
  induction h : Y.length generalizing Y Z n with
  | zero =>
    obtain rfl := List.length_eq_zero_iff.1 h
    rw [revDistanceLoop, if_neg (by simp)]
    apply Triple.ret
    cancel
  | succ k ih =>
    rcases List.eq_nil_or_concat Y with rfl | ⟨Y, e, rfl⟩
    · simp at h
    rw [List.concat_eq_append] at h ⊢
    have hY : Y.length = k := by simpa using h
    apply list_facts0; intro _ _ hs hnd
    have h2 : firstN Z s ≠ firstN (Y ++ [e]) (firstN Z s) := by
      intro h
      have hm : firstN (Y ++ [e]) (firstN Z s) ∈ nodes (Y ++ [e]) := by
        cases Y <;> simp
      rw [← h] at hm
      cases Z with
      | nil =>
        obtain ⟨e', he', hh⟩ := List.mem_map.1 hm
        exact hs e' (by simp at he' ⊢; grind) hh
      | cons z Z =>
        simp only [firstN_cons] at hm
        obtain ⟨e', he', hh⟩ := List.mem_map.1 hm
        have : (nodes (X ++ (Y ++ [e]) ++ z :: Z)).Nodup := hnd
        rw [nodes, List.map_append, List.nodup_append] at this
        exact this.2.2 z.node (by rw [List.map_append]; exact List.mem_append_right _ hm) z.node (by simp) rfl
    rw [revDistanceLoop, if_pos h2]
    have ih' := ih (Y := Y) (Z := e :: Z) (n := n + 1) hY
    rw [show X ++ (Y ++ [e]) ++ Z = (X ++ Y ++ [e]) ++ Z by simp]
    call prv_spec
    intro r
    xsub
    rw [lastN_append_cons, lastN_nil]
    rw [show (X ++ Y ++ [e]) ++ Z = (X ++ Y) ++ e :: Z by simp]
    rw [firstN_append, firstN_cons]
    simp only [firstN_cons] at ih'
    refine Triple.post ih' fun r => ?_
    refine ent_pure_left fun h => ent_pure_right ?_ (ent_refl _)
    omega

/-! ### remove -/

theorem removeIfLoop_spec {pred : V → Bool} {X Y : List (Elem V)} :
    Triple nf (isList l s ty (X ++ Y)) (removeIfLoop l pred (firstN Y s) s)
      (fun _ => isList l s ty (X ++ Y.filter fun e => !pred e.val)) := by
  induction Y generalizing X with
  | nil =>
    rw [removeIfLoop, if_neg (by simp)]
    apply Triple.ret
    simp only [List.filter_nil]
    cancel
  | cons e Y ih =>
    apply list_facts0; intro hl hs0 hs hnd
    have hes := hs e (List.mem_append_right _ List.mem_cons_self)
    rw [removeIfLoop, if_pos (by simpa using hes), firstN_cons]
    call valOf_in
    intro r
    xsub
    call ldV_in
    intro r
    xsub
    apply Triple.ite
    · intro hp
      have he := erase_spec (nf := nf) (l := l) (s := s) (ty := ty) (X := X) (Y := Y) (e := e)
      unfold erase at he
      rw [if_neg hl] at he
      call he
      intro r
      xsub
      rw [List.filter_cons_of_neg (by simp [hp])]
      exact ih
    · intro hp
      call nxt_spec
      intro r
      xsub
      have ih' := ih (X := X ++ [e])
      simp only [List.append_assoc, List.cons_append, List.nil_append] at ih'
      rw [List.filter_cons_of_pos (by simp [hp])]
      exact ih'

theorem removeIf_spec {pred : V → Bool} :
    Triple nf (isList l s ty xs) (removeIf l pred) (fun _ => isList l s ty (xs.filter fun e => !pred e.val)) := by
  unfold removeIf
  call empty_spec
  intro r
  xsub
  cases xs with
  | nil => simp; apply Triple.ret; cancel
  | cons e xs =>
    rw [if_neg (by simp)]
    call begin_spec
    intro r
    xsub
    call end_spec
    intro r
    xsub
    have := removeIfLoop_spec (nf := nf) (l := l) (s := s) (ty := ty) (pred := pred) (X := []) (Y := e :: xs)
    simpa only [List.nil_append] using this

theorem removeLoop_spec {value : Loc} {v : V} {R : HProp V} (hv : Reads R value v) {X Y : List (Elem V)} :
    Triple nf (isList l s ty (X ++ Y) ∗ R) (removeLoop E l value (firstN Y s) s)
      (fun _ => isList l s ty (X ++ Y.filter fun e => !(E ty).equal e.val v) ∗ R) := by
  induction Y generalizing X with
  | nil =>
    rw [removeLoop, if_neg (by simp)]
    apply Triple.ret
    simp only [List.filter_nil]
    cancel
  | cons e Y ih =>
    apply list_facts (l := l) (R := R) (by cancel); intro hl hs0 hs hnd
    have hes := hs e (List.mem_append_right _ List.mem_cons_self)
    rw [removeLoop, if_pos (by simpa using hes), firstN_cons]
    call ltype_spec
    intro r
    xsub
    call valOf_in
    intro r
    xsub
    call ldV_in
    intro r
    xsub
    refine ldV_reads (v := v) (hv.of_ent (R := isList l s ty (X ++ e :: Y)) (by cancel)) ?_
    apply Triple.ite
    · intro hp
      have he := erase_spec (nf := nf) (l := l) (s := s) (ty := ty) (X := X) (Y := Y) (e := e)
      unfold erase at he
      rw [if_neg hl] at he
      call he
      intro r
      xsub
      rw [List.filter_cons_of_neg (by simp [hp])]
      exact ih
    · intro hp
      call nxt_spec
      intro r
      xsub
      have ih' := ih (X := X ++ [e])
      simp only [List.append_assoc, List.cons_append, List.nil_append] at ih'
      rw [List.filter_cons_of_pos (by simp [hp])]
      exact ih'

theorem remove_spec {value : Loc} {v : V} {R : HProp V} (hv0 : value.1 ≠ 0) (hv : Reads R value v) :
    Triple nf (isList l s ty xs ∗ R) (remove E l value)
      (fun _ => isList l s ty (xs.filter fun e => !(E ty).equal e.val v) ∗ R) := by
  unfold remove
  call empty_spec
  intro r
  xsub
  cases xs with
  | nil => simp; apply Triple.ret; cancel
  | cons e xs =>
    rw [if_neg (by simp [hv0])]
    call begin_spec
    intro r
    xsub
    call end_spec
    intro r
    xsub
    have := removeLoop_spec (E := E) (nf := nf) (l := l) (s := s) (ty := ty) hv (X := []) (Y := e :: xs)
    simpa only [List.nil_append] using this

/-! ### reverse -/

/-- chain of `Y` with the two links of every node exchanged -/
def revd : List (Elem V) → Addr → Addr → HProp V
  | [], _, _ => emp
  | e :: Y, p, t => fld e.node 2 p ∗ fld e.node 1 (firstN Y t) ∗ revd Y e.node t

theorem revd_path (Y : List (Elem V)) (p t : Addr) :
    (revd Y p t ∗ fld p 1 (firstN Y t) ∗ fld t 2 (lastN Y p)) = path (V := V) t (nodes Y.reverse ++ [p]) := by
  induction Y generalizing p with
  | nil => simp only [revd, firstN_nil, lastN_nil, List.reverse_nil, List.map_nil, List.nil_append, path, link, emp_sep, sep_emp]; ac_rfl
  | cons e Y ih =>
    rw [path_snoc, List.reverse_cons, nodes, List.map_append]
    rw [show List.map Elem.node [e] = [e.node] from rfl, ← ih, lastN_append_cons, lastN_nil, lastN_cons, revd, firstN_cons, link]
    ac_rfl

theorem reverseLoop_spec {Y : List (Elem V)} {p : Addr} (hl : l ≠ 0) (hs : ∀ e ∈ Y, e.node ≠ s) :
    Triple nf (fld l 1 s ∗ fld (firstN Y s) 1 p ∗ pathTail Y s) (reverseLoop l (firstN Y s))
      (fun _ => fld l 1 s ∗ revd Y p s ∗ fld s 1 (lastN Y p)) := by
  induction Y generalizing p with
  | nil =>
    rw [reverseLoop]
    unfold end_
    steps
    · simpa using hl
    steps
    simp [pathTail, revd]
    apply Triple.ret
    cancel
  | cons e Y ih =>
    rw [reverseLoop]
    unfold end_
    steps
    · simpa using hl
    steps
    rw [if_pos (by simpa using hs e (by simp))]
    simp only [pathTail, firstN_cons]
    rw [path_first]
    simp only [link]
    steps
    call (ih (p := e.node) (fun e he => hs e (by simp [he])))
    intro _
    simp only [revd, lastN_cons]
    cancel

theorem reverse_spec : Triple nf (isList l s ty xs) (reverse l) (fun _ => isList l s ty xs.reverse) := by
  apply list_facts0; intro hl _ hs _
  unfold reverse
  call empty_spec
  intro r
  xsub
  cases xs with
  | nil => simp; apply Triple.ret; cancel
  | cons e xs =>
    rw [if_neg (by simp)]
    call size_spec
    intro r
    xsub
    apply Triple.ite
    · intro h1
      have : xs = [] := by simpa using h1
      subst this
      apply Triple.ret
      simp only [List.reverse_singleton]
      cancel
    · intro _
      call begin_spec
      intro r
      xsub
      have e1 : isList l s ty (e :: xs) = ((blk l 2 ∗ fld l 1 s ∗ fld l 2 ty ∗ blk s 3 ∗ fld s 3 0) ∗
        ((fld s 2 (firstN (e :: xs) s) ∗ fld (firstN (e :: xs) s) 1 s) ∗ pathTail (e :: xs) s) ∗ elts (e :: xs)) := by
        rw [isList, path_first, hdr, link]
      rw [e1]
      call (reverseLoop_spec hl hs)
      intro _
      steps
      apply Triple.ret
      rw [isList, ← revd_path, hdr]
      have : ∀ Y : List (Elem V), elts Y.reverse = elts Y := by
        intro Y
        induction Y with
        | nil => rfl
        | cons y Y ih => rw [List.reverse_cons, elts_append, ih, elts, elts, elts, sep_emp, sep_comm]
      rw [this]
      cancel

/-! ### unique -/

theorem uniqueInner_spec {pred : V → V → Bool} {X Y : List (Elem V)} {x : Elem V} :
    Triple nf (isList l s ty (X ++ x :: Y)) (uniqueInner l pred x.node (firstN Y s))
      (fun _ => isList l s ty (X ++ x :: Y.dropWhile fun y => pred x.val y.val)) := by
  induction Y with
  | nil =>
    rw [uniqueInner]
    call end_spec
    intro r
    xsub
    rw [if_neg (by simp)]
    apply Triple.ret
    simp only [List.dropWhile_nil]
    cancel
  | cons y Y ih =>
    apply list_facts0; intro hl hs0 hs hnd
    have hes := hs y (by simp)
    rw [uniqueInner]
    call end_spec
    intro r
    xsub
    rw [if_pos (by simpa using hes), firstN_cons]
    call valOf_in
    intro r
    xsub
    have e1 : X ++ x :: y :: Y = (X ++ [x]) ++ y :: Y := by simp
    rw [e1]
    call valOf_in
    intro r
    xsub
    rw [← e1]
    call ldV_in
    intro r
    xsub
    rw [e1]
    call ldV_in
    intro r
    xsub
    apply Triple.ite
    · intro hp
      have he := erase_spec (nf := nf) (l := l) (s := s) (ty := ty) (X := X ++ [x]) (Y := Y) (e := y)
      unfold erase at he
      rw [if_neg hl] at he
      call he
      intro r
      xsub
      rw [List.dropWhile_cons_of_pos (by simpa using hp)]
      simpa using ih
    · intro hp
      apply Triple.ret
      rw [List.dropWhile_cons_of_neg (by simpa using hp), e1]
      cancel

theorem uniqueLoop_spec {pred : V → V → Bool} {X Y : List (Elem V)} :
    Triple nf (isList l s ty (X ++ Y)) (uniqueLoop l pred (firstN Y s))
      (fun _ => isList l s ty (X ++ uniqBy (fun a b => pred a.val b.val) Y)) := by
  induction h : Y.length using Nat.strongRecOn generalizing X Y with
  | _ n ih =>
  cases Y with
  | nil =>
    rw [uniqueLoop]
    call end_spec
    intro r
    xsub
    rw [if_neg (by simp), uniqBy_nil]
    apply Triple.ret
    cancel
  | cons x Y =>
    apply list_facts0; intro hl hs0 hs hnd
    have hes := hs x (by simp)
    rw [uniqueLoop]
    call end_spec
    intro r
    xsub
    rw [if_pos (by simpa using hes), firstN_cons]
    call nxt_spec
    intro r
    xsub
    apply Triple.ite
    · intro hne
      call nxt_spec
      intro r
      xsub
      call uniqueInner_spec
      intro _
      call nxt_spec
      intro r
      xsub
      have h1 := List.dropWhile_sublist (l := Y) (fun y => pred x.val y.val)
      have ih' := ih _ (by have := h1.length_le; simp at h; omega) (X := X ++ [x]) (Y := Y.dropWhile fun y => pred x.val y.val) rfl
      simp only [List.append_assoc, List.cons_append, List.nil_append] at ih'
      rw [uniqBy_cons]
      exact ih'
    · intro hne
      cases Y with
      | nil =>
        apply Triple.ret
        rw [uniqBy_cons, List.dropWhile_nil, uniqBy_nil]
        cancel
      | cons y Y => exact absurd (by simpa using hne) (hs y (by simp))

theorem uniqueIf_spec {pred : V → V → Bool} :
    Triple nf (isList l s ty xs) (uniqueIf l (some pred))
      (fun _ => isList l s ty (uniqBy (fun a b => pred a.val b.val) xs)) := by
  unfold uniqueIf
  call empty_spec
  intro r
  xsub
  cases xs with
  | nil => simp [uniqBy_nil]; apply Triple.ret; cancel
  | cons e xs =>
    rw [if_neg (by simp)]
    call size_spec
    intro r
    xsub
    apply Triple.ite
    · intro h1
      have : xs = [] := by simpa using h1
      subst this
      apply Triple.ret
      rw [uniqBy_cons, List.dropWhile_nil, uniqBy_nil]
      cancel
    · intro _
      dsimp only
      call begin_spec
      intro r
      xsub
      have := uniqueLoop_spec (nf := nf) (l := l) (s := s) (ty := ty) (pred := pred) (X := []) (Y := e :: xs)
      simpa only [List.nil_append] using this

theorem unique_spec : Triple nf (isList l s ty xs) (unique E l)
      (fun _ => isList l s ty (uniqBy (fun a b => (E ty).equal a.val b.val) xs)) := by
  apply list_facts0; intro hl hs0 hs hnd
  unfold unique
  rw [if_neg hl]
  call ltype_spec
  intro r
  xsub
  exact uniqueIf_spec

end CC.CList
