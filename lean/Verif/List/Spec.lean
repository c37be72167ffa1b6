import Verif.List.Basic
/-!
# Specifications of the public list functions (proof layer)
-/
namespace CC.CList
open CC.Tac
variable {V β : Type} {E : Types V} {nf : Prop} {l s : Addr} {ty : Nat} {xs : List (Elem V)}

theorem begin_spec : Triple nf (isList l s ty xs) (begin_ l) (fun r => ⌜r = firstN xs s⌝ ∗ isList l s ty xs) := by
  apply list_facts0; intro hl _ _ _
  simp only [begin_, isList, hdr, path_first, link]
  steps
  · simpa using hl
  steps
  apply Triple.ret
  cancel

theorem end_spec : Triple nf (isList l s ty xs) (end_ l) (fun r => ⌜r = s⌝ ∗ isList l s ty xs) := by
  apply list_facts0; intro hl _ _ _
  simp only [end_, isList, hdr]
  steps
  · simpa using hl
  steps
  apply Triple.ret
  cancel

theorem empty_spec : Triple nf (isList l s ty xs) (empty l) (fun r => ⌜r = xs.isEmpty⌝ ∗ isList l s ty xs) := by
  apply list_facts0; intro hl _ hs _
  unfold empty
  rw [if_pos hl]
  call begin_spec
  intro b
  xsub
  call end_spec
  intro e
  xsub
  apply Triple.ret
  cancel_core
  cases xs with
  | nil => simp
  | cons e xs => simpa using hs e (by simp)

/-- walking forward over `Y` to the node `t` -/
theorem distanceLoop_spec {Y : List (Elem V)} {t : Addr} {n : Nat} (ht : ∀ e ∈ Y, e.node ≠ t) :
    Triple nf (pathTail Y t) (distanceLoop (firstN Y t) t n) (fun r => ⌜r = n + Y.length⌝ ∗ pathTail Y t) := by
  induction Y generalizing n with
  | nil => rw [distanceLoop]; simp; apply Triple.ret; cancel
  | cons e Y ih =>
    rw [distanceLoop, if_pos (by simpa using ht e (by simp))]
    simp only [pathTail, firstN_cons]
    rw [path_first]
    simp only [link]
    steps
    call (ih (n := n+1) (fun e he => ht e (by simp [he])))
    intro r
    xintro h
    cancel_core
    simp only [h, List.length_cons]; omega

theorem size_spec : Triple nf (isList l s ty xs) (size l) (fun r => ⌜r = xs.length⌝ ∗ isList l s ty xs) := by
  apply list_facts0; intro hl _ hs _
  unfold size
  rw [if_neg hl]
  call begin_spec
  intro b
  xsub
  call end_spec
  intro e
  xsub
  simp only [isList, path_first]
  call (distanceLoop_spec hs)
  intro r
  xintro h
  cancel_core
  simpa using h

/-- popping the nodes of `Y` one by one up to node `t` -/
theorem clearLoop_spec {Y : List (Elem V)} {p t : Addr} (ht : ∀ e ∈ Y, e.node ≠ t) (hs : ∀ e ∈ Y, e.node ≠ s) :
    Triple nf (fld l 1 s ∗ path p (nodes Y ++ [t]) ∗ elts Y) (clearLoop l (firstN Y t) t)
      (fun _ => fld l 1 s ∗ link p t) := by
  induction Y generalizing p with
  | nil => rw [clearLoop]; simp [path, elts]; apply Triple.ret; cancel
  | cons e Y ih =>
    rw [clearLoop, if_pos (by simpa using ht e (by simp))]
    simp only [List.map_cons, List.cons_append, path, path_first, firstN_cons, elts]
    call (popNode_spec (s := s) (hs e (by simp)))
    intro r
    xsub
    refine Triple.pre ?_ (ih (p := p) (fun e he => ht e (by simp [he])) (fun e he => hs e (by simp [he])))
    rw [path_first]
    cancel

theorem clear_spec : Triple nf (isList l s ty xs) (clear l) (fun _ => isList l s ty []) := by
  apply list_facts0; intro hl _ hs _
  unfold clear
  call empty_spec
  intro b
  xsub
  cases xs with
  | nil => simp; apply Triple.ret; cancel
  | cons e xs =>
    simp
    call begin_spec
    intro b
    xsub
    call end_spec
    intro t
    xsub
    unfold isList hdr
    call (clearLoop_spec (s := s) hs hs)
    intro _
    simp only [path, elts]
    simp [path]
    cancel

theorem destroy_spec : Triple nf (isList l s ty xs) (destroy l) (fun _ => emp) := by
  apply list_facts0; intro hl hs0 _ _
  unfold destroy
  rw [if_neg hl]
  call clear_spec
  intro _
  unfold isList hdr
  simp [path, link, elts]
  steps
  call free3
  intro _
  steps
  call free2
  intro _
  cancel

theorem destroy_null : Triple (V := V) nf emp (destroy 0) (fun _ => emp) := by
  unfold destroy; simp; apply Triple.ret; cancel

theorem create_spec {P : HProp V} {Q : β → HProp V} {k : Addr → M V β} (hty : ty ≠ 0)
    (hfail : ¬ nf → Triple nf P (k 0) Q)
    (hok : ∀ l s, l ≠ 0 → Triple nf (isList l s ty [] ∗ P) (k l) Q) :
    Triple nf P (create ty >>= k) Q := by
  unfold create
  rw [if_neg hty]
  step
  apply mallocS2
  · intro h; simp; exact hfail h
  intro l x y hl
  rw [if_neg hl]
  step
  apply mallocS3
  · intro h
    steps
    rw [if_pos rfl]
    step
    call free2
    intro _
    steps
    flat
    exact hfail h
  intro s x y z hs
  steps
  rw [if_neg hs]
  steps
  refine Triple.pre ?_ (hok l s hl)
  simp [isList, hdr, path, elts, link]
  cancel

theorem create_null : Triple (V := V) nf emp (create 0) (fun r => ⌜r = 0⌝) := by
  unfold create; simp; apply Triple.ret; rw [← sep_emp (⌜_⌝)]; cancel

theorem valOf_spec {e : Elem V} : Triple nf (elt e) (valOf e.node) (fun r => ⌜r = (e.box, 1)⌝ ∗ elt e) := by
  unfold elt valOf
  steps
  apply Triple.ret
  cancel

theorem front_spec : Triple nf (isList l s ty xs) (front l)
    (fun r => ⌜r = match xs with | [] => (0, 1) | e :: _ => (e.box, 1)⌝ ∗ isList l s ty xs) := by
  unfold front
  call empty_spec
  intro b
  xsub
  cases xs with
  | nil => simp; apply Triple.ret; cancel
  | cons e xs =>
    simp
    call begin_spec
    intro b
    xsub
    simp only [isList, elts, firstN_cons]
    call valOf_spec
    intro r
    xsub
    cancel

theorem back_spec : Triple nf (isList l s ty xs) (back l)
    (fun r => ⌜r = match xs.getLast? with | none => (0, 1) | some e => (e.box, 1)⌝ ∗ isList l s ty xs) := by
  unfold back
  call empty_spec
  intro b
  xsub
  rcases List.eq_nil_or_concat xs with rfl | ⟨xs, e, rfl⟩
  · simp; apply Triple.ret; cancel
  · simp
    call end_spec
    intro b
    xsub
    simp only [isList, path_split_cons, elts_append, elts, firstN_nil]
    simp only [link]
    steps
    call valOf_spec
    intro r
    xsub
    cancel

/-! ### insertion -/

theorem insert_spec {X Y : List (Elem V)} {value : Loc} {v : V} {R : HProp V}
    (hv0 : value.1 ≠ 0) (hv : Reads (isList l s ty (X ++ Y) ∗ R) value v) :
    Triple nf (isList l s ty (X ++ Y) ∗ R) (insert E l (firstN Y s) value)
      (fun r => ∃ₛ N, ⌜(nf → N ≠ []) ∧ (N = [] ∨ ∃ e, N = [e] ∧ e.val = v) ∧ r = firstN (N ++ Y) s⌝
        ∗ isList l s ty (X ++ N ++ Y) ∗ R) := by
  apply list_facts (R := R) (ent_refl _); intro hl hs0 hs _
  unfold insert
  rw [if_neg (by simp [hl, hv0])]
  have e1 : (isList l s ty (X ++ Y) ∗ R) = (fld l 2 ty ∗ (blk l 2 ∗ fld l 1 s ∗ blk s 3 ∗ fld s 3 0) ∗
      path s (nodes (X ++ Y) ++ [s]) ∗ elts (X ++ Y) ∗ R) := by
    unfold isList hdr; ac_rfl
  rw [e1] at hv ⊢
  apply createNode_spec hl (Or.inr ⟨hv0, hv⟩)
  · intro h
    rw [if_pos rfl]
    apply Triple.ret
    apply ent_ex_right []
    simp [isList, hdr]
    cancel
  · intro e he hn
    rw [if_neg hn]
    simp only [path_split, link]
    steps
    apply Triple.ret
    apply ent_ex_right [e]
    simp only [isList, hdr, List.append_assoc, List.singleton_append, path_split_cons, elts_append, elts, link]
    cancel
    exact ⟨by simp, Or.inr ⟨e, rfl, he⟩, rfl⟩

theorem linkBack_spec {e : Elem V} {u v : Nat} :
    Triple nf (fld e.node 1 u ∗ fld e.node 2 v ∗ elt e ∗ isList l s ty xs) (linkBack l e.node)
      (fun _ => isList l s ty (xs ++ [e])) := by
  unfold linkBack
  simp only [isList, hdr, path_split_cons, elts_append, elts]
  simp only [path_snoc, firstN_nil, pathTail, link]
  steps
  apply Triple.ret
  cancel

/-- what an appending operation may leave: `N` is the list of new elements -/
abbrev appended (l s : Addr) (ty : Nat) (xs : List (Elem V)) (vs : List V) (nf : Prop) : HProp V :=
  ∃ₛ N, ⌜vals N <+: vs ∧ (nf → vals N = vs)⌝ ∗ isList l s ty (xs ++ N)

theorem pushBack_spec {value : Loc} {v : V} {R : HProp V}
    (hv0 : value.1 ≠ 0) (hv : Reads (isList l s ty xs ∗ R) value v) :
    Triple nf (isList l s ty xs ∗ R) (pushBack E l value)
      (fun _ => ∃ₛ N, ⌜(nf → N ≠ []) ∧ (N = [] ∨ ∃ e, N = [e] ∧ e.val = v)⌝ ∗ isList l s ty (xs ++ N) ∗ R) := by
  apply list_facts (R := R) (ent_refl _); intro hl hs0 hs _
  unfold pushBack
  rw [if_neg (by simp [hl, hv0])]
  have e1 : (isList l s ty xs ∗ R) = (fld l 2 ty ∗ (blk l 2 ∗ fld l 1 s ∗ blk s 3 ∗ fld s 3 0) ∗
      path s (nodes xs ++ [s]) ∗ elts xs ∗ R) := by
    unfold isList hdr; ac_rfl
  rw [e1] at hv ⊢
  apply createNode_spec hl (Or.inr ⟨hv0, hv⟩)
  · intro h
    rw [if_pos rfl]
    apply Triple.ret
    apply ent_ex_right []
    simp [isList, hdr]
    cancel
  · intro e he hn
    rw [if_neg hn]
    refine Triple.call_frame (linkBack_spec (e := e) (u := 0) (v := 0) (xs := xs) (s := s) (ty := ty)) (R := R) ?_ ?_
    · unfold isList hdr; cancel
    · intro _
      apply ent_ex_right [e]
      cancel
      simpa using he

theorem pushFront_spec {value : Loc} {v : V} {R : HProp V}
    (hv0 : value.1 ≠ 0) (hv : Reads (isList l s ty xs ∗ R) value v) :
    Triple nf (isList l s ty xs ∗ R) (pushFront E l value)
      (fun _ => ∃ₛ N, ⌜(nf → N ≠ []) ∧ (N = [] ∨ ∃ e, N = [e] ∧ e.val = v)⌝ ∗ isList l s ty (N ++ xs) ∗ R) := by
  apply list_facts (R := R) (ent_refl _); intro hl hs0 hs _
  unfold pushFront
  rw [if_neg (by simp [hl, hv0])]
  have e1 : (isList l s ty xs ∗ R) = (fld l 2 ty ∗ (blk l 2 ∗ fld l 1 s ∗ blk s 3 ∗ fld s 3 0) ∗
      path s (nodes xs ++ [s]) ∗ elts xs ∗ R) := by
    unfold isList hdr; ac_rfl
  rw [e1] at hv ⊢
  apply createNode_spec hl (Or.inr ⟨hv0, hv⟩)
  · intro h
    rw [if_pos rfl]
    apply Triple.ret
    apply ent_ex_right []
    simp [isList, hdr]
    cancel
  · intro e he hn
    rw [if_neg hn]
    simp only [path_first, link]
    steps
    apply Triple.ret
    apply ent_ex_right [e]
    simp only [isList, hdr, List.nil_append, List.map_cons, List.cons_append, path, path_first, elts, link]
    cancel
    simpa using he

/-! ### removal -/

theorem erase_spec {X Y : List (Elem V)} {e : Elem V} :
    Triple nf (isList l s ty (X ++ e :: Y)) (erase l e.node)
      (fun r => ⌜r = firstN Y s⌝ ∗ isList l s ty (X ++ Y)) := by
  apply list_facts0; intro hl hs0 hs _
  unfold erase
  rw [if_neg hl]
  simp only [isList, hdr, path_split_cons, elts_append, elts]
  call (popNode_spec (s := s) (hs e (by simp)))
  intro r
  xsub
  simp only [path_split]
  cancel

theorem erase_end : Triple nf (isList l s ty xs) (erase l s) (fun r => ⌜r = s⌝ ∗ isList l s ty xs) := by
  apply list_facts0; intro hl hs0 hs _
  unfold erase
  rw [if_neg hl]
  unfold isList hdr
  call (popNode_end hs0)
  intro r
  xsub
  cancel

theorem eraseRange_spec {X Y Z : List (Elem V)} :
    Triple nf (isList l s ty (X ++ Y ++ Z)) (eraseRange l (firstN Y (firstN Z s)) (firstN Z s))
      (fun r => ⌜r = firstN Z s⌝ ∗ isList l s ty (X ++ Z)) := by
  induction Y with
  | nil =>
    rw [eraseRange]; simp; apply Triple.ret; cancel
  | cons e Y ih =>
    apply list_facts0; intro hl hs0 hs hnd
    have : e.node ≠ firstN Z s := by
      cases Z with
      | nil => exact hs e (by simp)
      | cons z Z =>
        intro h
        simp only [firstN_cons] at h
        simp [List.nodup_append, h] at hnd
    rw [eraseRange, if_pos (by simpa using this)]
    rw [firstN_cons, List.append_assoc, List.cons_append]
    call erase_spec
    intro r
    xsub
    rw [firstN_append]
    refine Triple.pre ?_ ih
    rw [List.append_assoc]; cancel

theorem popBack_spec : Triple nf (isList l s ty xs) (popBack l) (fun _ => isList l s ty xs.dropLast) := by
  apply list_facts0; intro hl hs0 hs _
  unfold popBack
  call empty_spec
  intro b
  xsub
  rcases List.eq_nil_or_concat xs with rfl | ⟨xs, e, rfl⟩
  · simp; apply Triple.ret; cancel
  · rw [if_neg (by simp), List.concat_eq_append, List.dropLast_concat]
    simp only [isList, hdr, path_split_cons, elts_append, elts, firstN_nil, pathTail]
    simp only [link]
    steps
    call (popNode_spec (s := s) (p := lastN xs s) (q := s) (hs e (by simp)))
    · simp only [link]; cancel
    intro r
    xsub
    apply Triple.ret
    simp only [path_snoc, link]
    cancel

theorem popFront_spec : Triple nf (isList l s ty xs) (popFront l) (fun _ => isList l s ty xs.tail) := by
  apply list_facts0; intro hl hs0 hs _
  unfold popFront
  call empty_spec
  intro b
  xsub
  cases xs with
  | nil => simp; apply Triple.ret; cancel
  | cons e xs =>
    rw [if_neg (by simp)]
    simp only [isList, hdr, List.map_cons, List.cons_append, path, path_first, elts, List.tail_cons]
    simp only [link]
    steps
    call (popNode_spec (s := s) (p := s) (q := firstN xs s) (hs e (by simp)))
    · simp only [link]; cancel
    intro r
    xsub
    apply Triple.ret
    simp only [link]
    cancel

end CC.CList
