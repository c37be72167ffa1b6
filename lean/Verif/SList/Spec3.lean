import Verif.SList.Spec2
/-!
# Specifications of the forward-list functions, part 3: splice, merge, iteration, remove, reverse, unique (proof layer)
-/
namespace CC.SList
open CC.Tac
open CC.CList (Elem nodes vals firstN lastN firstN_nil firstN_cons lastN_nil lastN_cons lastN_append_cons firstN_append
  blk_ne ArgVal ltE vals_mergeL Rearr)
variable {V β : Type} {E : Types V} {nf : Prop} {l a s o a2 s2 : Addr} {ty t2 : Nat} {xs ys : List (Elem V)}

/-! ### splice -/

theorem spliceGuard_spec :
    Triple nf (isSList l a s ty xs ∗ isSList o a2 s2 t2 ys) (spliceGuard l o)
      (fun r => ⌜r = (ys.isEmpty || !isSame ty t2)⌝ ∗ isSList l a s ty xs ∗ isSList o a2 s2 t2 ys) := by
  apply list_facts (l := l) (R := isSList o a2 s2 t2 ys) (by cancel); intro f
  unfold spliceGuard
  rw [if_neg f.l0]
  call (empty_spec (l := o))
  intro r
  xsub
  cases ys with
  | nil => simp; apply Triple.ret; cancel
  | cons y ys =>
    rw [if_neg (by simp)]
    call (ltype_spec (l := l))
    intro r
    xsub
    call (ltype_spec (l := o))
    intro r
    xsub
    apply Triple.ret
    cancel

theorem spliceGuard_self :
    Triple nf (isSList l a s ty xs) (spliceGuard l l)
      (fun r => ⌜r = (xs.isEmpty || !isSame ty ty)⌝ ∗ isSList l a s ty xs) := by
  apply list_facts0; intro f
  unfold spliceGuard
  rw [if_neg f.l0]
  call (empty_spec (l := l))
  intro r
  xsub
  cases xs with
  | nil => simp; apply Triple.ret; cancel
  | cons y ys =>
    rw [if_neg (by simp)]
    call (ltype_spec (l := l))
    intro r
    xsub
    call (ltype_spec (l := l))
    intro r
    xsub
    apply Triple.ret
    cancel

theorem spliceAfterRange_spec {X Y Z M W : List (Elem V)} (hty : isSame ty t2 = true) :
    Triple nf (isSList l a s ty (X ++ Y) ∗ isSList o a2 s2 t2 (Z ++ M ++ W))
      (spliceAfterRange l (lastN X a) o (lastN Z a2) (firstN W s2))
      (fun _ => isSList l a s ty (X ++ M ++ Y) ∗ isSList o a2 s2 t2 (Z ++ W)) := by
  unfold spliceAfterRange
  call spliceGuard_spec
  intro r
  xsub
  apply Triple.ite
  · intro h
    have : Z ++ M ++ W = [] := by simpa [hty] using h
    simp only [List.append_eq_nil_iff] at this
    obtain ⟨⟨rfl, rfl⟩, rfl⟩ := this
    apply Triple.ret
    simp only [List.append_nil]
    cancel
  · intro _
    exact transfer_lists

theorem spliceAfter_spec {X Y : List (Elem V)} (hty : isSame ty t2 = true) :
    Triple nf (isSList l a s ty (X ++ Y) ∗ isSList o a2 s2 t2 ys)
      (spliceAfter l (lastN X a) o)
      (fun _ => isSList l a s ty (X ++ ys ++ Y) ∗ isSList o a2 s2 t2 []) := by
  unfold spliceAfter
  call spliceGuard_spec
  intro r
  xsub
  apply Triple.ite
  · intro h
    have : ys = [] := by simpa [hty] using h
    subst this
    apply Triple.ret
    simp only [List.append_nil]
    cancel
  · intro _
    call (beforeBegin_spec (l := o))
    intro r
    xsub
    call (end_spec (l := o))
    intro r
    xsub
    have := transfer_lists (nf := nf) (l := l) (a := a) (s := s) (ty := ty) (o := o) (a2 := a2) (s2 := s2) (t2 := t2) (X := X) (Y := Y) (Z := []) (M := ys) (W := [])
    simp only [List.append_nil, List.nil_append, firstN_nil, lastN_nil] at this
    call this
    intro _
    cancel

theorem spliceAfterFrom_spec {X Y Z M : List (Elem V)} (hty : isSame ty t2 = true) :
    Triple nf (isSList l a s ty (X ++ Y) ∗ isSList o a2 s2 t2 (Z ++ M))
      (spliceAfterFrom l (lastN X a) o (lastN Z a2))
      (fun _ => isSList l a s ty (X ++ M ++ Y) ∗ isSList o a2 s2 t2 Z) := by
  unfold spliceAfterFrom
  call spliceGuard_spec
  intro r
  xsub
  apply Triple.ite
  · intro h
    have : Z ++ M = [] := by simpa [hty] using h
    simp only [List.append_eq_nil_iff] at this
    obtain ⟨rfl, rfl⟩ := this
    apply Triple.ret
    simp only [List.append_nil]
    cancel
  · intro _
    call (end_spec (l := o))
    intro r
    xsub
    have := transfer_lists (nf := nf) (l := l) (a := a) (s := s) (ty := ty) (o := o) (a2 := a2) (s2 := s2) (t2 := t2) (X := X) (Y := Y) (Z := Z) (M := M) (W := [])
    simp only [List.append_nil, firstN_nil] at this
    call this
    intro _
    cancel

/-- lists of different element types are left alone -/
theorem splice_mismatch (hty : isSame ty t2 = false) {pos first last : Addr} :
    Triple nf (isSList l a s ty xs ∗ isSList o a2 s2 t2 ys) (spliceAfterRange l pos o first last)
      (fun _ => isSList l a s ty xs ∗ isSList o a2 s2 t2 ys) := by
  unfold spliceAfterRange
  call spliceGuard_spec
  intro r
  xsub
  rw [if_pos (by simp [hty])]
  apply Triple.ret
  cancel

theorem spliceAfterRange_later {X M Y Z : List (Elem V)} (hY : Y ≠ []) (hty : isSame ty ty = true) :
    Triple nf (isSList l a s ty (X ++ M ++ Y ++ Z))
      (spliceAfterRange l (lastN (X ++ M ++ Y) a) l (lastN X a) (firstN Y s))
      (fun _ => isSList l a s ty (X ++ Y ++ M ++ Z)) := by
  unfold spliceAfterRange
  call spliceGuard_self
  intro r
  xsub
  rw [if_neg (by simp [hY, hty])]
  exact transfer_later hY

theorem spliceAfterRange_earlier {X Y M Z : List (Elem V)} (hty : isSame ty ty = true) :
    Triple nf (isSList l a s ty (X ++ Y ++ M ++ Z))
      (spliceAfterRange l (lastN X a) l (lastN (X ++ Y) a) (firstN Z s))
      (fun _ => isSList l a s ty (X ++ M ++ Y ++ Z)) := by
  unfold spliceAfterRange
  call spliceGuard_self
  intro r
  xsub
  apply Triple.ite
  · intro h
    have : X ++ Y ++ M ++ Z = [] := by simpa [hty] using h
    simp only [List.append_eq_nil_iff] at this
    obtain ⟨⟨⟨rfl, rfl⟩, rfl⟩, rfl⟩ := this
    apply Triple.ret
    cancel
  · intro _
    exact transfer_earlier

/-! ### merge -/

/-- What the merge loop of `c_slist_merge_by` computes on any two lists.  After an element was moved from the second list the loop
compares the next one with *that* element, so the result is the stable merge only when the second list is sorted. -/
def mergeS {α : Type} (lt : α → α → Bool) : List α → List α → List α
  | [], ys => ys
  | xs, [] => xs
  | x :: xs, y :: ys => if lt y x then mergeS lt (y :: x :: xs) ys else x :: mergeS lt xs (y :: ys)
termination_by xs ys => xs.length + 2 * ys.length

theorem mergeS_nil_left {α : Type} (lt : α → α → Bool) (ys : List α) : mergeS lt [] ys = ys := by rw [mergeS]
theorem mergeS_nil_right {α : Type} (lt : α → α → Bool) (xs : List α) : mergeS lt xs [] = xs := by
  cases xs <;> simp [mergeS]
theorem mergeS_cons {α : Type} (lt : α → α → Bool) (x y : α) (xs ys : List α) :
    mergeS lt (x :: xs) (y :: ys) = if lt y x then mergeS lt (y :: x :: xs) ys else x :: mergeS lt xs (y :: ys) := by
  rw [mergeS]

theorem mergeS_perm {α : Type} (lt : α → α → Bool) (xs ys : List α) : (mergeS lt xs ys).Perm (xs ++ ys) := by
  fun_induction mergeS lt xs ys with
  | case1 ys => simp
  | case2 xs => simp
  | case3 x xs y ys h ih =>
    refine ih.trans ?_
    simp only [List.cons_append]
    exact (List.perm_middle (l₁ := x :: xs)).symm
  | case4 x xs y ys h ih => simpa using ih.cons x

theorem mergeS_eq {α : Type} {lt : α → α → Bool} {xs ys : List α} (hy : Sorted lt ys) :
    mergeS lt xs ys = mergeL lt xs ys := by
  induction ys generalizing xs with
  | nil => rw [mergeS_nil_right, mergeL_nil_right]
  | cons y ys ih =>
    have hys : Sorted lt ys := (List.pairwise_cons.1 hy).2
    have hhd := (List.pairwise_cons.1 hy).1
    induction xs with
    | nil => rw [mergeS_nil_left, mergeL_nil_left]
    | cons x xs ihx =>
      rw [mergeS_cons, mergeL_cons, ihx]
      split
      · cases ys with
        | nil => rw [mergeS_nil_right, mergeL_nil_right]
        | cons y' ys =>
          rw [mergeS_cons, if_neg (by simp [hhd y' (by simp)]), ih hys]
      · rfl

theorem mergeLoop_spec {comp : V → V → Bool} {A B C : List (Elem V)} :
    Triple nf (isSList l a s ty (A ++ B) ∗ isSList o a2 s2 t2 C)
      (mergeLoop comp (lastN A a) s a2 s2)
      (fun r => ∃ₛ D B' C', ⌜mergeS (ltE comp) B C = D ++ mergeS (ltE comp) B' C' ∧ (B' = [] ∨ C' = []) ∧ r = lastN (A ++ D) a⌝ ∗
        isSList l a s ty (A ++ D ++ B') ∗ isSList o a2 s2 t2 C') := by
  induction hn : B.length + 2 * C.length using Nat.strongRecOn generalizing A B C with
  | _ n ih =>
  cases B with
  | nil =>
    rw [mergeLoop]
    call (nxt_spec (l := l))
    intro r
    xsub
    rw [if_neg (by simp)]
    apply Triple.ret
    xexists [], [], C
    simp only [List.append_nil, List.nil_append]
    cancel
    exact ⟨trivial, by simp, trivial⟩
  | cons b B =>
    cases C with
    | nil =>
      apply list_facts (l := l) (R := isSList o a2 s2 t2 []) (by cancel); intro f
      rw [mergeLoop]
      call (nxt_spec (l := l))
      intro r
      xsub
      rw [if_pos (by rw [firstN_cons]; exact f.ns b (List.mem_append_right _ List.mem_cons_self))]
      have hn := nxt_spec (nf := nf) (l := o) (a := a2) (s := s2) (ty := t2) (X := []) (Y := ([] : List (Elem V)))
      simp only [List.nil_append, lastN_nil] at hn
      call hn
      intro r
      xsub
      rw [if_neg (by simp)]
      apply Triple.ret
      xexists [], b :: B, []
      simp only [List.append_nil, List.nil_append]
      cancel
      exact ⟨trivial, by simp, trivial⟩
    | cons c C =>
      apply list_facts (l := l) (R := isSList o a2 s2 t2 (c :: C)) (by cancel); intro f
      apply list_facts (l := o) (R := isSList l a s ty (A ++ b :: B)) (by cancel); intro f2
      have hnx := nxt_spec (nf := nf) (l := o) (a := a2) (s := s2) (ty := t2) (X := []) (Y := c :: C)
      simp only [List.nil_append, lastN_nil, firstN_cons] at hnx
      rw [mergeLoop]
      call (nxt_spec (l := l))
      intro r
      xsub
      rw [firstN_cons, if_pos (f.ns b (List.mem_append_right _ List.mem_cons_self))]
      call hnx
      intro r
      xsub
      rw [if_pos (f2.ns c List.mem_cons_self)]
      call hnx
      intro r
      xsub
      rw [← List.nil_append (c :: C)]
      call (valOf_in (l := o))
      intro r
      xsub
      call (nxt_spec (l := l))
      intro r
      xsub
      rw [firstN_cons]
      call (valOf_in (l := l))
      intro r
      xsub
      call (ldV_in (l := o))
      intro r
      xsub
      call (ldV_in (l := l))
      intro r
      xsub
      rw [List.nil_append, mergeS_cons]
      split
      · call hnx
        intro r
        xsub
        rw [← List.nil_append (c :: C)]
        call (nxt_spec' (l := o))
        intro r
        xsub
        have ht := transfer_lists (nf := nf) (l := l) (a := a) (s := s) (ty := ty) (o := o) (a2 := a2) (s2 := s2) (t2 := t2) (X := A) (Y := b :: B) (Z := []) (M := [c]) (W := C)
        simp only [List.nil_append, lastN_nil, List.append_assoc, List.singleton_append] at ht
        rw [List.nil_append]
        call ht
        intro _
        rw [sep_emp]
        exact ih _ (by simp at hn ⊢; omega) (A := A) (B := c :: b :: B) (C := C) rfl
      · call (nxt_spec (l := l))
        intro r
        xsub
        rw [firstN_cons]
        have ih := ih _ (by simp at hn ⊢; omega) (A := A ++ [b]) (B := B) (C := c :: C) rfl
        simp only [lastN_append_cons, lastN_nil, List.append_assoc, List.singleton_append, List.cons_append, List.nil_append] at ih
        call ih
        intro r
        xintro D B' C' ⟨h1, h2, h3⟩
        xexists b :: D, B', C'
        simp only [List.append_assoc, List.singleton_append, List.cons_append]
        cancel
        exact ⟨by rw [h1], h2, by rw [h3, lastN_append_cons]⟩

theorem mergeBy_spec {comp : V → V → Bool} (hty : isSame ty t2 = true) :
    Triple nf (isSList l a s ty xs ∗ isSList o a2 s2 t2 ys) (mergeBy l o (some comp))
      (fun _ => isSList l a s ty (mergeS (ltE comp) xs ys) ∗ isSList o a2 s2 t2 []) := by
  unfold mergeBy
  dsimp only
  call spliceGuard_spec
  intro r
  xsub
  apply Triple.ite
  · intro h
    have : ys = [] := by simpa [hty] using h
    subst this
    apply Triple.ret
    rw [mergeS_nil_right]
    cancel
  · intro _
    call (beforeBegin_spec (l := l))
    intro r
    xsub
    call (end_spec (l := l))
    intro r
    xsub
    call (beforeBegin_spec (l := o))
    intro r
    xsub
    call (end_spec (l := o))
    intro r
    xsub
    have := mergeLoop_spec (nf := nf) (l := l) (a := a) (s := s) (ty := ty) (o := o) (a2 := a2) (s2 := s2) (t2 := t2) (comp := comp) (A := []) (B := xs) (C := ys)
    simp only [List.nil_append, lastN_nil] at this
    call this
    intro r
    xintro D B' C' ⟨h1, h2, rfl⟩
    rw [h1]
    have hnx := nxt_spec (nf := nf) (l := o) (a := a2) (s := s2) (ty := t2) (X := []) (Y := C')
    simp only [List.nil_append, lastN_nil] at hnx
    call hnx
    intro r
    xsub
    apply list_facts (l := o) (R := isSList l a s ty (D ++ B')) (by cancel); intro f2
    cases C' with
    | nil =>
      rw [if_neg (by simp), mergeS_nil_right]
      apply Triple.ret
      cancel
    | cons c C' =>
      rw [if_pos (by rw [firstN_cons]; exact f2.ns c List.mem_cons_self)]
      obtain rfl : B' = [] := by simpa using h2
      rw [mergeS_nil_left, List.append_nil]
      have ht := transfer_lists (nf := nf) (l := l) (a := a) (s := s) (ty := ty) (o := o) (a2 := a2) (s2 := s2) (t2 := t2) (X := D) (Y := []) (Z := []) (M := c :: C') (W := [])
      simp only [List.nil_append, firstN_nil, lastN_nil, List.append_nil] at ht
      call ht
      intro _
      cancel

theorem merge_spec (hty : isSame ty t2 = true) :
    Triple nf (isSList l a s ty xs ∗ isSList o a2 s2 t2 ys) (merge E l o)
      (fun _ => isSList l a s ty (mergeS (ltE (E ty).less) xs ys) ∗ isSList o a2 s2 t2 []) := by
  apply list_facts (l := l) (R := isSList o a2 s2 t2 ys) (by cancel); intro f
  unfold merge
  rw [if_neg f.l0]
  call (ltype_spec (l := l))
  intro r
  xsub
  exact mergeBy_spec hty

/-! ### iteration -/

theorem walkFwd_spec {X Y Z : List (Elem V)} :
    Triple nf (isSList l a s ty (X ++ Y ++ Z)) (walkFwd (firstN Y (firstN Z s)) (firstN Z s))
      (fun r => ⌜r = vals Y⌝ ∗ isSList l a s ty (X ++ Y ++ Z)) := by
  induction Y generalizing X with
  | nil =>
    rw [walkFwd, if_neg (by simp)]
    apply Triple.ret
    cancel
  | cons e Y ih =>
    apply list_facts0; intro f
    have h2 : e.node ≠ firstN Z s := f.mid_ne_firstN e List.mem_cons_self
    rw [walkFwd, if_pos (by simpa using h2)]
    have ih' := ih (X := X ++ [e])
    simp only [List.append_assoc, List.cons_append, List.nil_append] at ih' ⊢
    unfold iterDereference iterIncrement
    rw [firstN_cons]
    call valOf_in
    intro r
    xsub
    call ldV_in
    intro r
    xsub
    call nxt_spec'
    intro r
    xsub
    rw [firstN_append]
    call ih'
    intro r
    xsub
    apply Triple.ret
    cancel

theorem readAll_spec : Triple nf (isSList l a s ty xs) (readAll l) (fun r => ⌜r = vals xs⌝ ∗ isSList l a s ty xs) := by
  unfold readAll
  call begin_spec
  intro r
  xsub
  call end_spec
  intro r
  xsub
  have := walkFwd_spec (nf := nf) (l := l) (a := a) (s := s) (ty := ty) (X := []) (Y := xs) (Z := [])
  simpa using this

theorem iterAdvance_spec {X Y Z : List (Elem V)} :
    Triple nf (isSList l a s ty (X ++ Y ++ Z)) (iterAdvance (lastN X a) Y.length)
      (fun r => ⌜r = lastN (X ++ Y) a⌝ ∗ isSList l a s ty (X ++ Y ++ Z)) := by
  induction Y generalizing X with
  | nil => simp only [List.length_nil, iterAdvance, List.append_nil]; apply Triple.ret; cancel
  | cons e Y ih =>
    have ih' := ih (X := X ++ [e])
    simp only [List.append_assoc, List.cons_append, List.nil_append, lastN_append_cons, lastN_nil] at ih' ⊢
    simp only [List.length_cons, iterAdvance]
    call nxt_spec
    intro r
    xsub
    rw [firstN_cons]
    exact ih'

theorem distanceLoop_spec {X Y Z : List (Elem V)} {n : Nat} :
    Triple nf (isSList l a s ty (X ++ Y ++ Z)) (distanceLoop (firstN Y (firstN Z s)) (firstN Z s) n)
      (fun r => ⌜r = n + Y.length⌝ ∗ isSList l a s ty (X ++ Y ++ Z)) := by
  induction Y generalizing X n with
  | nil =>
    rw [distanceLoop, if_neg (by simp)]
    apply Triple.ret
    cancel
  | cons e Y ih =>
    apply list_facts0; intro f
    have h2 : e.node ≠ firstN Z s := f.mid_ne_firstN e List.mem_cons_self
    rw [distanceLoop, if_pos (by simpa using h2)]
    have ih' := ih (X := X ++ [e]) (n := n + 1)
    simp only [List.append_assoc, List.cons_append, List.nil_append] at ih' ⊢
    rw [firstN_cons]
    call nxt_spec'
    intro r
    xsub
    rw [firstN_append]
    call ih'
    intro r
    xsub
    cancel_core
    simp; omega

/-! ### remove -/

theorem removeIfLoop_spec {pred : V → Bool} {X Y : List (Elem V)} :
    Triple nf (isSList l a s ty (X ++ Y)) (removeIfLoop l pred (lastN X a) (firstN Y s) s)
      (fun _ => isSList l a s ty (X ++ Y.filter fun e => !pred e.val)) := by
  induction Y generalizing X with
  | nil =>
    rw [removeIfLoop, if_neg (by simp)]
    apply Triple.ret
    simp only [List.filter_nil]
    cancel
  | cons e Y ih =>
    apply list_facts0; intro f
    have hes := f.ns e (List.mem_append_right _ List.mem_cons_self)
    rw [removeIfLoop, if_pos ⟨by simpa using hes, f.lastN_ne.1⟩, firstN_cons]
    call valOf_in
    intro r
    xsub
    call ldV_in
    intro r
    xsub
    apply Triple.ite
    · intro hp
      call popAfter_spec
      intro r
      xsub
      rw [List.filter_cons_of_neg (by simp [hp])]
      exact ih
    · intro hp
      call nxt_spec
      intro r
      xsub
      rw [firstN_cons]
      call nxt_spec'
      intro r
      xsub
      have ih' := ih (X := X ++ [e])
      simp only [List.append_assoc, List.cons_append, List.nil_append, lastN_append_cons, lastN_nil] at ih'
      rw [List.filter_cons_of_pos (by simp [hp])]
      exact ih'

theorem removeIf_spec {pred : V → Bool} :
    Triple nf (isSList l a s ty xs) (removeIf l pred) (fun _ => isSList l a s ty (xs.filter fun e => !pred e.val)) := by
  unfold removeIf
  call empty_spec
  intro r
  xsub
  cases xs with
  | nil => simp; apply Triple.ret; cancel
  | cons e xs =>
    rw [if_neg (by simp)]
    call beforeBegin_spec
    intro r
    xsub
    have hnx := nxt_spec (nf := nf) (l := l) (a := a) (s := s) (ty := ty) (X := []) (Y := e :: xs)
    simp only [List.nil_append, lastN_nil] at hnx
    call hnx
    intro r
    xsub
    call end_spec
    intro r
    xsub
    have := removeIfLoop_spec (nf := nf) (l := l) (a := a) (s := s) (ty := ty) (pred := pred) (X := []) (Y := e :: xs)
    simpa only [List.nil_append, lastN_nil] using this

theorem removeLoop_spec {value : Loc} {v : V} {R : HProp V} (hv : Reads R value v) {X Y : List (Elem V)} :
    Triple nf (isSList l a s ty (X ++ Y) ∗ R) (removeLoop E l value (lastN X a) (firstN Y s) s)
      (fun _ => isSList l a s ty (X ++ Y.filter fun e => !(E ty).equal e.val v) ∗ R) := by
  induction Y generalizing X with
  | nil =>
    rw [removeLoop, if_neg (by simp)]
    apply Triple.ret
    simp only [List.filter_nil]
    cancel
  | cons e Y ih =>
    apply list_facts (l := l) (R := R) (by cancel); intro f
    have hes := f.ns e (List.mem_append_right _ List.mem_cons_self)
    rw [removeLoop, if_pos ⟨by simpa using hes, f.lastN_ne.1⟩, firstN_cons]
    call ltype_spec
    intro r
    xsub
    call valOf_in
    intro r
    xsub
    call ldV_in
    intro r
    xsub
    refine ldV_reads (v := v) (hv.of_ent (R := isSList l a s ty (X ++ e :: Y)) (by cancel)) ?_
    apply Triple.ite
    · intro hp
      call popAfter_spec
      intro r
      xsub
      rw [List.filter_cons_of_neg (by simp [hp])]
      exact ih
    · intro hp
      call nxt_spec
      intro r
      xsub
      rw [firstN_cons]
      call nxt_spec'
      intro r
      xsub
      have ih' := ih (X := X ++ [e])
      simp only [List.append_assoc, List.cons_append, List.nil_append, lastN_append_cons, lastN_nil] at ih'
      rw [List.filter_cons_of_pos (by simp [hp])]
      exact ih'

theorem remove_spec {value : Loc} {v : V} {R : HProp V} (hv0 : value.1 ≠ 0) (hv : Reads R value v) :
    Triple nf (isSList l a s ty xs ∗ R) (remove E l value)
      (fun _ => isSList l a s ty (xs.filter fun e => !(E ty).equal e.val v) ∗ R) := by
  unfold remove
  call empty_spec
  intro r
  xsub
  cases xs with
  | nil => simp; apply Triple.ret; cancel
  | cons e xs =>
    rw [if_neg (by simp [hv0])]
    call beforeBegin_spec
    intro r
    xsub
    have hnx := nxt_spec (nf := nf) (l := l) (a := a) (s := s) (ty := ty) (X := []) (Y := e :: xs)
    simp only [List.nil_append, lastN_nil] at hnx
    call hnx
    intro r
    xsub
    call end_spec
    intro r
    xsub
    have := removeLoop_spec (E := E) (nf := nf) (l := l) (a := a) (s := s) (ty := ty) hv (X := []) (Y := e :: xs)
    simpa only [List.nil_append, lastN_nil] using this

/-! ### reverse -/

theorem reverseLoop_spec {e : Elem V} {Y R : List (Elem V)} {px : Addr} (hl : l ≠ 0) (hs : ∀ y ∈ e :: Y, y.node ≠ s) :
    Triple nf (fld l 1 a ∗ fld l 2 s ∗ fld a 1 px ∗ pathTail R s ∗ path e.node (nodes Y ++ [s]))
      (reverseLoop l e.node (firstN R s))
      (fun _ => fld l 1 a ∗ fld l 2 s ∗ path a (nodes ((e :: Y).reverse ++ R) ++ [s])) := by
  induction Y generalizing e R px with
  | nil =>
    rw [reverseLoop]
    simp only [List.map_nil, List.nil_append, path]
    unfold end_
    steps
    · simpa using hl
    steps
    rw [if_pos (hs e (by simp))]
    steps
    rw [reverseLoop]
    unfold end_
    steps
    · simpa using hl
    steps
    rw [if_neg (by simp)]
    apply Triple.ret
    simp only [List.reverse_singleton, List.singleton_append, List.map_cons, List.cons_append, path]
    rw [path_first]
    cancel
  | cons y Y ih =>
    rw [reverseLoop]
    simp only [List.map_cons, List.cons_append, path]
    unfold end_
    steps
    · simpa using hl
    steps
    rw [if_pos (hs e (by simp))]
    steps
    have ih' := ih (e := y) (R := e :: R) (px := e.node) (fun y hy => hs y (by simp [hy]))
    rw [pathTail, path_first, firstN_cons] at ih'
    call ih'
    intro _
    simp only [List.reverse_cons, List.append_assoc, List.singleton_append]
    cancel

theorem elts_reverse (Y : List (Elem V)) : elts Y.reverse = elts Y := by
  induction Y with
  | nil => rfl
  | cons y Y ih => rw [List.reverse_cons, elts_append, ih, elts, elts, elts, sep_emp, sep_comm]

theorem reverse_spec : Triple nf (isSList l a s ty xs) (reverse l) (fun _ => isSList l a s ty xs.reverse) := by
  apply list_facts0; intro f
  unfold reverse
  call empty_spec
  intro r
  xsub
  cases xs with
  | nil => simp; apply Triple.ret; cancel
  | cons e xs =>
    rw [if_neg (by simp)]
    call single_spec
    intro r
    xintro hr
    rw [hr (by simp)]
    apply Triple.ite
    · intro h1
      have : xs = [] := by simpa using h1
      subst this
      apply Triple.ret
      simp only [List.reverse_singleton]
      cancel
    · intro _
      call begin_spec
      intro r
      xsub
      call end_spec
      intro r
      xsub
      have hr := reverseLoop_spec (nf := nf) (a := a) (e := e) (Y := xs) (R := []) (px := e.node) f.l0 f.ns
      simp only [firstN_nil, pathTail, List.append_nil] at hr
      simp only [isSList, hdr, elts_reverse, List.map_cons, List.cons_append, path, firstN_cons]
      call hr
      intro _
      cancel

/-! ### unique -/

theorem uniqueInner_spec {pred : V → V → Bool} {X Y : List (Elem V)} {x : Elem V} :
    Triple nf (isSList l a s ty (X ++ x :: Y)) (uniqueInner l pred x.node (firstN Y s) s)
      (fun _ => isSList l a s ty (X ++ x :: Y.dropWhile fun y => pred x.val y.val)) := by
  induction Y with
  | nil =>
    rw [uniqueInner, if_neg (by simp)]
    apply Triple.ret
    simp only [List.dropWhile_nil]
    cancel
  | cons y Y ih =>
    apply list_facts0; intro f
    have hes := f.ns y (by simp)
    rw [uniqueInner, if_pos (by simpa using hes), firstN_cons]
    call valOf_in
    intro r
    xsub
    have e1 : X ++ x :: y :: Y = (X ++ [x]) ++ y :: Y := by simp
    rw [e1]
    call valOf_in
    intro r
    xsub
    rw [← e1]
    call ldV_in
    intro r
    xsub
    rw [e1]
    call ldV_in
    intro r
    xsub
    apply Triple.ite
    · intro hp
      have he := popAfter_spec (nf := nf) (l := l) (a := a) (s := s) (ty := ty) (X := X ++ [x]) (Y := Y) (e := y)
      rw [lastN_append_cons, lastN_nil] at he
      call he
      intro r
      xsub
      rw [List.dropWhile_cons_of_pos (by simpa using hp)]
      simpa using ih
    · intro hp
      apply Triple.ret
      rw [List.dropWhile_cons_of_neg (by simpa using hp), e1]
      cancel

theorem uniqueLoop_spec {pred : V → V → Bool} {X Y : List (Elem V)} :
    Triple nf (isSList l a s ty (X ++ Y)) (uniqueLoop l pred (firstN Y s) s)
      (fun _ => isSList l a s ty (X ++ uniqBy (fun a b => pred a.val b.val) Y)) := by
  induction h : Y.length using Nat.strongRecOn generalizing X Y with
  | _ n ih =>
  cases Y with
  | nil =>
    rw [uniqueLoop, if_neg (by simp), uniqBy_nil]
    apply Triple.ret
    cancel
  | cons x Y =>
    apply list_facts0; intro f
    have hes := f.ns x (by simp)
    rw [uniqueLoop, if_pos (by simpa using hes), firstN_cons]
    call nxt_spec'
    intro r
    xsub
    apply Triple.ite
    · intro hne
      call nxt_spec'
      intro r
      xsub
      call uniqueInner_spec
      intro _
      call nxt_spec'
      intro r
      xsub
      have h1 := List.dropWhile_sublist (l := Y) (fun y => pred x.val y.val)
      have ih' := ih _ (by have := h1.length_le; simp at h; omega) (X := X ++ [x]) (Y := Y.dropWhile fun y => pred x.val y.val) rfl
      simp only [List.append_assoc, List.cons_append, List.nil_append] at ih'
      rw [uniqBy_cons]
      exact ih'
    · intro hne
      cases Y with
      | nil =>
        apply Triple.ret
        rw [uniqBy_cons, List.dropWhile_nil, uniqBy_nil]
        cancel
      | cons y Y => exact absurd (by simpa using hne) (f.ns y (by simp))

theorem uniqueIf_spec {pred : V → V → Bool} :
    Triple nf (isSList l a s ty xs) (uniqueIf l (some pred))
      (fun _ => isSList l a s ty (uniqBy (fun a b => pred a.val b.val) xs)) := by
  unfold uniqueIf
  call empty_spec
  intro r
  xsub
  cases xs with
  | nil => simp [uniqBy_nil]; apply Triple.ret; cancel
  | cons e xs =>
    rw [if_neg (by simp)]
    call single_spec
    intro r
    xintro hr
    rw [hr (by simp)]
    apply Triple.ite
    · intro h1
      have : xs = [] := by simpa using h1
      subst this
      apply Triple.ret
      rw [uniqBy_cons, List.dropWhile_nil, uniqBy_nil]
      cancel
    · intro _
      dsimp only
      call end_spec
      intro r
      xsub
      call begin_spec
      intro r
      xsub
      have := uniqueLoop_spec (nf := nf) (l := l) (a := a) (s := s) (ty := ty) (pred := pred) (X := []) (Y := e :: xs)
      simpa only [List.nil_append] using this

theorem unique_spec : Triple nf (isSList l a s ty xs) (unique E l)
      (fun _ => isSList l a s ty (uniqBy (fun a b => (E ty).equal a.val b.val) xs)) := by
  apply list_facts0; intro f
  unfold unique
  rw [if_neg f.l0]
  call ltype_spec
  intro r
  xsub
  exact uniqueIf_spec

end CC.SList
