import Verif.List.Spec2
/-!
# Specifications of the public list functions, part 3: splice, merge, remove, reverse, unique (proof layer)
-/
namespace CC.CList
open CC.Tac
variable {V β : Type} {E : Types V} {nf : Prop} {l s o s2 : Addr} {ty t2 : Nat} {xs ys : List (Elem V)}

/-! ### two lists at once -/

theorem isList_blk {X Y : List (Elem V)} :
    ∃ R, isList l s ty (X ++ Y) = (blk (firstN Y s) 3 ∗ R) := by
  cases Y with
  | nil =>
    refine ⟨(blk l 2 ∗ fld l 1 s ∗ fld l 2 ty ∗ fld s 3 0) ∗ path s (nodes (X ++ []) ++ [s]) ∗ elts (X ++ []), ?_⟩
    unfold isList hdr; rw [firstN_nil]; ac_rfl
  | cons e Y =>
    refine ⟨hdr l s ty ∗ path s (nodes (X ++ e :: Y) ++ [s]) ∗ elts X ∗ (fld e.node 3 e.box ∗ blk e.box 1 ∗
      pts (e.box, 1) (.obj (some e.val))) ∗ elts Y, ?_⟩
    unfold isList; rw [firstN_cons, elts_append, elts, elt]; ac_rfl

theorem two_lists_ne {X Y Z W : List (Elem V)} {α : Type} {m : M V α} {Q : α → HProp V} {P R : HProp V}
    (hP : P ⊢ₛ isList l s ty (X ++ Y) ∗ isList o s2 t2 (Z ++ W) ∗ R)
    (h : firstN Y s ≠ firstN W s2 → Triple nf P m Q) : Triple nf P m Q := by
  refine Triple.fact (fun h hp => ?_) h
  have hh := hP h hp
  obtain ⟨R1, h1⟩ := isList_blk (l := l) (s := s) (ty := ty) (X := X) (Y := Y)
  obtain ⟨R2, h2⟩ := isList_blk (l := o) (s := s2) (ty := t2) (X := Z) (Y := W)
  rw [h1, h2] at hh
  exact blk_ne (a := firstN Y s) (b := firstN W s2) (n := 3) (m := 3) (R := R1 ∗ R2 ∗ R) (h := h) (by ac_rfl) hh

theorem transfer_noop {a b : Addr} : Triple (V := V) nf emp (transfer a b b) (fun _ => emp) := by
  unfold transfer; simp; apply Triple.ret; cancel

/-- moving a segment from one list to another -/
theorem transfer_lists {X Y Z M W : List (Elem V)} :
    Triple nf (isList l s ty (X ++ Y) ∗ isList o s2 t2 (Z ++ M ++ W))
      (transfer (firstN Y s) (firstN M (firstN W s2)) (firstN W s2))
      (fun _ => isList l s ty (X ++ M ++ Y) ∗ isList o s2 t2 (Z ++ W)) := by
  cases M with
  | nil =>
    call transfer_noop
    intro _
    simp only [List.append_nil]
    cancel
  | cons m M =>
    apply two_lists_ne (X := X) (Y := Y) (Z := Z ++ m :: M) (W := W) (R := emp) (l := l) (s := s) (ty := ty)
      (o := o) (s2 := s2) (t2 := t2) (by cancel)
    intro h1
    apply list_facts (l := o) (R := isList l s ty (X ++ Y)) (by cancel); intro _ _ hs hnd
    have h2 : m.node ≠ firstN W s2 := by
      cases W with
      | nil => exact hs m (by simp)
      | cons z Z =>
        intro h
        simp only [firstN_cons] at h
        simp [List.nodup_append, h] at hnd
    have e1 : isList o s2 t2 (Z ++ m :: M ++ W) = (hdr o s2 t2 ∗ (path s2 (nodes Z) ∗ link (lastN Z s2) m.node ∗
        (path m.node (nodes M) ∗ link (lastN M m.node) (firstN W s2)) ∗ pathTail W s2) ∗ elts Z ∗ (elt m ∗ elts M) ∗ elts W) := by
      rw [isList, List.append_assoc, List.cons_append, path_split, elts_append, elts, elts_append, pathTail, firstN_cons, path_split]
      ac_rfl
    have e2 : isList o s2 t2 (Z ++ W) = (hdr o s2 t2 ∗ (path s2 (nodes Z) ∗ link (lastN Z s2) (firstN W s2)
        ∗ pathTail W s2) ∗ elts Z ∗ elts W) := by
      rw [isList, path_split, elts_append]
    have e3 : isList l s ty (X ++ Y) = (hdr l s ty ∗ (path s (nodes X) ∗ link (lastN X s) (firstN Y s)
        ∗ pathTail Y s) ∗ elts X ∗ elts Y) := by
      rw [isList, path_split, elts_append]
    have e4 : isList l s ty (X ++ m :: M ++ Y) = (hdr l s ty ∗ (path s (nodes X) ∗ link (lastN X s) m.node ∗
        (path m.node (nodes M) ∗ link (lastN M m.node) (firstN Y s)) ∗ pathTail Y s) ∗ elts X ∗ (elt m ∗ elts M) ∗ elts Y) := by
      rw [isList, List.append_assoc, List.cons_append, path_split, elts_append, elts, elts_append, pathTail, firstN_cons, path_split]
      ac_rfl
    rw [firstN_cons, e1, e2, e3, e4]
    call (transfer_spec (pp := lastN X s) (fp := lastN Z s2) (lp := lastN M m.node) h1 h2)
    intro _
    cancel

/-- moving a segment of a list to a later position of the same list -/
theorem transfer_later {X M Y Z : List (Elem V)} :
    Triple nf (isList l s ty (X ++ M ++ Y ++ Z))
      (transfer (firstN Z s) (firstN M (firstN Y (firstN Z s))) (firstN Y (firstN Z s)))
      (fun _ => isList l s ty (X ++ Y ++ M ++ Z)) := by
  cases M with
  | nil =>
    rw [firstN]
    call transfer_noop
    intro _
    simp only [List.append_nil]
    cancel
  | cons m M =>
  cases Y with
  | nil =>
    unfold transfer
    simp
    apply Triple.ret
    cancel
  | cons y Y =>
    apply list_facts0; intro _ _ hs hnd
    have h1 : firstN Z s ≠ y.node := by
      cases Z with
      | nil => exact (hs y (by simp)).symm
      | cons z Z =>
        intro h
        simp only [firstN_cons] at h
        simp [List.nodup_append, h] at hnd
    have h2 : m.node ≠ y.node := by
      intro h
      simp [List.nodup_append, h] at hnd
    have e1 : isList l s ty (X ++ m :: M ++ y :: Y ++ Z) = (hdr l s ty ∗ (path s (nodes X) ∗ link (lastN X s) m.node ∗
        path m.node (nodes M) ∗ link (lastN M m.node) y.node ∗ path y.node (nodes Y) ∗ link (lastN Y y.node) (firstN Z s)
        ∗ pathTail Z s) ∗ elts X ∗ (elt m ∗ elts M) ∗ (elt y ∗ elts Y) ∗ elts Z) := by
      rw [isList]
      simp only [List.append_assoc, List.cons_append]
      rw [path_split, elts_append, elts, elts_append, elts, elts_append, pathTail, firstN_cons, path_split, firstN_cons, pathTail, path_split]
      ac_rfl
    have e2 : isList l s ty (X ++ y :: Y ++ m :: M ++ Z) = (hdr l s ty ∗ (path s (nodes X) ∗ link (lastN X s) y.node ∗
        path y.node (nodes Y) ∗ link (lastN Y y.node) m.node ∗ path m.node (nodes M) ∗ link (lastN M m.node) (firstN Z s)
        ∗ pathTail Z s) ∗ elts X ∗ (elt y ∗ elts Y) ∗ (elt m ∗ elts M) ∗ elts Z) := by
      rw [isList]
      simp only [List.append_assoc, List.cons_append]
      rw [path_split, elts_append, elts, elts_append, elts, elts_append, pathTail, firstN_cons, path_split, firstN_cons, pathTail, path_split]
      ac_rfl
    rw [firstN_cons, firstN_cons, e1, e2]
    call (transfer_spec (pp := lastN Y y.node) (fp := lastN X s) (lp := lastN M m.node) h1 h2)
    intro _
    cancel

/-- moving a segment of a list to an earlier position of the same list -/
theorem transfer_earlier {X Y M Z : List (Elem V)} (hY : Y ≠ []) :
    Triple nf (isList l s ty (X ++ Y ++ M ++ Z))
      (transfer (firstN Y s) (firstN M (firstN Z s)) (firstN Z s))
      (fun _ => isList l s ty (X ++ M ++ Y ++ Z)) := by
  obtain ⟨y, Y, rfl⟩ := List.exists_cons_of_ne_nil hY
  cases M with
  | nil =>
    rw [firstN_nil]
    call transfer_noop
    intro _
    simp only [List.append_nil]
    cancel
  | cons m M =>
    apply list_facts0; intro _ _ hs hnd
    have h1 : y.node ≠ firstN Z s := by
      cases Z with
      | nil => exact (hs y (by simp))
      | cons z Z =>
        intro h
        simp only [firstN_cons] at h
        simp [List.nodup_append, h] at hnd
    have h2 : m.node ≠ firstN Z s := by
      cases Z with
      | nil => exact (hs m (by simp))
      | cons z Z =>
        intro h
        simp only [firstN_cons] at h
        simp [List.nodup_append, h] at hnd
    have e1 : isList l s ty (X ++ m :: M ++ y :: Y ++ Z) = (hdr l s ty ∗ (path s (nodes X) ∗ link (lastN X s) m.node ∗
        path m.node (nodes M) ∗ link (lastN M m.node) y.node ∗ path y.node (nodes Y) ∗ link (lastN Y y.node) (firstN Z s)
        ∗ pathTail Z s) ∗ elts X ∗ (elt m ∗ elts M) ∗ (elt y ∗ elts Y) ∗ elts Z) := by
      rw [isList]
      simp only [List.append_assoc, List.cons_append]
      rw [path_split, elts_append, elts, elts_append, elts, elts_append, pathTail, firstN_cons, path_split, firstN_cons, pathTail, path_split]
      ac_rfl
    have e2 : isList l s ty (X ++ y :: Y ++ m :: M ++ Z) = (hdr l s ty ∗ (path s (nodes X) ∗ link (lastN X s) y.node ∗
        path y.node (nodes Y) ∗ link (lastN Y y.node) m.node ∗ path m.node (nodes M) ∗ link (lastN M m.node) (firstN Z s)
        ∗ pathTail Z s) ∗ elts X ∗ (elt y ∗ elts Y) ∗ (elt m ∗ elts M) ∗ elts Z) := by
      rw [isList]
      simp only [List.append_assoc, List.cons_append]
      rw [path_split, elts_append, elts, elts_append, elts, elts_append, pathTail, firstN_cons, path_split, firstN_cons, pathTail, path_split]
      ac_rfl
    rw [firstN_cons, firstN_cons, e1, e2]
    call (transfer_spec (pp := lastN X s) (fp := lastN Y y.node) (lp := lastN M m.node) h1 h2)
    intro _
    cancel

/-! ### splice -/

theorem spliceGuard_spec :
    Triple nf (isList l s ty xs ∗ isList o s2 t2 ys) (spliceGuard l o)
      (fun r => ⌜r = (ys.isEmpty || !isSame ty t2)⌝ ∗ isList l s ty xs ∗ isList o s2 t2 ys) := by
  apply list_facts (l := l) (R := isList o s2 t2 ys) (by cancel); intro hl _ _ _
  unfold spliceGuard
  rw [if_neg hl]
  call (empty_spec (l := o))
  intro r
  xsub
  cases ys with
  | nil => simp; apply Triple.ret; cancel
  | cons y ys =>
    rw [if_neg (by simp)]
    call (ltype_spec (l := l))
    intro r
    xsub
    call (ltype_spec (l := o))
    intro r
    xsub
    apply Triple.ret
    cancel

theorem spliceGuard_self :
    Triple nf (isList l s ty xs) (spliceGuard l l)
      (fun r => ⌜r = (xs.isEmpty || !isSame ty ty)⌝ ∗ isList l s ty xs) := by
  apply list_facts0; intro hl _ _ _
  unfold spliceGuard
  rw [if_neg hl]
  call (empty_spec (l := l))
  intro r
  xsub
  cases xs with
  | nil => simp; apply Triple.ret; cancel
  | cons y ys =>
    rw [if_neg (by simp)]
    call (ltype_spec (l := l))
    intro r
    xsub
    call (ltype_spec (l := l))
    intro r
    xsub
    apply Triple.ret
    cancel

theorem spliceRange_spec {X Y Z M W : List (Elem V)} (hty : isSame ty t2 = true) :
    Triple nf (isList l s ty (X ++ Y) ∗ isList o s2 t2 (Z ++ M ++ W))
      (spliceRange l (firstN Y s) o (firstN M (firstN W s2)) (firstN W s2))
      (fun _ => isList l s ty (X ++ M ++ Y) ∗ isList o s2 t2 (Z ++ W)) := by
  unfold spliceRange
  call spliceGuard_spec
  intro r
  xsub
  apply Triple.ite
  · intro h
    have : Z ++ M ++ W = [] := by simpa [hty] using h
    simp only [List.append_eq_nil_iff] at this
    obtain ⟨⟨rfl, rfl⟩, rfl⟩ := this
    apply Triple.ret
    simp only [List.append_nil]
    cancel
  · intro _
    exact transfer_lists

theorem splice_spec {X Y : List (Elem V)} (hty : isSame ty t2 = true) :
    Triple nf (isList l s ty (X ++ Y) ∗ isList o s2 t2 ys)
      (splice l (firstN Y s) o)
      (fun _ => isList l s ty (X ++ ys ++ Y) ∗ isList o s2 t2 []) := by
  unfold splice
  call spliceGuard_spec
  intro r
  xsub
  apply Triple.ite
  · intro h
    have : ys = [] := by simpa [hty] using h
    subst this
    apply Triple.ret
    simp only [List.append_nil]
    cancel
  · intro _
    call (begin_spec (l := o))
    intro r
    xsub
    call (end_spec (l := o))
    intro r
    xsub
    have := transfer_lists (nf := nf) (l := l) (s := s) (ty := ty) (o := o) (s2 := s2) (t2 := t2) (X := X) (Y := Y) (Z := []) (M := ys) (W := [])
    simp only [List.append_nil, List.nil_append, firstN_nil] at this
    call this
    intro _
    cancel

theorem spliceFrom_spec {X Y Z M : List (Elem V)} (hty : isSame ty t2 = true) :
    Triple nf (isList l s ty (X ++ Y) ∗ isList o s2 t2 (Z ++ M))
      (spliceFrom l (firstN Y s) o (firstN M s2))
      (fun _ => isList l s ty (X ++ M ++ Y) ∗ isList o s2 t2 Z) := by
  unfold spliceFrom
  call spliceGuard_spec
  intro r
  xsub
  apply Triple.ite
  · intro h
    have : Z ++ M = [] := by simpa [hty] using h
    simp only [List.append_eq_nil_iff] at this
    obtain ⟨rfl, rfl⟩ := this
    apply Triple.ret
    simp only [List.append_nil]
    cancel
  · intro _
    call (end_spec (l := o))
    intro r
    xsub
    have := transfer_lists (nf := nf) (l := l) (s := s) (ty := ty) (o := o) (s2 := s2) (t2 := t2) (X := X) (Y := Y) (Z := Z) (M := M) (W := [])
    simp only [List.append_nil, firstN_nil] at this
    call this
    intro _
    cancel

/-- lists of different element types are left alone -/
theorem splice_mismatch (hty : isSame ty t2 = false) {pos first last : Addr} :
    Triple nf (isList l s ty xs ∗ isList o s2 t2 ys) (spliceRange l pos o first last)
      (fun _ => isList l s ty xs ∗ isList o s2 t2 ys) := by
  unfold spliceRange
  call spliceGuard_spec
  intro r
  xsub
  rw [if_pos (by simp [hty])]
  apply Triple.ret
  cancel

theorem spliceRange_later {X M Y Z : List (Elem V)} (hty : isSame ty ty = true) :
    Triple nf (isList l s ty (X ++ M ++ Y ++ Z))
      (spliceRange l (firstN Z s) l (firstN M (firstN Y (firstN Z s))) (firstN Y (firstN Z s)))
      (fun _ => isList l s ty (X ++ Y ++ M ++ Z)) := by
  unfold spliceRange
  call spliceGuard_self
  intro r
  xsub
  apply Triple.ite
  · intro h
    have : X ++ M ++ Y ++ Z = [] := by simpa [hty] using h
    simp only [List.append_eq_nil_iff] at this
    obtain ⟨⟨⟨rfl, rfl⟩, rfl⟩, rfl⟩ := this
    apply Triple.ret
    cancel
  · intro _
    exact transfer_later

theorem spliceRange_earlier {X Y M Z : List (Elem V)} (hY : Y ≠ []) (hty : isSame ty ty = true) :
    Triple nf (isList l s ty (X ++ Y ++ M ++ Z))
      (spliceRange l (firstN Y s) l (firstN M (firstN Z s)) (firstN Z s))
      (fun _ => isList l s ty (X ++ M ++ Y ++ Z)) := by
  unfold spliceRange
  call spliceGuard_self
  intro r
  xsub
  rw [if_neg (by simp [hY, hty])]
  exact transfer_earlier hY

/-! ### merge -/

/-- comparison of elements by value -/
abbrev ltE (comp : V → V → Bool) (a b : Elem V) : Bool := comp a.val b.val

theorem vals_mergeL (comp : V → V → Bool) (xs ys : List (Elem V)) :
    vals (mergeL (ltE comp) xs ys) = mergeL comp (vals xs) (vals ys) := by
  induction xs generalizing ys with
  | nil => simp [mergeL_nil_left]
  | cons x xs ih =>
    induction ys with
    | nil => simp [mergeL_nil_right]
    | cons y ys ihy =>
      rw [mergeL_cons]
      simp only [vals, List.map_cons] at ihy ⊢
      rw [mergeL_cons]
      split
      · rw [List.map_cons]; exact congrArg _ ihy
      · rw [List.map_cons]; exact congrArg _ (ih _)

theorem ldV_elt {e : Elem V} : Triple nf (elt e) (ldV (e.box, 1)) (fun r => ⌜r = e.val⌝ ∗ elt e) := by
  unfold elt
  steps
  apply Triple.ret
  cancel

theorem nxt_spec {X Y : List (Elem V)} {e : Elem V} :
    Triple nf (isList l s ty (X ++ e :: Y)) (nxt e.node) (fun r => ⌜r = firstN Y s⌝ ∗ isList l s ty (X ++ e :: Y)) := by
  rw [isList, path_split_cons]
  rw [show (link e.node (firstN Y s) : HProp V) = (fld e.node 2 (firstN Y s) ∗ fld (firstN Y s) 1 e.node) from rfl]
  steps
  apply Triple.ret
  cancel

theorem prv_spec {X Y : List (Elem V)} :
    Triple nf (isList l s ty (X ++ Y)) (prv (firstN Y s)) (fun r => ⌜r = lastN X s⌝ ∗ isList l s ty (X ++ Y)) := by
  rw [isList, path_split]
  rw [show (link (lastN X s) (firstN Y s) : HProp V) = (fld (lastN X s) 2 (firstN Y s) ∗ fld (firstN Y s) 1 (lastN X s)) from rfl]
  steps
  apply Triple.ret
  cancel

/-- reading the value of an element through its node -/
theorem valOf_in {X Y : List (Elem V)} {e : Elem V} :
    Triple nf (isList l s ty (X ++ e :: Y)) (valOf e.node) (fun r => ⌜r = (e.box, 1)⌝ ∗ isList l s ty (X ++ e :: Y)) := by
  rw [isList, elts_append, elts]
  call valOf_spec
  intro r
  xsub
  cancel

theorem ldV_in {X Y : List (Elem V)} {e : Elem V} :
    Triple nf (isList l s ty (X ++ e :: Y)) (ldV (e.box, 1)) (fun r => ⌜r = e.val⌝ ∗ isList l s ty (X ++ e :: Y)) := by
  rw [isList, elts_append, elts]
  call ldV_elt
  intro r
  xsub
  cancel

theorem mergeLoop_spec {comp : V → V → Bool} {A B C : List (Elem V)} :
    Triple nf (isList l s ty (A ++ B) ∗ isList o s2 t2 C)
      (mergeLoop comp (firstN B s) s (firstN C s2) s2)
      (fun r => ∃ₛ D C', ⌜mergeL (ltE comp) B C = D ++ C' ∧ r = firstN C' s2⌝ ∗
        isList l s ty (A ++ D) ∗ isList o s2 t2 C') := by
  induction B generalizing A C with
  | nil =>
    rw [mergeLoop, if_neg (by simp)]
    apply Triple.ret
    xexists [], C
    cancel
    exact ⟨by simp [mergeL_nil_left], rfl⟩
  | cons b B ihB =>
    induction C generalizing A with
    | nil =>
      rw [mergeLoop, if_neg (by simp)]
      apply Triple.ret
      xexists b :: B, []
      cancel
      exact ⟨by simp [mergeL_nil_right], rfl⟩
    | cons c C ihC =>
      apply list_facts (l := l) (R := isList o s2 t2 (c :: C)) (by cancel); intro _ _ hs _
      apply list_facts (l := o) (R := isList l s ty (A ++ b :: B)) (by cancel); intro _ _ hs2 _
      rw [mergeLoop, if_pos ⟨by rw [firstN_cons]; exact hs b (List.mem_append_right _ List.mem_cons_self), by rw [firstN_cons]; exact hs2 c List.mem_cons_self⟩]
      simp only [firstN_cons]
      rw [← List.nil_append (c :: C)]
      call (valOf_in (l := o))
      intro r
      xsub
      call (valOf_in (l := l))
      intro r
      xsub
      call (ldV_in (l := o))
      intro r
      xsub
      call (ldV_in (l := l))
      intro r
      xsub
      rw [List.nil_append, mergeL_cons]
      split
      · rw [← List.nil_append (c :: C)]
        call (nxt_spec (l := o))
        intro r
        xsub
        have ht := transfer_lists (nf := nf) (l := l) (s := s) (ty := ty) (o := o) (s2 := s2) (t2 := t2) (X := A) (Y := b :: B) (Z := []) (M := [c]) (W := C)
        simp only [List.nil_append, firstN_cons, List.singleton_append] at ht
        rw [List.nil_append]
        call ht
        intro _
        have ih := ihC (A := A ++ [c])
        simp only [firstN_cons] at ih
        call ih
        intro r
        xintro D C' ⟨h1, h2⟩
        xexists c :: D, C'
        simp only [List.append_assoc, List.singleton_append, List.cons_append]
        cancel
        exact ⟨by rw [h1], h2⟩
      · call (nxt_spec (l := l))
        intro r
        xsub
        have ih := ihB (A := A ++ [b]) (C := c :: C)
        simp only [firstN_cons, List.append_assoc, List.singleton_append] at ih
        call ih
        intro r
        xintro D C' ⟨h1, h2⟩
        xexists b :: D, C'
        simp only [List.append_assoc, List.singleton_append, List.cons_append]
        cancel
        exact ⟨by rw [h1], h2⟩

theorem mergeBy_spec {comp : V → V → Bool} (hty : isSame ty t2 = true) :
    Triple nf (isList l s ty xs ∗ isList o s2 t2 ys) (mergeBy l o (some comp))
      (fun _ => isList l s ty (mergeL (ltE comp) xs ys) ∗ isList o s2 t2 []) := by
  apply list_facts (l := l) (R := isList o s2 t2 ys) (by cancel); intro hl _ _ _
  unfold mergeBy
  rw [if_neg hl]
  call (empty_spec (l := o))
  intro r
  xsub
  cases ys with
  | nil => simp [mergeL_nil_right]; apply Triple.ret; cancel
  | cons y ys =>
    rw [if_neg (by simp)]
    dsimp only
    call (ltype_spec (l := l))
    intro r
    xsub
    call (ltype_spec (l := o))
    intro r
    xsub
    rw [if_neg (by simp [hty])]
    call (begin_spec (l := l))
    intro r
    xsub
    call (end_spec (l := l))
    intro r
    xsub
    call (begin_spec (l := o))
    intro r
    xsub
    call (end_spec (l := o))
    intro r
    xsub
    have := mergeLoop_spec (nf := nf) (l := l) (s := s) (ty := ty) (o := o) (s2 := s2) (t2 := t2) (comp := comp) (A := []) (B := xs) (C := y :: ys)
    simp only [List.nil_append] at this
    call this
    intro r
    xintro D C' ⟨h1, rfl⟩
    rw [h1]
    apply Triple.ite
    · intro hne
      have ht := transfer_lists (nf := nf) (l := l) (s := s) (ty := ty) (o := o) (s2 := s2) (t2 := t2) (X := D) (Y := []) (Z := []) (M := C') (W := [])
      simp only [List.nil_append, firstN_nil, List.append_nil] at ht
      call ht
      intro _
      cancel
    · intro hne
      apply list_facts (l := o) (R := isList l s ty D) (by cancel); intro _ _ hs2 _
      cases C' with
      | nil => apply Triple.ret; simp only [List.append_nil]; cancel
      | cons c C' => exact absurd (by simpa using hne) (hs2 c List.mem_cons_self)

theorem merge_spec (hty : isSame ty t2 = true) :
    Triple nf (isList l s ty xs ∗ isList o s2 t2 ys) (merge E l o)
      (fun _ => isList l s ty (mergeL (ltE (E ty).less) xs ys) ∗ isList o s2 t2 []) := by
  apply list_facts (l := l) (R := isList o s2 t2 ys) (by cancel); intro hl _ _ _
  unfold merge
  rw [if_neg hl]
  call (ltype_spec (l := l))
  intro r
  xsub
  exact mergeBy_spec hty

end CC.CList
