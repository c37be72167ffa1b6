import Verif.List.Time
namespace CC.CList
open CC.Tac
variable {V β : Type} {E : Types V} {nf : Prop} {l s o s2 : Addr} {ty t2 : Nat} {xs ys : List (Elem V)} {k : Nat}

theorem eraseRange_time {X Y Z : List (Elem V)} (hk : 13 * Y.length ≤ k) :
    Triple nf (isList l s ty (X ++ Y ++ Z)) (within k (eraseRange l (firstN Y (firstN Z s)) (firstN Z s)))
      (fun r => ⌜r = firstN Z s⌝ ∗ isList l s ty (X ++ Z)) := by
  induction Y generalizing k with
  | nil =>
    rw [eraseRange]; simp; retP; cancel
  | cons e Y ih =>
    simp only [List.length_cons] at hk
    apply list_facts0; intro hl hs0 hs hnd
    have : e.node ≠ firstN Z s := by
      cases Z with
      | nil => exact hs e (by simp)
      | cons z Z =>
        intro h
        simp only [firstN_cons] at h
        simp [List.nodup_append, h] at hnd
    rw [eraseRange, if_pos (by simpa using this)]
    rw [firstN_cons, List.append_assoc, List.cons_append]
    callP erase_spec
    intro r
    xsub
    rw [firstN_append]
    refine Triple.pre ?_ (ih (by omega))
    rw [List.append_assoc]; cancel

theorem resizeSkip_time {Y : List (Elem V)} {c : Nat} (hs : ∀ e ∈ Y, e.node ≠ s) (hk : 2 * Y.length + 1 ≤ k) :
    Triple nf (fld l 1 s ∗ pathTail Y s) (within k (resizeSkip l (firstN Y s) c))
      (fun r => ⌜r = (firstN (Y.drop c) s, c - Y.length)⌝ ∗ fld l 1 s ∗ pathTail Y s) := by
  induction Y generalizing c k with
  | nil =>
    rw [resizeSkip]
    stepsP
    simp
    retP
    cancel
  | cons e Y ih =>
    simp only [List.length_cons] at hk
    rw [resizeSkip]
    stepsP
    cases c with
    | zero => simp; retP; cancel
    | succ c =>
      rw [if_pos ⟨by simpa using hs e (by simp), by omega⟩]
      simp only [pathTail, firstN_cons]
      rw [path_first]
      simp only [link]
      stepsP
      call (ih (c := c) (fun e he => hs e (by simp [he])) (by omega))
      intro r
      xsub
      cancel_core
      simp

theorem resizeShrink_time {Y : List (Elem V)} {p : Addr} (hs : ∀ e ∈ Y, e.node ≠ s) (hk : 14 * Y.length + 1 ≤ k) :
    Triple nf (fld l 1 s ∗ path p (nodes Y ++ [s]) ∗ elts Y) (within k (resizeShrink l (firstN Y s)))
      (fun _ => fld l 1 s ∗ link p s) := by
  induction Y generalizing p k with
  | nil => 
    rw [resizeShrink]
    stepsP
    simp [path, elts]
    retP; cancel
  | cons e Y ih =>
    simp only [List.length_cons] at hk
    rw [resizeShrink]
    stepsP
    rw [if_pos (by simpa using hs e (by simp))]
    simp only [List.map_cons, List.cons_append, path, path_first, firstN_cons, elts]
    callP (popNode_spec (s := s) (hs e (by simp)))
    intro r
    xsub
    refine Triple.pre ?_ (ih (p := p) (fun e he => hs e (by simp [he])) (by omega))
    rw [path_first]
    cancel

theorem resizeGrow_cost {c : Nat} {value : Loc} : Cost (resizeGrow E l value c) (19 * c) := by
  induction c with
  | zero => rw [resizeGrow]; exact Cost.pure _
  | succ c ih =>
    rw [resizeGrow]
    refine (Cost.bind (c := 9) (d := 10 + 19 * c) (by cost) fun n => ?_).mono (by omega)
    split
    · exact (Cost.pure _).mono (by omega)
    · exact Cost.bind (by cost) fun _ => ih

theorem resizeWithValue_time {c : Nat} {value : Loc} {v : V} {R : HProp V}
    (hv : ∀ N, ArgVal (isList l s ty (xs ++ N) ∗ R) value (E ty).dflt v) (hk : 19 * c + 16 * xs.length + 5 ≤ k) :
    Triple nf (isList l s ty xs ∗ R) (within k (resizeWithValue E l c value))
      (fun _ => ∃ₛ N, ⌜(∃ k, k ≤ c - xs.length ∧ vals N = List.replicate k v) ∧ (nf → N.length = c - xs.length)⌝
        ∗ isList l s ty (xs.take c ++ N) ∗ R) := by
  apply list_facts (R := R) (ent_refl _); intro hl hs0 hs _
  unfold resizeWithValue
  rw [if_neg hl]
  have e1 : isList l s ty xs = (hdr l s ty ∗ link s (firstN xs s) ∗ pathTail xs s ∗ elts xs) := by
    rw [isList, path_first, sep_assoc]
  have e2 : isList l s ty xs = ((blk l 2 ∗ fld l 1 s ∗ fld l 2 ty ∗ blk s 3 ∗ fld s 3 0) ∗
      (fld s 2 (firstN xs s) ∗ fld (firstN xs s) 1 s) ∗ pathTail xs s ∗ elts xs) := by
    rw [e1, hdr, link]
  rw [show (isList l s ty xs ∗ R) = (((blk l 2 ∗ fld l 1 s ∗ fld l 2 ty ∗ blk s 3 ∗ fld s 3 0) ∗
      (fld s 2 (firstN xs s) ∗ fld (firstN xs s) 1 s) ∗ pathTail xs s ∗ elts xs) ∗ R) by rw [e2]]
  stepsP
  payW (2 * xs.length + 1)
  call (resizeSkip_time hs (Nat.le_refl _))
  intro r
  xsub
  by_cases hc : c ≤ xs.length
  · have h0 : c - xs.length = 0 := by omega
    simp only [h0]
    rw [if_neg (by omega)]
    obtain ⟨X, Y, rfl, hX⟩ : ∃ X Y, xs = X ++ Y ∧ X.length = c :=
      ⟨xs.take c, xs.drop c, (List.take_append_drop c xs).symm, by simp [hc]⟩
    subst hX
    simp only [List.drop_left', List.take_left']
    refine Triple.call_frame (resizeShrink_time (s := s) (p := lastN X s) (Y := Y) (l := l)
      (fun e he => hs e (by simp [he])) (by simp only [List.length_append] at *; omega))
      (R := (blk l 2 ∗ fld l 2 ty ∗ blk s 3 ∗ fld s 3 0) ∗ path s (nodes X) ∗ elts X ∗ R) ?_ ?_
    · have e3 : (link s (firstN (X ++ Y) s) ∗ pathTail (X ++ Y) s : HProp V) =
        (path s (nodes X) ∗ path (lastN X s) (nodes Y ++ [s])) := by
        rw [← path_first, path_split, ← path_first]
      have e4 : ((fld l 1 s ∗ pathTail (X ++ Y) s) ∗ (blk l 2 ∗ fld l 2 ty ∗ blk s 3 ∗ fld s 3 0) ∗
         link s (firstN (X ++ Y) s) ∗ elts (X ++ Y) ∗ R) =
        (fld l 1 s ∗ (blk l 2 ∗ fld l 2 ty ∗ blk s 3 ∗ fld s 3 0) ∗ elts (X ++ Y) ∗ R ∗
          (link s (firstN (X ++ Y) s) ∗ pathTail (X ++ Y) s)) := by ac_rfl
      refine ent_trans (Q := (fld l 1 s ∗ pathTail (X ++ Y) s) ∗ (blk l 2 ∗ fld l 2 ty ∗ blk s 3 ∗ fld s 3 0) ∗
         link s (firstN (X ++ Y) s) ∗ elts (X ++ Y) ∗ R) (by unfold link; cancel) ?_
      rw [e4, e3, elts_append]
      cancel
    · intro _
      apply ent_ex_right []
      rw [List.append_nil]
      simp only [isList, hdr, path_snoc]
      cancel
      exact ⟨⟨0, by simp⟩, by simp⟩
  · dsimp only
    rw [if_pos (by omega)]
    rw [List.take_of_length_le (by omega)]
    refine Triple.le (within_cost resizeGrow_cost (by omega)) ?_
    refine Triple.pre ?_ (resizeGrow_spec hv)
    rw [e2]
    cancel

theorem copyLoop_time {o s2 : Addr} {t2 : Nat} {X Y : List (Elem V)} (hk : 22 * Y.length + 1 ≤ k) :
    Triple nf (isList l s ty xs ∗ isList o s2 t2 (X ++ Y)) (within k (copyLoop E l o (firstN Y s2)))
      (fun _ => ∃ₛ N, ⌜(vals N).Sublist (vals Y) ∧ (nf → vals N = vals Y)⌝ ∗ isList l s ty (xs ++ N) ∗
        isList o s2 t2 (X ++ Y)) := by
  induction Y generalizing xs X k with
  | nil =>
    rw [copyLoop]
    callP end_spec (l := o)
    intro e
    xsub
    rw [firstN_nil, if_neg (by simp)]
    retP
    xexists []
    simp only [List.append_nil]
    cancel
    simp
  | cons e Y ih =>
    simp only [List.length_cons] at hk
    apply list_facts (l := o) (R := isList l s ty xs) (by cancel); intro _ _ hs _
    rw [copyLoop]
    callP end_spec (l := o)
    intro r
    xsub
    rw [if_pos (by rw [firstN_cons]; exact hs e (List.mem_append_right _ List.mem_cons_self)), firstN_cons]
    have e1 : isList o s2 t2 (X ++ e :: Y) = (hdr o s2 t2 ∗ path s2 (nodes (X ++ e :: Y) ++ [s2]) ∗
      elts X ∗ elt e ∗ elts Y) := by rw [isList, elts_append, elts]
    rw [e1]
    callP valOf_spec
    intro r
    xsub
    have hr : RefIn ([] : List (Elem V)) (isList o s2 t2 (X ++ e :: Y)) ((e.box, 1) : Loc) e.val := by
      right; unfold isList; exact (elts_reads (List.mem_append_right _ List.mem_cons_self)).of_ent (by cancel)
    apply Triple.fact (p := e.box ≠ 0)
    · intro h hh
      have : (blk e.box 1 ∗ ⌜True⌝ ∗ (fld e.node 3 e.box ∗ blk e.node 3 ∗ pts (e.box, 1) (.obj (some e.val)) ∗
        isList l s ty xs ∗ hdr o s2 t2 ∗ path s2 (nodes (X ++ e :: Y) ++ [s2]) ∗ elts X ∗ elts Y)) h := by
        refine (show _ ⊢ₛ _ from ?_) _ hh
        unfold elt; cancel
      exact pts_ne_zero this
    intro hb
    have hpb := pushBack_spec (E := E) (nf := nf) (l := l) (s := s) (ty := ty) (xs := xs)
      (R := isList o s2 t2 (X ++ e :: Y)) (value := (e.box, 1)) (v := e.val) hb
      (by simpa using hr.reads (l := l) (s := s) (ty := ty) (X := xs) (Y := []))
    pay
    refine Triple.bind_frame hpb (R := emp) (by rw [e1]; cancel) ?_
    intro _
    xintro N ⟨hN1, hN2⟩
    have e2 : isList o s2 t2 (X ++ e :: Y) = (hdr o s2 t2 ∗ (path s2 (nodes X) ∗ link (lastN X s2) e.node ∗
      (fld e.node 2 (firstN Y s2) ∗ fld (firstN Y s2) 1 e.node) ∗ pathTail Y s2) ∗ elts (X ++ e :: Y)) := by
      rw [isList, path_split_cons]; rfl
    rw [e2]
    stepsP
    have ih' := ih (xs := xs ++ N) (X := X ++ [e]) (k := k - 1 - 1 - 19 - 1) (by omega)
    simp only [List.append_assoc, List.singleton_append] at ih'
    refine Triple.call_frame ih' (R := emp) ?_ ?_
    · rw [e2]
      cancel
    · intro _
      xintro N' ⟨h1, h2⟩
      xexists (N ++ N')
      rw [← e1]
      cancel
      constructor
      · rcases hN2 with rfl | ⟨e', rfl, he'⟩
        · simpa using h1.cons _
        · simpa [he'] using h1
      · intro hnf
        rcases hN2 with rfl | ⟨e', rfl, he'⟩
        · exact absurd rfl (hN1 hnf)
        · simpa [he'] using h2 hnf

theorem mergeLoop_time {comp : V → V → Bool} {A B C : List (Elem V)} (hk : 17 * (B.length + C.length) ≤ k) :
    Triple nf (isList l s ty (A ++ B) ∗ isList o s2 t2 C)
      (within k (mergeLoop comp (firstN B s) s (firstN C s2) s2))
      (fun r => ∃ₛ D C', ⌜mergeL (ltE comp) B C = D ++ C' ∧ r = firstN C' s2⌝ ∗
        isList l s ty (A ++ D) ∗ isList o s2 t2 C') := by
  induction B generalizing A C k with
  | nil =>
    rw [mergeLoop, if_neg (by simp)]
    retP
    xexists [], C
    cancel
    exact ⟨by simp [mergeL_nil_left], rfl⟩
  | cons b B ihB =>
    induction C generalizing A k with
    | nil =>
      rw [mergeLoop, if_neg (by simp)]
      retP
      xexists b :: B, []
      cancel
      exact ⟨by simp [mergeL_nil_right], rfl⟩
    | cons c C ihC =>
      simp only [List.length_cons] at hk
      apply list_facts (l := l) (R := isList o s2 t2 (c :: C)) (by cancel); intro _ _ hs _
      apply list_facts (l := o) (R := isList l s ty (A ++ b :: B)) (by cancel); intro _ _ hs2 _
      rw [mergeLoop, if_pos ⟨by rw [firstN_cons]; exact hs b (List.mem_append_right _ List.mem_cons_self), by rw [firstN_cons]; exact hs2 c List.mem_cons_self⟩]
      simp only [firstN_cons]
      rw [← List.nil_append (c :: C)]
      callP (valOf_in (l := o))
      intro r
      xsub
      callP (valOf_in (l := l))
      intro r
      xsub
      callP (ldV_in (l := o))
      intro r
      xsub
      callP (ldV_in (l := l))
      intro r
      xsub
      rw [List.nil_append, mergeL_cons]
      split
      · rw [← List.nil_append (c :: C)]
        callP (nxt_spec (l := o))
        intro r
        xsub
        have ht := transfer_lists (nf := nf) (l := l) (s := s) (ty := ty) (o := o) (s2 := s2) (t2 := t2) (X := A) (Y := b :: B) (Z := []) (M := [c]) (W := C)
        simp only [List.nil_append, firstN_cons, List.singleton_append] at ht
        rw [List.nil_append]
        callP ht
        intro _
        have ih := ihC (A := A ++ [c]) (k := k - 1 - 1 - 1 - 1 - 1 - 12) (by simp only [List.length_cons]; omega)
        simp only [firstN_cons] at ih
        call ih
        intro r
        xintro D C' ⟨h1, h2⟩
        xexists c :: D, C'
        simp only [List.append_assoc, List.singleton_append, List.cons_append]
        cancel
        exact ⟨by rw [h1], h2⟩
      · callP (nxt_spec (l := l))
        intro r
        xsub
        have ih := ihB (A := A ++ [b]) (C := c :: C) (k := k - 1 - 1 - 1 - 1 - 1) (by simp only [List.length_cons]; omega)
        simp only [firstN_cons, List.append_assoc, List.singleton_append] at ih
        call ih
        intro r
        xintro D C' ⟨h1, h2⟩
        xexists b :: D, C'
        simp only [List.append_assoc, List.singleton_append, List.cons_append]
        cancel
        exact ⟨by rw [h1], h2⟩

theorem mergeBy_time {comp : V → V → Bool} (hty : isSame ty t2 = true) (hk : 17 * (xs.length + ys.length) + 23 ≤ k) :
    Triple nf (isList l s ty xs ∗ isList o s2 t2 ys) (within k (mergeBy l o (some comp)))
      (fun _ => isList l s ty (mergeL (ltE comp) xs ys) ∗ isList o s2 t2 []) := by
  apply list_facts (l := l) (R := isList o s2 t2 ys) (by cancel); intro hl _ _ _
  unfold mergeBy
  rw [if_neg hl]
  callP (empty_spec (l := o))
  intro r
  xsub
  cases ys with
  | nil => simp [mergeL_nil_right]; retP; cancel
  | cons y ys =>
    simp only [List.length_cons] at hk
    rw [if_neg (by simp)]
    dsimp only
    callP (ltype_spec (l := l))
    intro r
    xsub
    callP (ltype_spec (l := o))
    intro r
    xsub
    rw [if_neg (by simp [hty])]
    callP (begin_spec (l := l))
    intro r
    xsub
    callP (end_spec (l := l))
    intro r
    xsub
    callP (begin_spec (l := o))
    intro r
    xsub
    callP (end_spec (l := o))
    intro r
    xsub
    have := mergeLoop_time (nf := nf) (l := l) (s := s) (ty := ty) (o := o) (s2 := s2) (t2 := t2) (comp := comp) (A := []) (B := xs) (C := y :: ys) (Nat.le_refl _)
    simp only [List.nil_append] at this
    payW (17 * (xs.length + (y :: ys).length))
    call this
    intro r
    xintro D C' ⟨h1, rfl⟩
    rw [h1]
    iteP
    · intro hne
      have ht := transfer_lists (nf := nf) (l := l) (s := s) (ty := ty) (o := o) (s2 := s2) (t2 := t2) (X := D) (Y := []) (Z := []) (M := C') (W := [])
      simp only [List.nil_append, firstN_nil, List.append_nil] at ht
      payT
      call ht
      intro _
      cancel
    · intro hne
      apply list_facts (l := o) (R := isList l s ty D) (by cancel); intro _ _ hs2 _
      cases C' with
      | nil => retP; simp only [List.append_nil]; cancel
      | cons c C' => exact absurd (by simpa using hne) (hs2 c List.mem_cons_self)

theorem removeIfLoop_time {pred : V → Bool} {X Y : List (Elem V)} (hk : 15 * Y.length ≤ k) :
    Triple nf (isList l s ty (X ++ Y)) (within k (removeIfLoop l pred (firstN Y s) s))
      (fun _ => isList l s ty (X ++ Y.filter fun e => !pred e.val)) := by
  induction Y generalizing X k with
  | nil =>
    rw [removeIfLoop, if_neg (by simp)]
    retP
    simp only [List.filter_nil]
    cancel
  | cons e Y ih =>
    simp only [List.length_cons] at hk
    apply list_facts0; intro hl hs0 hs hnd
    have hes := hs e (List.mem_append_right _ List.mem_cons_self)
    rw [removeIfLoop, if_pos (by simpa using hes), firstN_cons]
    callP valOf_in
    intro r
    xsub
    callP ldV_in
    intro r
    xsub
    iteP
    · intro hp
      have he := erase_spec (nf := nf) (l := l) (s := s) (ty := ty) (X := X) (Y := Y) (e := e)
      unfold erase at he
      rw [if_neg hl] at he
      callP he
      intro r
      xsub
      rw [List.filter_cons_of_neg (by simp [hp])]
      exact ih (by omega)
    · intro hp
      callP nxt_spec
      intro r
      xsub
      have ih' := ih (X := X ++ [e]) (k := k - 1 - 1 - 1) (by omega)
      simp only [List.append_assoc, List.cons_append, List.nil_append] at ih'
      rw [List.filter_cons_of_pos (by simp [hp])]
      exact ih'

theorem removeIf_time {pred : V → Bool} (hk : 15 * xs.length + 6 ≤ k) :
    Triple nf (isList l s ty xs) (within k (removeIf l pred)) (fun _ => isList l s ty (xs.filter fun e => !pred e.val)) := by
  unfold removeIf
  callP empty_spec
  intro r
  xsub
  cases xs with
  | nil => simp; retP; cancel
  | cons e xs =>
    rw [if_neg (by simp)]
    callP begin_spec
    intro r
    xsub
    callP end_spec
    intro r
    xsub
    have := removeIfLoop_time (nf := nf) (l := l) (s := s) (ty := ty) (pred := pred) (X := []) (Y := e :: xs) (k := k - 3 - 2 - 1) (by omega)
    simpa only [List.nil_append] using this

theorem removeLoop_time {value : Loc} {v : V} {R : HProp V} (hv : Reads R value v) {X Y : List (Elem V)} (hk : 17 * Y.length ≤ k) :
    Triple nf (isList l s ty (X ++ Y) ∗ R) (within k (removeLoop E l value (firstN Y s) s))
      (fun _ => isList l s ty (X ++ Y.filter fun e => !(E ty).equal e.val v) ∗ R) := by
  induction Y generalizing X k with
  | nil =>
    rw [removeLoop, if_neg (by simp)]
    retP
    simp only [List.filter_nil]
    cancel
  | cons e Y ih =>
    simp only [List.length_cons] at hk
    apply list_facts (l := l) (R := R) (by cancel); intro hl hs0 hs hnd
    have hes := hs e (List.mem_append_right _ List.mem_cons_self)
    rw [removeLoop, if_pos (by simpa using hes), firstN_cons]
    callP ltype_spec
    intro r
    xsub
    callP valOf_in
    intro r
    xsub
    callP ldV_in
    intro r
    xsub
    pay
    refine ldV_reads (v := v) (hv.of_ent (R := isList l s ty (X ++ e :: Y)) (by cancel)) ?_
    iteP
    · intro hp
      have he := erase_spec (nf := nf) (l := l) (s := s) (ty := ty) (X := X) (Y := Y) (e := e)
      unfold erase at he
      rw [if_neg hl] at he
      callP he
      intro r
      xsub
      rw [List.filter_cons_of_neg (by simp [hp])]
      exact ih (by omega)
    · intro hp
      callP nxt_spec
      intro r
      xsub
      have ih' := ih (X := X ++ [e]) (k := k - 1 - 1 - 1 - 1 - 1) (by omega)
      simp only [List.append_assoc, List.cons_append, List.nil_append] at ih'
      rw [List.filter_cons_of_pos (by simp [hp])]
      exact ih'

theorem remove_time {value : Loc} {v : V} {R : HProp V} (hv0 : value.1 ≠ 0) (hv : Reads R value v) (hk : 17 * xs.length + 6 ≤ k) :
    Triple nf (isList l s ty xs ∗ R) (within k (remove E l value))
      (fun _ => isList l s ty (xs.filter fun e => !(E ty).equal e.val v) ∗ R) := by
  unfold remove
  callP empty_spec
  intro r
  xsub
  cases xs with
  | nil => simp; retP; cancel
  | cons e xs =>
    rw [if_neg (by simp [hv0])]
    callP begin_spec
    intro r
    xsub
    callP end_spec
    intro r
    xsub
    have := removeLoop_time (E := E) (nf := nf) (l := l) (s := s) (ty := ty) hv (X := []) (Y := e :: xs) (k := k - 3 - 2 - 1) (by omega)
    simpa only [List.nil_append] using this

theorem reverseLoop_time {Y : List (Elem V)} {p : Addr} (hl : l ≠ 0) (hs : ∀ e ∈ Y, e.node ≠ s) (hk : 5 * Y.length + 1 ≤ k) :
    Triple nf (fld l 1 s ∗ fld (firstN Y s) 1 p ∗ pathTail Y s) (within k (reverseLoop l (firstN Y s)))
      (fun _ => fld l 1 s ∗ revd Y p s ∗ fld s 1 (lastN Y p)) := by
  induction Y generalizing p k with
  | nil =>
    rw [reverseLoop]
    have hca : (cassert (l != 0) : M V Unit) = pure () := by unfold cassert; rw [if_pos (by simpa using hl)]
    unfold end_
    simp only [hca, pure_bind]
    stepsP
    simp [pathTail, revd]
    retP
    cancel
  | cons e Y ih =>
    simp only [List.length_cons] at hk
    rw [reverseLoop]
    have hca : (cassert (l != 0) : M V Unit) = pure () := by unfold cassert; rw [if_pos (by simpa using hl)]
    unfold end_
    simp only [hca, pure_bind]
    stepsP
    rw [if_pos (by simpa using hs e (by simp))]
    simp only [pathTail, firstN_cons]
    rw [path_first]
    simp only [link]
    stepsP
    call (ih (p := e.node) (fun e he => hs e (by simp [he])) (by omega))
    intro _
    simp only [revd, lastN_cons]
    cancel

theorem reverse_time (hk : 6 * xs.length + 14 ≤ k) : Triple nf (isList l s ty xs) (within k (reverse l)) (fun _ => isList l s ty xs.reverse) := by
  apply list_facts0; intro hl _ hs _
  unfold reverse
  callP empty_spec
  intro r
  xsub
  cases xs with
  | nil => simp; retP; cancel
  | cons e xs =>
    simp only [List.length_cons] at hk
    rw [if_neg (by simp)]
    payW ((e :: xs).length + 3)
    call (size_time (Nat.le_refl _))
    intro r
    xsub
    iteP
    · intro h1
      have : xs = [] := by simpa using h1
      subst this
      retP
      simp only [List.reverse_singleton]
      cancel
    · intro _
      callP begin_spec
      intro r
      xsub
      have e1 : isList l s ty (e :: xs) = ((blk l 2 ∗ fld l 1 s ∗ fld l 2 ty ∗ blk s 3 ∗ fld s 3 0) ∗
        ((fld s 2 (firstN (e :: xs) s) ∗ fld (firstN (e :: xs) s) 1 s) ∗ pathTail (e :: xs) s) ∗ elts (e :: xs)) := by
        rw [isList, path_first, hdr, link]
      rw [e1]
      payW (5 * (e :: xs).length + 1)
      call (reverseLoop_time hl hs (Nat.le_refl _))
      intro _
      stepsP
      retP
      rw [isList, ← revd_path, hdr]
      have : ∀ Y : List (Elem V), elts Y.reverse = elts Y := by
        intro Y
        induction Y with
        | nil => rfl
        | cons y Y ih => rw [List.reverse_cons, elts_append, ih, elts, elts, elts, sep_emp, sep_comm]
      rw [this]
      cancel

theorem uniqueInner_time {pred : V → V → Bool} {X Y : List (Elem V)} {x : Elem V} (hk : 18 * (Y.length - (Y.dropWhile fun y => pred x.val y.val).length) + 5 ≤ k) :
    Triple nf (isList l s ty (X ++ x :: Y)) (within k (uniqueInner l pred x.node (firstN Y s)))
      (fun _ => isList l s ty (X ++ x :: Y.dropWhile fun y => pred x.val y.val)) := by
  induction Y generalizing k with
  | nil =>
    rw [uniqueInner]
    callP end_spec
    intro r
    xsub
    rw [if_neg (by simp)]
    retP
    simp only [List.dropWhile_nil]
    cancel
  | cons y Y ih =>
    apply list_facts0; intro hl hs0 hs hnd
    have hes := hs y (by simp)
    rw [uniqueInner]
    callP end_spec
    intro r
    xsub
    rw [if_pos (by simpa using hes), firstN_cons]
    callP valOf_in
    intro r
    xsub
    have e1 : X ++ x :: y :: Y = (X ++ [x]) ++ y :: Y := by simp
    rw [e1]
    callP valOf_in
    intro r
    xsub
    rw [← e1]
    callP ldV_in
    intro r
    xsub
    rw [e1]
    callP ldV_in
    intro r
    xsub
    iteP
    · intro hp
      rw [List.dropWhile_cons_of_pos (by simpa using hp)] at hk
      have h1 := (List.dropWhile_sublist (l := Y) (fun y => pred x.val y.val)).length_le
      simp only [List.length_cons] at hk
      have he := erase_spec (nf := nf) (l := l) (s := s) (ty := ty) (X := X ++ [x]) (Y := Y) (e := y)
      unfold erase at he
      rw [if_neg hl] at he
      callP he
      intro r
      xsub
      rw [List.dropWhile_cons_of_pos (by simpa using hp)]
      simpa using ih (k := k - 1 - 1 - 1 - 1 - 1 - 13) (by omega)
    · intro hp
      retP
      rw [List.dropWhile_cons_of_neg (by simpa using hp), e1]
      cancel

theorem uniqueLoop_time {pred : V → V → Bool} {X Y : List (Elem V)} (hk : 18 * Y.length + 2 ≤ k) :
    Triple nf (isList l s ty (X ++ Y)) (within k (uniqueLoop l pred (firstN Y s)))
      (fun _ => isList l s ty (X ++ uniqBy (fun a b => pred a.val b.val) Y)) := by
  induction h : Y.length using Nat.strongRecOn generalizing X Y k with
  | _ n ih =>
  cases Y with
  | nil =>
    rw [uniqueLoop]
    callP end_spec
    intro r
    xsub
    rw [if_neg (by simp), uniqBy_nil]
    retP
    cancel
  | cons x Y =>
    simp only [List.length_cons] at hk
    apply list_facts0; intro hl hs0 hs hnd
    have hes := hs x (by simp)
    rw [uniqueLoop]
    callP end_spec
    intro r
    xsub
    rw [if_pos (by simpa using hes), firstN_cons]
    callP nxt_spec
    intro r
    xsub
    iteP
    · intro hne
      callP nxt_spec
      intro r
      xsub
      have h1 := List.dropWhile_sublist (l := Y) (fun y => pred x.val y.val)
      have h2 := h1.length_le
      payW (18 * (Y.length - (Y.dropWhile fun y => pred x.val y.val).length) + 5)
      call (uniqueInner_time (Nat.le_refl _))
      intro _
      callP nxt_spec
      intro r
      xsub
      have ih' := ih _ (by have := h1.length_le; simp at h; omega) (X := X ++ [x]) (Y := Y.dropWhile fun y => pred x.val y.val) (k := k - 1 - 1 - 1 - (18 * (Y.length - (Y.dropWhile fun y => pred x.val y.val).length) + 5) - 1) (by omega) rfl
      simp only [List.append_assoc, List.cons_append, List.nil_append] at ih'
      rw [uniqBy_cons]
      exact ih'
    · intro hne
      cases Y with
      | nil =>
        retP
        rw [uniqBy_cons, List.dropWhile_nil, uniqBy_nil]
        cancel
      | cons y Y => exact absurd (by simpa using hne) (hs y (by simp))

theorem uniqueIf_time {pred : V → V → Bool} (hk : 19 * xs.length + 10 ≤ k) :
    Triple nf (isList l s ty xs) (within k (uniqueIf l (some pred)))
      (fun _ => isList l s ty (uniqBy (fun a b => pred a.val b.val) xs)) := by
  unfold uniqueIf
  callP empty_spec
  intro r
  xsub
  cases xs with
  | nil => simp [uniqBy_nil]; retP; cancel
  | cons e xs =>
    rw [if_neg (by simp)]
    payW ((e :: xs).length + 3)
    call (size_time (Nat.le_refl _))
    intro r
    xsub
    iteP
    · intro h1
      have : xs = [] := by simpa using h1
      subst this
      retP
      rw [uniqBy_cons, List.dropWhile_nil, uniqBy_nil]
      cancel
    · intro _
      dsimp only
      callP begin_spec
      intro r
      xsub
      have := uniqueLoop_time (nf := nf) (l := l) (s := s) (ty := ty) (pred := pred) (X := []) (Y := e :: xs) (k := k - 3 - ((e :: xs).length + 3) - 2) (by simp only [List.length_cons] at *; omega)
      simpa only [List.nil_append] using this

end CC.CList
