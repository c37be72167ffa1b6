import Verif.SList.Rep
/-!
# Specifications of the forward list functions (proof layer)
-/
namespace CC.SList
open CC.Tac
open CC.CList (Elem nodes vals firstN lastN firstN_nil firstN_cons lastN_nil lastN_cons lastN_append_cons firstN_append
  blk_ne ArgVal ltE vals_mergeL Rearr)
variable {V β : Type} {E : Types V} {nf : Prop} {l a s : Addr} {ty : Nat} {xs : List (Elem V)}

theorem popNodeAfter_spec {p q : Addr} {e : Elem V} (hp0 : p ≠ 0) (hps : p ≠ s) (hes : e.node ≠ s) (hea : e.node ≠ a) :
    Triple nf (fld l 1 a ∗ fld l 2 s ∗ fld p 1 e.node ∗ fld e.node 1 q ∗ elt e) (popNodeAfter l p)
      (fun r => ⌜r = q⌝ ∗ fld l 1 a ∗ fld l 2 s ∗ fld p 1 q) := by
  unfold popNodeAfter elt
  apply Triple.ne_zero; intro hl
  focus_atom blk e.node 2
  apply Triple.ne_zero; intro hn
  step
  · simpa using hl
  steps
  rw [if_neg (by simp [hp0, hps])]
  steps
  rw [if_neg (by simp [hn, hes, hea])]
  steps
  call freeV1
  intro _
  call free2
  intro _
  steps
  apply Triple.ret
  cancel

/-- nothing behind the position: returns the end -/
theorem popNodeAfter_end {p : Addr} (hl : l ≠ 0) :
    Triple (V := V) nf (fld l 1 a ∗ fld l 2 s ∗ fld p 1 s) (popNodeAfter l p)
      (fun r => ⌜r = s⌝ ∗ fld l 1 a ∗ fld l 2 s ∗ fld p 1 s) := by
  unfold popNodeAfter
  step
  · simpa using hl
  steps
  apply Triple.ite
  · intro _
    apply Triple.ret
    cancel
  · intro _
    steps
    rw [if_pos (by simp)]
    apply Triple.ret
    cancel

theorem createNode_spec {value : Loc} {v : V} {P : HProp V} {Q : β → HProp V}
    {k : Addr → M V β} (hl : l ≠ 0) (hv : ArgVal (fld l 3 ty ∗ P) value (E ty).dflt v)
    (hfail : ¬ nf → Triple nf (fld l 3 ty ∗ P) (k 0) Q)
    (hok : ∀ e : Elem V, e.val = v → e.node ≠ 0 →
      Triple nf (fld e.node 1 0 ∗ elt e ∗ fld l 3 ty ∗ P) (k e.node) Q) :
    Triple nf (fld l 3 ty ∗ P) (createNode E l value >>= k) Q := by
  unfold createNode
  steps
  · simpa using hl
  step
  apply mallocS2
  · intro h; simp; exact hfail h
  intro n x y hn
  rw [if_neg hn]
  steps
  apply mallocO1
  · intro h
    steps
    rw [if_pos rfl]
    steps
    call free2
    intro _
    steps
    flat
    exact hfail h
  intro b hb
  steps
  rw [if_neg hb]
  rcases hv with ⟨h0, rfl⟩ | ⟨h0, hr⟩
  · rw [if_neg (by simp [h0])]
    steps
    refine Triple.pre ?_ (hok ⟨n, b, _⟩ rfl hn)
    unfold elt
    cancel
  · rw [if_pos h0]
    steps
    apply ldV_reads (v := v)
    · exact hr.of_ent (by cancel)
    steps
    refine Triple.pre ?_ (hok ⟨n, b, _⟩ rfl hn)
    unfold elt
    cancel

theorem beforeBegin_spec : Triple nf (isSList l a s ty xs) (beforeBegin l) (fun r => ⌜r = a⌝ ∗ isSList l a s ty xs) := by
  apply list_facts0; intro f
  simp only [beforeBegin, isSList, hdr]
  steps
  · simpa using f.l0
  steps
  apply Triple.ret
  cancel

theorem begin_spec : Triple nf (isSList l a s ty xs) (begin_ l) (fun r => ⌜r = firstN xs s⌝ ∗ isSList l a s ty xs) := by
  apply list_facts0; intro f
  simp only [begin_, isSList, hdr, path_first]
  steps
  · simpa using f.l0
  steps
  apply Triple.ret
  cancel

theorem end_spec : Triple nf (isSList l a s ty xs) (end_ l) (fun r => ⌜r = s⌝ ∗ isSList l a s ty xs) := by
  apply list_facts0; intro f
  simp only [end_, isSList, hdr]
  steps
  · simpa using f.l0
  steps
  apply Triple.ret
  cancel

theorem empty_spec : Triple nf (isSList l a s ty xs) (empty l) (fun r => ⌜r = xs.isEmpty⌝ ∗ isSList l a s ty xs) := by
  apply list_facts0; intro f
  unfold empty
  rw [if_pos f.l0]
  call begin_spec
  intro b
  xsub
  call end_spec
  intro e
  xsub
  apply Triple.ret
  cancel_core
  cases xs with
  | nil => simp
  | cons e xs => simpa using f.ns e (by simp)

theorem ltype_spec : Triple nf (isSList l a s ty xs) (ltype l) (fun r => ⌜r = ty⌝ ∗ isSList l a s ty xs) := by
  unfold isSList hdr
  steps
  apply Triple.ret
  cancel
theorem lanc_spec : Triple nf (isSList l a s ty xs) (lanc l) (fun r => ⌜r = a⌝ ∗ isSList l a s ty xs) := by
  unfold isSList hdr
  steps
  apply Triple.ret
  cancel
theorem lnode_spec : Triple nf (isSList l a s ty xs) (lnode l) (fun r => ⌜r = s⌝ ∗ isSList l a s ty xs) := by
  unfold isSList hdr
  steps
  apply Triple.ret
  cancel

/-- the successor of a position -/
theorem nxt_spec {X Y : List (Elem V)} :
    Triple nf (isSList l a s ty (X ++ Y)) (nxt (lastN X a)) (fun r => ⌜r = firstN Y s⌝ ∗ isSList l a s ty (X ++ Y)) := by
  rw [isSList, path_split]
  steps
  apply Triple.ret
  cancel

theorem nxt_spec' {X Y : List (Elem V)} {e : Elem V} :
    Triple nf (isSList l a s ty (X ++ e :: Y)) (nxt e.node) (fun r => ⌜r = firstN Y s⌝ ∗ isSList l a s ty (X ++ e :: Y)) := by
  have := nxt_spec (nf := nf) (l := l) (a := a) (s := s) (ty := ty) (X := X ++ [e]) (Y := Y)
  simpa only [lastN_append_cons, lastN_nil, List.append_assoc, List.singleton_append] using this

theorem valOf_spec {e : Elem V} : Triple nf (elt e) (valOf e.node) (fun r => ⌜r = (e.box, 1)⌝ ∗ elt e) := by
  unfold elt valOf
  steps
  apply Triple.ret
  cancel

theorem ldV_elt {e : Elem V} : Triple nf (elt e) (ldV (e.box, 1)) (fun r => ⌜r = e.val⌝ ∗ elt e) := by
  unfold elt
  steps
  apply Triple.ret
  cancel

theorem valOf_in {X Y : List (Elem V)} {e : Elem V} :
    Triple nf (isSList l a s ty (X ++ e :: Y)) (valOf e.node) (fun r => ⌜r = (e.box, 1)⌝ ∗ isSList l a s ty (X ++ e :: Y)) := by
  rw [isSList, elts_append, elts]
  call valOf_spec
  intro r
  xsub
  cancel

theorem ldV_in {X Y : List (Elem V)} {e : Elem V} :
    Triple nf (isSList l a s ty (X ++ e :: Y)) (ldV (e.box, 1)) (fun r => ⌜r = e.val⌝ ∗ isSList l a s ty (X ++ e :: Y)) := by
  rw [isSList, elts_append, elts]
  call ldV_elt
  intro r
  xsub
  cancel

theorem single_spec : Triple nf (isSList l a s ty xs) (single l) (fun r => ⌜xs ≠ [] → r = decide (xs.length = 1)⌝ ∗ isSList l a s ty xs) := by
  unfold single
  call begin_spec
  intro r
  xsub
  apply list_facts0; intro f
  cases xs with
  | nil =>
    rw [firstN_nil]
    rw [show isSList l a s ty ([] : List (Elem V)) = ((blk l 3 ∗ fld l 1 a ∗ fld l 2 s ∗ fld l 3 ty ∗ blk a 2 ∗ fld a 2 0 ∗ blk s 2 ∗
      fld s 1 0 ∗ fld s 2 0) ∗ path a (nodes ([] : List (Elem V)) ++ [s]) ∗ elts []) from rfl]
    steps
    unfold end_
    steps
    · simpa using f.l0
    steps
    apply Triple.ret
    cancel
    exact fun h => absurd rfl h
  | cons e xs =>
    rw [firstN_cons]
    have := nxt_spec' (nf := nf) (l := l) (a := a) (s := s) (ty := ty) (X := []) (Y := xs) (e := e)
    rw [List.nil_append] at this
    call this
    intro r
    xsub
    call end_spec
    intro r
    xsub
    apply Triple.ret
    cancel_core
    intro _
    cases xs with
    | nil => simp
    | cons x xs => simpa using f.ns x (by simp)

/-! ### removal -/

theorem popAfter_spec {X Y : List (Elem V)} {e : Elem V} :
    Triple nf (isSList l a s ty (X ++ e :: Y)) (popNodeAfter l (lastN X a))
      (fun r => ⌜r = firstN Y s⌝ ∗ isSList l a s ty (X ++ Y)) := by
  apply list_facts0; intro f
  have h1 := f.lastN_ne
  simp only [isSList, hdr, path_split_cons, elts_append, elts]
  call (popNodeAfter_spec (l := l) (s := s) (a := a) h1.2 h1.1 (f.ns e (by simp)) (f.na e (by simp)))
  intro r
  xsub
  simp only [path_split]
  cancel

theorem popAfter_end {X : List (Elem V)} :
    Triple nf (isSList l a s ty X) (popNodeAfter l (lastN X a))
      (fun r => ⌜r = s⌝ ∗ isSList l a s ty X) := by
  apply list_facts0; intro f
  simp only [isSList, hdr, path_snoc]
  call (popNodeAfter_end (l := l) (s := s) (a := a) f.l0)
  intro r
  xsub
  cancel

theorem clearLoop_spec {X Y : List (Elem V)} :
    Triple nf (isSList l a s ty (X ++ Y)) (clearLoop l (lastN X a) (firstN Y s) s)
      (fun _ => isSList l a s ty X) := by
  induction Y with
  | nil =>
    rw [clearLoop, if_neg (by simp), List.append_nil]
    apply Triple.ret
    cancel
  | cons e Y ih =>
    apply list_facts0; intro f
    rw [clearLoop, if_pos (by simpa using f.ns e (by simp))]
    call popAfter_spec
    intro r
    xsub
    exact ih

theorem clear_spec : Triple nf (isSList l a s ty xs) (clear l) (fun _ => isSList l a s ty []) := by
  unfold clear
  call empty_spec
  intro b
  xsub
  cases xs with
  | nil => simp; apply Triple.ret; cancel
  | cons e xs =>
    rw [if_neg (by simp)]
    call beforeBegin_spec
    intro b
    xsub
    call begin_spec
    intro b
    xsub
    call end_spec
    intro t
    xsub
    have := clearLoop_spec (nf := nf) (l := l) (a := a) (s := s) (ty := ty) (X := []) (Y := e :: xs)
    exact this

theorem destroy_spec : Triple nf (isSList l a s ty xs) (destroy l) (fun _ => emp) := by
  apply list_facts0; intro f
  unfold destroy
  rw [if_neg f.l0]
  call clear_spec
  intro _
  unfold isSList hdr
  simp [path, elts]
  steps
  call free2
  intro _
  steps
  call free2
  intro _
  steps
  call free3
  intro _
  cancel

theorem destroy_null : Triple (V := V) nf emp (destroy 0) (fun _ => emp) := by
  unfold destroy; simp; apply Triple.ret; cancel

theorem create_spec {P : HProp V} {Q : β → HProp V} {k : Addr → M V β} (hty : ty ≠ 0)
    (hfail : ¬ nf → Triple nf P (k 0) Q)
    (hok : ∀ l a s, l ≠ 0 → Triple nf (isSList l a s ty [] ∗ P) (k l) Q) :
    Triple nf P (create ty >>= k) Q := by
  unfold create
  rw [if_neg hty]
  step
  apply mallocS3
  · intro h; simp; exact hfail h
  intro l x y z hl
  rw [if_neg hl]
  step
  apply mallocS2
  · intro h
    steps
    rw [if_pos rfl]
    step
    call free3
    intro _
    steps
    flat
    exact hfail h
  intro s x y hs
  steps
  rw [if_neg hs]
  step
  apply mallocS2
  · intro h
    steps
    rw [if_pos rfl]
    steps
    call free2
    intro _
    steps
    call free3
    intro _
    steps
    flat
    exact hfail h
  intro a x y ha
  steps
  rw [if_neg ha]
  steps
  refine Triple.pre ?_ (hok l a s hl)
  simp [isSList, hdr, path, elts]
  cancel

theorem front_spec : Triple nf (isSList l a s ty xs) (front l)
    (fun r => ⌜r = match xs.head? with | none => (0, 1) | some e => (e.box, 1)⌝ ∗ isSList l a s ty xs) := by
  unfold front
  call empty_spec
  intro b
  xsub
  cases xs with
  | nil => simp; apply Triple.ret; cancel
  | cons e xs =>
    rw [if_neg (by simp)]
    call begin_spec
    intro b
    xsub
    rw [firstN_cons]
    have := valOf_in (nf := nf) (l := l) (a := a) (s := s) (ty := ty) (X := []) (Y := xs) (e := e)
    exact this

theorem eraseAfter_spec {X Y : List (Elem V)} {e : Elem V} :
    Triple nf (isSList l a s ty (X ++ e :: Y)) (eraseAfter l (lastN X a))
      (fun r => ⌜r = firstN Y s⌝ ∗ isSList l a s ty (X ++ Y)) := by
  apply list_facts0; intro f
  unfold eraseAfter
  step
  · simpa using f.l0
  exact popAfter_spec

theorem eraseAfter_end :
    Triple nf (isSList l a s ty xs) (eraseAfter l (lastN xs a))
      (fun r => ⌜r = s⌝ ∗ isSList l a s ty xs) := by
  apply list_facts0; intro f
  unfold eraseAfter
  step
  · simpa using f.l0
  exact popAfter_end

theorem eraseAfterLoop_spec {X Y Z : List (Elem V)} :
    Triple nf (isSList l a s ty (X ++ (Y ++ Z))) (eraseAfterLoop l (lastN X a) (firstN Y (firstN Z s)) (firstN Z s))
      (fun _ => isSList l a s ty (X ++ Z)) := by
  induction Y with
  | nil =>
    rw [eraseAfterLoop, if_neg (by simp), List.nil_append]
    apply Triple.ret
    cancel
  | cons e Y ih =>
    apply list_facts0; intro f
    have : e.node ≠ firstN Z s := by
      cases Z with
      | nil => exact f.ns e (by simp)
      | cons z Z =>
        intro h
        simp only [firstN_cons] at h
        have := f.nd
        simp [List.nodup_append, h] at this
    rw [eraseAfterLoop, if_pos (by simpa using this), List.cons_append]
    call eraseAfter_spec
    intro r
    xsub
    rw [firstN_append]
    exact ih

theorem eraseAfterRange_spec {X Y Z : List (Elem V)} :
    Triple nf (isSList l a s ty (X ++ Y ++ Z)) (eraseAfterRange l (lastN X a) (firstN Z s))
      (fun r => ⌜r = firstN Z s⌝ ∗ isSList l a s ty (X ++ Z)) := by
  unfold eraseAfterRange iterIncrement
  rw [List.append_assoc]
  call nxt_spec
  intro r
  xsub
  rw [firstN_append]
  call eraseAfterLoop_spec
  intro _
  apply Triple.ret
  cancel

theorem popFront_spec : Triple nf (isSList l a s ty xs) (popFront l) (fun _ => isSList l a s ty xs.tail) := by
  unfold popFront
  call empty_spec
  intro b
  xsub
  cases xs with
  | nil => simp; apply Triple.ret; cancel
  | cons e xs =>
    rw [if_neg (by simp)]
    call lanc_spec
    intro r
    xsub
    have := popAfter_spec (nf := nf) (l := l) (a := a) (s := s) (ty := ty) (X := []) (Y := xs) (e := e)
    rw [List.nil_append, lastN_nil, List.nil_append] at this
    call this
    intro r
    xsub
    apply Triple.ret
    rw [List.tail_cons]
    cancel

/-! ### insertion -/

theorem insertAfter_spec {X Y : List (Elem V)} {value : Loc} {v : V} {R : HProp V}
    (hv0 : value.1 ≠ 0) (hv : Reads (isSList l a s ty (X ++ Y) ∗ R) value v) :
    Triple nf (isSList l a s ty (X ++ Y) ∗ R) (insertAfter E l (lastN X a) value)
      (fun r => ∃ₛ N, ⌜(nf → N ≠ []) ∧ (N = [] ∨ ∃ e, N = [e] ∧ e.val = v) ∧ r = lastN (X ++ N) a⌝
        ∗ isSList l a s ty (X ++ N ++ Y) ∗ R) := by
  apply list_facts (R := R) (ent_refl _); intro f
  unfold insertAfter
  step
  · simpa using f.l0
  step
  · simpa using hv0
  have e1 : (isSList l a s ty (X ++ Y) ∗ R) = (fld l 3 ty ∗ (blk l 3 ∗ fld l 1 a ∗ fld l 2 s ∗ blk a 2 ∗ fld a 2 0 ∗ blk s 2 ∗
      fld s 1 0 ∗ fld s 2 0) ∗
      path a (nodes (X ++ Y) ++ [s]) ∗ elts (X ++ Y) ∗ R) := by
    unfold isSList hdr; ac_rfl
  rw [e1] at hv ⊢
  apply createNode_spec f.l0 (Or.inr ⟨hv0, hv⟩)
  · intro h
    rw [if_pos rfl]
    apply Triple.ret
    xexists []
    simp only [List.append_nil, isSList, hdr]
    cancel
    exact ⟨fun h' => absurd h' h, Or.inl trivial, trivial⟩
  · intro e he hn
    rw [if_neg hn]
    simp only [path_split]
    steps
    apply Triple.ret
    xexists [e]
    simp only [isSList, hdr, List.append_assoc, List.singleton_append, path_split_cons, elts_append, elts]
    cancel
    exact ⟨by simp, Or.inr ⟨e, rfl, he⟩, by rw [lastN_append_cons, lastN_nil]⟩

theorem pushFront_spec {value : Loc} {v : V} {R : HProp V}
    (hv0 : value.1 ≠ 0) (hv : Reads (isSList l a s ty xs ∗ R) value v) :
    Triple nf (isSList l a s ty xs ∗ R) (pushFront E l value)
      (fun _ => ∃ₛ N, ⌜(nf → N ≠ []) ∧ (N = [] ∨ ∃ e, N = [e] ∧ e.val = v)⌝ ∗ isSList l a s ty (N ++ xs) ∗ R) := by
  apply list_facts (R := R) (ent_refl _); intro f
  unfold pushFront
  rw [if_neg (by simp [f.l0, hv0])]
  have e1 : (isSList l a s ty xs ∗ R) = (fld l 3 ty ∗ (blk l 3 ∗ fld l 1 a ∗ fld l 2 s ∗ blk a 2 ∗ fld a 2 0 ∗ blk s 2 ∗
      fld s 1 0 ∗ fld s 2 0) ∗
      path a (nodes xs ++ [s]) ∗ elts xs ∗ R) := by
    unfold isSList hdr; ac_rfl
  rw [e1] at hv ⊢
  apply createNode_spec f.l0 (Or.inr ⟨hv0, hv⟩)
  · intro h
    rw [if_pos rfl]
    apply Triple.ret
    xexists []
    simp only [List.nil_append, isSList, hdr]
    cancel
    exact ⟨fun h' => absurd h' h, Or.inl trivial⟩
  · intro e he hn
    rw [if_neg hn]
    simp only [path_first]
    steps
    apply Triple.ret
    xexists [e]
    simp only [isSList, hdr, List.singleton_append, List.map_cons, List.cons_append, path, path_first, elts]
    cancel
    exact ⟨by simp, Or.inr ⟨e, rfl, he⟩⟩

/-! ### resize -/

theorem resizeSkip_spec {X Y : List (Elem V)} {c : Nat} :
    Triple nf (isSList l a s ty (X ++ Y)) (resizeSkip l (lastN X a) (firstN Y s) c)
      (fun r => ⌜r = (lastN (X ++ Y.take c) a, firstN (Y.drop c) s, c - Y.length)⌝ ∗ isSList l a s ty (X ++ Y)) := by
  induction Y generalizing c X with
  | nil =>
    rw [resizeSkip]
    call lnode_spec
    intro r
    xsub
    rw [if_neg (by simp)]
    apply Triple.ret
    cancel_core
    simp
  | cons e Y ih =>
    apply list_facts0; intro f
    rw [resizeSkip]
    call lnode_spec
    intro r
    xsub
    cases c with
    | zero =>
      rw [if_neg (by simp)]
      apply Triple.ret
      cancel_core
      simp
    | succ c =>
      rw [if_pos ⟨by simpa using f.ns e (by simp), by omega⟩, firstN_cons]
      call nxt_spec'
      intro r
      xsub
      have ih' := ih (X := X ++ [e]) (c := c)
      simp only [List.append_assoc, List.singleton_append, lastN_append_cons, lastN_nil] at ih'
      rw [Nat.add_sub_cancel]
      call ih'
      intro r
      xsub
      cancel_core
      rw [List.take_succ_cons, lastN_append_cons, List.drop_succ_cons, List.length_cons, Nat.add_sub_add_right]

theorem resizeGrow_spec {c : Nat} {value : Loc} {v : V} {R : HProp V}
    (hv : ∀ N, ArgVal (isSList l a s ty (xs ++ N) ∗ R) value (E ty).dflt v) :
    Triple nf (isSList l a s ty xs ∗ R) (resizeGrow E l value (lastN xs a) c)
      (fun _ => ∃ₛ N, ⌜(∃ k, k ≤ c ∧ vals N = List.replicate k v) ∧ (nf → N.length = c)⌝
        ∗ isSList l a s ty (xs ++ N) ∗ R) := by
  induction c generalizing xs with
  | zero =>
    rw [resizeGrow]
    apply Triple.ret
    xexists []
    rw [List.append_nil]
    cancel
    exact ⟨⟨0, by simp⟩, by simp⟩
  | succ c ih =>
    apply list_facts (R := R) (ent_refl _); intro f
    rw [resizeGrow]
    have e1 : (isSList l a s ty xs ∗ R) = (fld l 3 ty ∗ (blk l 3 ∗ fld l 1 a ∗ fld l 2 s ∗ blk a 2 ∗ fld a 2 0 ∗ blk s 2 ∗
      fld s 1 0 ∗ fld s 2 0) ∗
      path a (nodes xs ++ [s]) ∗ elts xs ∗ R) := by
      unfold isSList hdr; ac_rfl
    have hv0 := hv []
    rw [List.append_nil] at hv0
    rw [e1] at hv0 ⊢
    apply createNode_spec f.l0 hv0
    · intro h
      rw [if_pos rfl]
      apply Triple.ret
      xexists []
      rw [List.append_nil, e1]
      cancel
      exact ⟨⟨0, by simp⟩, fun h' => absurd h' h⟩
    · intro e he hn
      rw [if_neg hn, path_snoc]
      steps
      have ih' := ih (xs := xs ++ [e]) (by intro N; rw [List.append_assoc]; exact hv _)
      rw [lastN_append_cons, lastN_nil] at ih'
      refine Triple.call_frame ih' (R := emp) ?_ ?_
      · simp only [isSList, hdr, path_split_cons, elts_append, elts, firstN_nil, pathTail]
        cancel
      · intro _
        xintro N ⟨⟨k, hk, hN⟩, hnf⟩
        xexists (e :: N)
        rw [List.append_assoc]
        cancel
        exact ⟨⟨k+1, by omega, by simp [hN, he, List.replicate_succ]⟩, fun h => by simp [hnf h]⟩

theorem resizeShrink_spec {X Y : List (Elem V)} :
    Triple nf (isSList l a s ty (X ++ Y)) (resizeShrink l (lastN X a) (firstN Y s))
      (fun _ => isSList l a s ty X) := by
  induction Y with
  | nil =>
    rw [resizeShrink]
    call lnode_spec
    intro r
    xsub
    rw [if_neg (by simp), List.append_nil]
    apply Triple.ret
    cancel
  | cons e Y ih =>
    apply list_facts0; intro f
    rw [resizeShrink]
    call lnode_spec
    intro r
    xsub
    rw [if_pos (by simpa using f.ns e (by simp))]
    call popAfter_spec
    intro r
    xsub
    exact ih

theorem resizeWithValue_spec {c : Nat} {value : Loc} {v : V} {R : HProp V}
    (hv : ∀ N, ArgVal (isSList l a s ty (xs ++ N) ∗ R) value (E ty).dflt v) :
    Triple nf (isSList l a s ty xs ∗ R) (resizeWithValue E l c value)
      (fun _ => ∃ₛ N, ⌜(∃ k, k ≤ c - xs.length ∧ vals N = List.replicate k v) ∧ (nf → N.length = c - xs.length)⌝
        ∗ isSList l a s ty (xs.take c ++ N) ∗ R) := by
  apply list_facts (R := R) (ent_refl _); intro f
  unfold resizeWithValue
  rw [if_neg f.l0]
  call lanc_spec
  intro r
  xsub
  have hn := nxt_spec (nf := nf) (l := l) (a := a) (s := s) (ty := ty) (X := []) (Y := xs)
  rw [List.nil_append, lastN_nil] at hn
  call hn
  intro r
  xsub
  have hk := resizeSkip_spec (nf := nf) (l := l) (a := a) (s := s) (ty := ty) (X := []) (Y := xs) (c := c)
  rw [List.nil_append, lastN_nil, List.nil_append] at hk
  call hk
  intro r
  xsub
  by_cases hc : c ≤ xs.length
  · have h0 : c - xs.length = 0 := by omega
    simp only [h0]
    rw [if_neg (by omega)]
    have hs := resizeShrink_spec (nf := nf) (l := l) (a := a) (s := s) (ty := ty) (X := xs.take c) (Y := xs.drop c)
    rw [List.take_append_drop] at hs
    call hs
    intro _
    xexists []
    rw [List.append_nil]
    cancel
    exact ⟨⟨0, by simp⟩, by simp⟩
  · dsimp only
    rw [if_pos (by omega)]
    rw [List.take_of_length_le (by omega)]
    exact resizeGrow_spec hv

end CC.SList
