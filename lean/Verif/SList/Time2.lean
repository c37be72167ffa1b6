import Verif.SList.Time
namespace CC.SList
open CC.Tac
open CC.CList (Elem nodes vals firstN lastN firstN_nil firstN_cons lastN_nil lastN_cons lastN_append_cons firstN_append
  blk_ne ArgVal ltE vals_mergeL Rearr)
variable {V β : Type} {E : Types V} {nf : Prop} {l a s o a2 s2 : Addr} {ty t2 : Nat} {xs ys : List (Elem V)} {k : Nat}

theorem clearLoop_time {X Y : List (Elem V)} (hk : 15 * Y.length ≤ k) :
    Triple nf (isSList l a s ty (X ++ Y)) (within k (clearLoop l (lastN X a) (firstN Y s) s))
      (fun _ => isSList l a s ty X) := by
  induction Y generalizing k with
  | nil =>
    rw [clearLoop, if_neg (by simp), List.append_nil]
    retP
    cancel
  | cons e Y ih =>
    simp only [List.length_cons] at hk
    apply list_facts0; intro f
    rw [clearLoop, if_pos (by simpa using f.ns e (by simp))]
    callP popAfter_spec
    intro r
    xsub
    exact ih (by omega)

theorem clear_time (hk : 15 * xs.length + 7 ≤ k) : Triple nf (isSList l a s ty xs) (within k (clear l)) (fun _ => isSList l a s ty []) := by
  unfold clear
  callP empty_spec
  intro b
  xsub
  cases xs with
  | nil => simp; retP; cancel
  | cons e xs =>
    rw [if_neg (by simp)]
    callP beforeBegin_spec
    intro b
    xsub
    callP begin_spec
    intro b
    xsub
    callP end_spec
    intro t
    xsub
    have := clearLoop_time (k := k - 3 - 1 - 2 - 1) (nf := nf) (l := l) (a := a) (s := s) (ty := ty) (X := []) (Y := e :: xs) (by omega)
    exact this

theorem destroy_time (hk : 15 * xs.length + 17 ≤ k) : Triple nf (isSList l a s ty xs) (within k (destroy l)) (fun _ => emp) := by
  apply list_facts0; intro f
  unfold destroy
  rw [if_neg f.l0]
  payW (15 * xs.length + 7)
  call (clear_time (Nat.le_refl _))
  intro _
  unfold isSList hdr
  simp [path, elts]
  stepsP
  callP free2
  intro _
  stepsP
  callP free2
  intro _
  stepsP
  payT
  call free3
  intro _
  cancel

theorem eraseAfterLoop_time {X Y Z : List (Elem V)} (hk : 15 * Y.length ≤ k) :
    Triple nf (isSList l a s ty (X ++ (Y ++ Z))) (within k (eraseAfterLoop l (lastN X a) (firstN Y (firstN Z s)) (firstN Z s)))
      (fun _ => isSList l a s ty (X ++ Z)) := by
  induction Y generalizing k with
  | nil =>
    rw [eraseAfterLoop, if_neg (by simp), List.nil_append]
    retP
    cancel
  | cons e Y ih =>
    simp only [List.length_cons] at hk
    apply list_facts0; intro f
    have : e.node ≠ firstN Z s := by
      cases Z with
      | nil => exact f.ns e (by simp)
      | cons z Z =>
        intro h
        simp only [firstN_cons] at h
        have := f.nd
        simp [List.nodup_append, h] at this
    rw [eraseAfterLoop, if_pos (by simpa using this), List.cons_append]
    callP eraseAfter_spec
    intro r
    xsub
    rw [firstN_append]
    exact ih (by omega)

theorem eraseAfterRange_time {X Y Z : List (Elem V)} (hk : 15 * Y.length + 1 ≤ k) :
    Triple nf (isSList l a s ty (X ++ Y ++ Z)) (within k (eraseAfterRange l (lastN X a) (firstN Z s)))
      (fun r => ⌜r = firstN Z s⌝ ∗ isSList l a s ty (X ++ Z)) := by
  unfold eraseAfterRange iterIncrement
  rw [List.append_assoc]
  callP nxt_spec
  intro r
  xsub
  rw [firstN_append]
  payW (15 * Y.length)
  call (eraseAfterLoop_time (Nat.le_refl _))
  intro _
  retP
  cancel

theorem resizeSkip_time {X Y : List (Elem V)} {c : Nat} (hk : 2 * Y.length + 1 ≤ k) :
    Triple nf (isSList l a s ty (X ++ Y)) (within k (resizeSkip l (lastN X a) (firstN Y s) c))
      (fun r => ⌜r = (lastN (X ++ Y.take c) a, firstN (Y.drop c) s, c - Y.length)⌝ ∗ isSList l a s ty (X ++ Y)) := by
  induction Y generalizing c X k with
  | nil =>
    rw [resizeSkip]
    callP lnode_spec
    intro r
    xsub
    rw [if_neg (by simp)]
    retP
    cancel_core
    simp
  | cons e Y ih =>
    simp only [List.length_cons] at hk
    apply list_facts0; intro f
    rw [resizeSkip]
    callP lnode_spec
    intro r
    xsub
    cases c with
    | zero =>
      rw [if_neg (by simp)]
      retP
      cancel_core
      simp
    | succ c =>
      rw [if_pos ⟨by simpa using f.ns e (by simp), by omega⟩, firstN_cons]
      callP nxt_spec'
      intro r
      xsub
      have ih' := ih (X := X ++ [e]) (c := c) (k := k - 1 - 1) (by omega)
      simp only [List.append_assoc, List.singleton_append, lastN_append_cons, lastN_nil] at ih'
      rw [Nat.add_sub_cancel]
      call ih'
      intro r
      xsub
      cancel_core
      rw [List.take_succ_cons, lastN_append_cons, List.drop_succ_cons, List.length_cons, Nat.add_sub_add_right]

theorem resizeGrow_cost {c : Nat} {value : Loc} {p : Addr} : Cost (resizeGrow E l value p c) (11 * c) := by
  induction c generalizing p with
  | zero => rw [resizeGrow]; exact Cost.pure _
  | succ c ih =>
    rw [resizeGrow]
    refine (Cost.bind (c := 8) (d := 3 + 11 * c) (by cost) fun n => ?_).mono (by omega)
    split
    · exact (Cost.pure _).mono (by omega)
    · refine (Cost.bind (c := 1) (d := 2 + 11 * c) (by cost) fun _ => ?_).mono (by omega)
      refine (Cost.bind (c := 1) (d := 1 + 11 * c) (by cost) fun _ => ?_).mono (by omega)
      exact (Cost.bind (c := 1) (d := 11 * c) (by cost) fun _ => ih).mono (by omega)

theorem resizeShrink_time {X Y : List (Elem V)} (hk : 16 * Y.length + 1 ≤ k) :
    Triple nf (isSList l a s ty (X ++ Y)) (within k (resizeShrink l (lastN X a) (firstN Y s)))
      (fun _ => isSList l a s ty X) := by
  induction Y generalizing k with
  | nil =>
    rw [resizeShrink]
    callP lnode_spec
    intro r
    xsub
    rw [if_neg (by simp), List.append_nil]
    retP
    cancel
  | cons e Y ih =>
    simp only [List.length_cons] at hk
    apply list_facts0; intro f
    rw [resizeShrink]
    callP lnode_spec
    intro r
    xsub
    rw [if_pos (by simpa using f.ns e (by simp))]
    callP popAfter_spec
    intro r
    xsub
    exact ih (by omega)

theorem resizeWithValue_time {c : Nat} {value : Loc} {v : V} {R : HProp V}
    (hv : ∀ N, ArgVal (isSList l a s ty (xs ++ N) ∗ R) value (E ty).dflt v) (hk : 11 * c + 18 * xs.length + 4 ≤ k) :
    Triple nf (isSList l a s ty xs ∗ R) (within k (resizeWithValue E l c value))
      (fun _ => ∃ₛ N, ⌜(∃ k, k ≤ c - xs.length ∧ vals N = List.replicate k v) ∧ (nf → N.length = c - xs.length)⌝
        ∗ isSList l a s ty (xs.take c ++ N) ∗ R) := by
  apply list_facts (R := R) (ent_refl _); intro f
  unfold resizeWithValue
  rw [if_neg f.l0]
  callP lanc_spec
  intro r
  xsub
  have hn := nxt_spec (nf := nf) (l := l) (a := a) (s := s) (ty := ty) (X := []) (Y := xs)
  rw [List.nil_append, lastN_nil] at hn
  callP hn
  intro r
  xsub
  have hk2 := resizeSkip_time (k := 2 * xs.length + 1) (nf := nf) (l := l) (a := a) (s := s) (ty := ty) (X := []) (Y := xs) (c := c) (Nat.le_refl _)
  rw [List.nil_append, lastN_nil, List.nil_append] at hk2
  payW (2 * xs.length + 1)
  call hk2
  intro r
  xsub
  by_cases hc : c ≤ xs.length
  · have h0 : c - xs.length = 0 := by omega
    simp only [h0]
    rw [if_neg (by omega)]
    have hs := resizeShrink_time (k := k - 1 - 1 - (2 * xs.length + 1)) (nf := nf) (l := l) (a := a) (s := s) (ty := ty) (X := xs.take c) (Y := xs.drop c) (by rw [List.length_drop]; omega)
    rw [List.take_append_drop] at hs
    call hs
    intro _
    xexists []
    rw [List.append_nil]
    cancel
    exact ⟨⟨0, by simp⟩, by simp⟩
  · dsimp only
    rw [if_pos (by omega)]
    rw [List.take_of_length_le (by omega)]
    exact Triple.le (within_cost resizeGrow_cost (by omega)) (resizeGrow_spec hv)

theorem copyLoop_time {X Y : List (Elem V)} (hk : 14 * Y.length + 1 ≤ k) :
    Triple nf (isSList l a s ty xs ∗ isSList o a2 s2 t2 (X ++ Y)) (within k (copyLoop E l (lastN xs a) o (firstN Y s2)))
      (fun _ => ∃ₛ N, ⌜(vals N).Sublist (vals Y) ∧ (nf → vals N = vals Y)⌝ ∗ isSList l a s ty (xs ++ N) ∗
        isSList o a2 s2 t2 (X ++ Y)) := by
  induction Y generalizing xs X k with
  | nil =>
    rw [copyLoop]
    callP (end_spec (l := o))
    intro e
    xsub
    rw [firstN_nil, if_neg (by simp)]
    retP
    xexists []
    simp only [List.append_nil]
    cancel
    simp
  | cons e Y ih =>
    simp only [List.length_cons] at hk
    apply list_facts (l := o) (R := isSList l a s ty xs) (by cancel); intro f
    rw [copyLoop]
    callP (end_spec (l := o))
    intro r
    xsub
    have hmem : e ∈ X ++ e :: Y := List.mem_append_right _ List.mem_cons_self
    rw [if_pos (by rw [firstN_cons]; exact f.ns e hmem), firstN_cons]
    callP (valOf_in (l := o))
    intro r
    xsub
    apply Triple.fact (p := e.box ≠ 0)
    · intro h hh
      refine elt_box_ne (l := o) (a := a2) (s := s2) (ty := t2) hmem (h := h) (R := isSList l a s ty xs) ?_
      exact (show _ ⊢ₛ _ by cancel) _ hh
    intro hb
    have hpb := insertAfter_spec (E := E) (nf := nf) (l := l) (a := a) (s := s) (ty := ty) (X := xs) (Y := [])
      (R := isSList o a2 s2 t2 (X ++ e :: Y)) (value := (e.box, 1)) (v := e.val) hb
      ((reads_in hmem).right)
    simp only [List.append_nil] at hpb
    callP hpb
    intro r
    xintro N ⟨hN1, hN2, rfl⟩
    callP (nxt_spec' (l := o))
    intro r
    xsub
    have ih' := ih (xs := xs ++ N) (X := X ++ [e]) (k := k - 1 - 1 - 11 - 1) (by omega)
    simp only [List.append_assoc, List.singleton_append] at ih'
    call ih'
    intro _
    xintro N' ⟨h1, h2⟩
    xexists (N ++ N')
    cancel
    constructor
    · rcases hN2 with rfl | ⟨e', rfl, he'⟩
      · simpa using h1.cons _
      · simpa [he'] using h1
    · intro hnf
      rcases hN2 with rfl | ⟨e', rfl, he'⟩
      · exact absurd rfl (hN1 hnf)
      · simpa [he'] using h2 hnf

theorem copy_time (hty : ty ≠ 0) (hk : 14 * xs.length + 23 ≤ k) :
    Triple nf (isSList l a s ty xs) (within k (copy E l))
      (fun r => isSList l a s ty xs ∗ ∃ₛ a' s' N, ⌜(r = 0 → ¬ nf) ∧ (vals N).Sublist (vals xs) ∧ (nf → vals N = vals xs)⌝ ∗
        if r = 0 then emp else isSList r a' s' ty N) := by
  apply list_facts0; intro f
  unfold copy
  rw [if_neg f.l0]
  callP ltype_spec
  intro r
  xsub
  pay
  apply create_spec hty
  · intro h
    rw [if_pos rfl]
    retP
    simp only [if_true, sep_emp]
    xexists 0, 0, []
    cancel
    simp [h]
  · intro l' a' s' hl'
    rw [if_neg hl']
    callP (beforeBegin_spec (l := l'))
    intro r
    xsub
    callP (begin_spec (l := l))
    intro r
    xsub
    have hc := copyLoop_time (k := 14 * xs.length + 1) (nf := nf) (E := E) (X := []) (Y := xs) (o := l) (a2 := a) (s2 := s) (t2 := ty) (xs := []) (l := l') (a := a') (s := s') (ty := ty) (Nat.le_refl _)
    simp only [List.nil_append, lastN_nil] at hc
    payW (14 * xs.length + 1)
    call hc
    intro _
    xintro N hN
    retP
    simp only [if_neg hl']
    xexists a', s', N
    cancel
    exact ⟨fun h => absurd h hl', hN⟩

theorem assign_time (hk : 15 * xs.length + 14 * ys.length + 13 ≤ k) :
    Triple nf (isSList l a s ty xs ∗ isSList o a2 s2 t2 ys) (within k (assign E l o))
      (fun r => ⌜r = l⌝ ∗ isSList o a2 s2 t2 ys ∗ ∃ₛ N, ⌜(vals N).Sublist (vals ys) ∧ (nf → vals N = vals ys)⌝ ∗
        isSList l a s t2 N) := by
  apply list_facts (R := isSList o a2 s2 t2 ys) (by cancel); intro f
  apply list_facts (l := o) (R := isSList l a s ty xs) (by cancel); intro f2
  apply Triple.fact (p := l ≠ o) (fun h hh => two_ne ⟨h, hh⟩)
  intro hne
  unfold assign
  rw [if_neg (by simp [f.l0, f2.l0]), if_pos hne]
  payW (15 * xs.length + 7)
  call (clear_time (l := l) (Nat.le_refl _))
  intro _
  callP (ltype_spec (l := o))
  intro r
  xsub
  rw [show isSList l a s ty ([] : List (Elem V)) = ((blk l 3 ∗ fld l 1 a ∗ fld l 2 s ∗ fld l 3 ty ∗ blk a 2 ∗ fld a 2 0 ∗ blk s 2 ∗ fld s 1 0 ∗ fld s 2 0) ∗
    path a (nodes ([] : List (Elem V)) ++ [s]) ∗ elts []) from rfl]
  stepsP
  refine Triple.pre (P' := isSList l a s t2 [] ∗ isSList o a2 s2 t2 ys) (by unfold isSList hdr; cancel) ?_
  callP (beforeBegin_spec (l := l))
  intro r
  xsub
  callP (begin_spec (l := o))
  intro r
  xsub
  have hc := copyLoop_time (k := 14 * ys.length + 1) (nf := nf) (E := E) (X := []) (Y := ys) (o := o) (a2 := a2) (s2 := s2) (t2 := t2) (xs := []) (l := l) (a := a) (s := s) (ty := t2) (Nat.le_refl _)
  simp only [List.nil_append, lastN_nil] at hc
  payW (14 * ys.length + 1)
  call hc
  intro _
  xintro N hN
  retP
  xexists N
  cancel

theorem createFromLoop_cost {v : Loc} {n : Nat} {p : Addr} : Cost (createFromLoop E l p v n) (11 * n) := by
  induction n generalizing v p with
  | zero => rw [createFromLoop]; exact Cost.pure _
  | succ n ih =>
    rw [createFromLoop]
    exact (Cost.bind (c := 11) (d := 11 * n) (by cost) fun c => ih).mono (by omega)

theorem createFrom_cost {v : Loc} {n : Nat} : Cost (createFrom E ty v n) (11 * n + 19) := by
  unfold createFrom
  split
  · exact (Cost.pure _).mono (by omega)
  · refine (Cost.bind (c := 18) (d := 11 * n + 1) (by cost) fun c => ?_).mono (by omega)
    split
    · exact (Cost.pure _).mono (by omega)
    · refine (Cost.bind (c := 1) (d := 11 * n) (by cost) fun _ => ?_).mono (by omega)
      exact (Cost.bind (d := 0) createFromLoop_cost fun _ => Cost.pure _).mono (by omega)

theorem findPrev_time {p t : Addr} {M : List (Elem V)} (hM : ∀ e ∈ M, e.node ≠ t) (hk : M.length + 1 ≤ k) :
    Triple (V := V) nf (path p (nodes M ++ [t])) (within k (findPrev p t)) (fun r => ⌜r = lastN M p⌝ ∗ path p (nodes M ++ [t])) := by
  induction M generalizing p k with
  | nil =>
    rw [findPrev]
    simp only [List.map_nil, List.nil_append, path]
    stepsP
    rw [if_neg (by simp)]
    retP
    cancel
  | cons e M ih =>
    simp only [List.length_cons] at hk
    rw [findPrev]
    simp only [List.map_cons, List.cons_append, path]
    stepsP
    rw [if_pos (hM e (by simp))]
    call (ih (p := e.node) (fun e he => hM e (by simp [he])) (by omega))
    intro r
    xsub
    cancel
    rw [lastN_cons]

theorem transfer_time {pos px first last : Addr} {m : Elem V} {M : List (Elem V)} (h1 : pos ≠ first) (h2 : first ≠ last)
    (hM : ∀ e ∈ m :: M, e.node ≠ last) (hk : M.length + 8 ≤ k) :
    Triple (V := V) nf (fld pos 1 px ∗ fld first 1 m.node ∗ path m.node (nodes M) ∗ fld (lastN M m.node) 1 last) (within k (transfer pos first last))
      (fun _ => fld pos 1 m.node ∗ path m.node (nodes M) ∗ fld (lastN M m.node) 1 px ∗ fld first 1 last) := by
  unfold transfer
  rw [if_pos ⟨h1, h2⟩]
  stepsP
  rw [if_pos (hM m (by simp))]
  stepsP
  payW (M.length + 1)
  refine Triple.bind_frame (findPrev_time (nf := nf) (p := m.node) (t := last) (M := M) (fun e he => hM e (by simp [he])) (Nat.le_refl _)) (R := fld pos 1 px ∗ fld first 1 m.node) ?_ ?_
  · rw [path_snoc]; cancel
  intro r
  xsub
  rw [path_snoc]
  stepsP
  retP
  cancel

theorem transfer_empty_time {pos first last : Addr} (hk : 1 ≤ k) :
    Triple (V := V) nf (fld first 1 last) (within k (transfer pos first last)) (fun _ => fld first 1 last) := by
  unfold transfer
  iteP
  · intro _
    stepsP
    rw [if_neg (by simp)]
    retP
    cancel
  · intro _
    retP
    cancel

theorem transfer_lists_time {X Y Z M W : List (Elem V)} (hk : M.length + 7 ≤ k) :
    Triple nf (isSList l a s ty (X ++ Y) ∗ isSList o a2 s2 t2 (Z ++ M ++ W))
      (within k (transfer (lastN X a) (lastN Z a2) (firstN W s2)))
      (fun _ => isSList l a s ty (X ++ M ++ Y) ∗ isSList o a2 s2 t2 (Z ++ W)) := by
  cases M with
  | nil =>
    simp only [List.append_nil]
    rw [show isSList o a2 s2 t2 (Z ++ W) = (hdr o a2 s2 t2 ∗ (path a2 (nodes Z) ∗ fld (lastN Z a2) 1 (firstN W s2)
        ∗ pathTail W s2) ∗ elts (Z ++ W)) by rw [isSList, path_split]]
    call (transfer_empty_time (by omega))
    intro _
    cancel
  | cons m M =>
    apply two_lists_ne (X := X) (Y := Y) (Z := Z) (W := m :: M ++ W) (R := emp) (l := l) (a := a) (s := s) (ty := ty)
      (o := o) (a2 := a2) (s2 := s2) (t2 := t2) (by rw [← List.append_assoc]; cancel)
    intro h1
    apply list_facts (l := o) (R := isSList l a s ty (X ++ Y)) (by cancel); intro f
    have h2 := f.lastN_ne_firstN
    have h3 := f.mid_ne_firstN
    have e1 : isSList o a2 s2 t2 (Z ++ m :: M ++ W) = (hdr o a2 s2 t2 ∗ (path a2 (nodes Z) ∗ fld (lastN Z a2) 1 m.node ∗
        (path m.node (nodes M) ∗ fld (lastN M m.node) 1 (firstN W s2)) ∗ pathTail W s2) ∗ elts Z ∗ (elt m ∗ elts M) ∗ elts W) := by
      rw [isSList, List.append_assoc, List.cons_append, path_split, elts_append, elts, elts_append, pathTail, firstN_cons, path_split]
      ac_rfl
    have e2 : isSList o a2 s2 t2 (Z ++ W) = (hdr o a2 s2 t2 ∗ (path a2 (nodes Z) ∗ fld (lastN Z a2) 1 (firstN W s2)
        ∗ pathTail W s2) ∗ elts Z ∗ elts W) := by
      rw [isSList, path_split, elts_append]
    have e3 : isSList l a s ty (X ++ Y) = (hdr l a s ty ∗ (path a (nodes X) ∗ fld (lastN X a) 1 (firstN Y s)
        ∗ pathTail Y s) ∗ elts X ∗ elts Y) := by
      rw [isSList, path_split, elts_append]
    have e4 : isSList l a s ty (X ++ m :: M ++ Y) = (hdr l a s ty ∗ (path a (nodes X) ∗ fld (lastN X a) 1 m.node ∗
        (path m.node (nodes M) ∗ fld (lastN M m.node) 1 (firstN Y s)) ∗ pathTail Y s) ∗ elts X ∗ (elt m ∗ elts M) ∗ elts Y) := by
      rw [isSList, List.append_assoc, List.cons_append, path_split, elts_append, elts, elts_append, pathTail, firstN_cons, path_split]
      ac_rfl
    rw [e1, e2, e3, e4]
    call (transfer_time (nf := nf) (M := M) (px := firstN Y s) h1 h2 h3 (by simp only [List.length_cons] at hk; omega))
    intro _
    cancel

theorem spliceAfterRange_time {X Y Z M W : List (Elem V)} (hty : isSame ty t2 = true) (hk : M.length + 12 ≤ k) :
    Triple nf (isSList l a s ty (X ++ Y) ∗ isSList o a2 s2 t2 (Z ++ M ++ W))
      (within k (spliceAfterRange l (lastN X a) o (lastN Z a2) (firstN W s2)))
      (fun _ => isSList l a s ty (X ++ M ++ Y) ∗ isSList o a2 s2 t2 (Z ++ W)) := by
  unfold spliceAfterRange
  callP spliceGuard_spec
  intro r
  xsub
  iteP
  · intro h
    have : Z ++ M ++ W = [] := by simpa [hty] using h
    simp only [List.append_eq_nil_iff] at this
    obtain ⟨⟨rfl, rfl⟩, rfl⟩ := this
    retP
    simp only [List.append_nil]
    cancel
  · intro _
    exact transfer_lists_time (by omega)

theorem spliceAfter_time {X Y : List (Elem V)} (hty : isSame ty t2 = true) (hk : ys.length + 14 ≤ k) :
    Triple nf (isSList l a s ty (X ++ Y) ∗ isSList o a2 s2 t2 ys)
      (within k (spliceAfter l (lastN X a) o))
      (fun _ => isSList l a s ty (X ++ ys ++ Y) ∗ isSList o a2 s2 t2 []) := by
  unfold spliceAfter
  callP spliceGuard_spec
  intro r
  xsub
  iteP
  · intro h
    have : ys = [] := by simpa [hty] using h
    subst this
    retP
    simp only [List.append_nil]
    cancel
  · intro _
    callP (beforeBegin_spec (l := o))
    intro r
    xsub
    callP (end_spec (l := o))
    intro r
    xsub
    have := transfer_lists_time (k := k - 5 - 1 - 1) (nf := nf) (l := l) (a := a) (s := s) (ty := ty) (o := o) (a2 := a2) (s2 := s2) (t2 := t2) (X := X) (Y := Y) (Z := []) (M := ys) (W := []) (by omega)
    simp only [List.append_nil, List.nil_append, firstN_nil, lastN_nil] at this
    call this
    intro _
    cancel

theorem spliceAfterFrom_time {X Y Z M : List (Elem V)} (hty : isSame ty t2 = true) (hk : M.length + 13 ≤ k) :
    Triple nf (isSList l a s ty (X ++ Y) ∗ isSList o a2 s2 t2 (Z ++ M))
      (within k (spliceAfterFrom l (lastN X a) o (lastN Z a2)))
      (fun _ => isSList l a s ty (X ++ M ++ Y) ∗ isSList o a2 s2 t2 Z) := by
  unfold spliceAfterFrom
  callP spliceGuard_spec
  intro r
  xsub
  iteP
  · intro h
    have : Z ++ M = [] := by simpa [hty] using h
    simp only [List.append_eq_nil_iff] at this
    obtain ⟨rfl, rfl⟩ := this
    retP
    simp only [List.append_nil]
    cancel
  · intro _
    callP (end_spec (l := o))
    intro r
    xsub
    have := transfer_lists_time (k := k - 5 - 1) (nf := nf) (l := l) (a := a) (s := s) (ty := ty) (o := o) (a2 := a2) (s2 := s2) (t2 := t2) (X := X) (Y := Y) (Z := Z) (M := M) (W := []) (by omega)
    simp only [List.append_nil, firstN_nil] at this
    call this
    intro _
    cancel

theorem mergeLoop_time {comp : V → V → Bool} {A B C : List (Elem V)} (hk : 9 * B.length + 27 * C.length + 2 ≤ k) :
    Triple nf (isSList l a s ty (A ++ B) ∗ isSList o a2 s2 t2 C)
      (within k (mergeLoop comp (lastN A a) s a2 s2))
      (fun r => ∃ₛ D B' C', ⌜mergeS (ltE comp) B C = D ++ mergeS (ltE comp) B' C' ∧ (B' = [] ∨ C' = []) ∧ r = lastN (A ++ D) a⌝ ∗
        isSList l a s ty (A ++ D ++ B') ∗ isSList o a2 s2 t2 C') := by
  induction hn : B.length + 2 * C.length using Nat.strongRecOn generalizing A B C k with
  | _ n ih =>
  cases B with
  | nil =>
    rw [mergeLoop]
    callP (nxt_spec (l := l))
    intro r
    xsub
    rw [if_neg (by simp)]
    retP
    xexists [], [], C
    simp only [List.append_nil, List.nil_append]
    cancel
    exact ⟨trivial, by simp, trivial⟩
  | cons b B =>
    cases C with
    | nil =>
      apply list_facts (l := l) (R := isSList o a2 s2 t2 []) (by cancel); intro f
      rw [mergeLoop]
      callP (nxt_spec (l := l))
      intro r
      xsub
      rw [if_pos (by rw [firstN_cons]; exact f.ns b (List.mem_append_right _ List.mem_cons_self))]
      have hn := nxt_spec (nf := nf) (l := o) (a := a2) (s := s2) (ty := t2) (X := []) (Y := ([] : List (Elem V)))
      simp only [List.nil_append, lastN_nil] at hn
      callP hn
      intro r
      xsub
      rw [if_neg (by simp)]
      retP
      xexists [], b :: B, []
      simp only [List.append_nil, List.nil_append]
      cancel
      exact ⟨trivial, by simp, trivial⟩
    | cons c C =>
      simp only [List.length_cons] at hk
      apply list_facts (l := l) (R := isSList o a2 s2 t2 (c :: C)) (by cancel); intro f
      apply list_facts (l := o) (R := isSList l a s ty (A ++ b :: B)) (by cancel); intro f2
      have hnx := nxt_spec (nf := nf) (l := o) (a := a2) (s := s2) (ty := t2) (X := []) (Y := c :: C)
      simp only [List.nil_append, lastN_nil, firstN_cons] at hnx
      rw [mergeLoop]
      callP (nxt_spec (l := l))
      intro r
      xsub
      rw [firstN_cons, if_pos (f.ns b (List.mem_append_right _ List.mem_cons_self))]
      callP hnx
      intro r
      xsub
      rw [if_pos (f2.ns c List.mem_cons_self)]
      callP hnx
      intro r
      xsub
      rw [← List.nil_append (c :: C)]
      callP (valOf_in (l := o))
      intro r
      xsub
      callP (nxt_spec (l := l))
      intro r
      xsub
      rw [firstN_cons]
      callP (valOf_in (l := l))
      intro r
      xsub
      callP (ldV_in (l := o))
      intro r
      xsub
      callP (ldV_in (l := l))
      intro r
      xsub
      rw [List.nil_append, mergeS_cons]
      split
      · callP hnx
        intro r
        xsub
        rw [← List.nil_append (c :: C)]
        callP (nxt_spec' (l := o))
        intro r
        xsub
        have ht := transfer_lists_time (k := 8) (nf := nf) (l := l) (a := a) (s := s) (ty := ty) (o := o) (a2 := a2) (s2 := s2) (t2 := t2) (X := A) (Y := b :: B) (Z := []) (M := [c]) (W := C) (by simp)
        simp only [List.nil_append, lastN_nil, List.append_assoc, List.singleton_append] at ht
        rw [List.nil_append]
        payW 8
        call ht
        intro _
        rw [sep_emp]
        exact ih _ (by simp at hn ⊢; omega) (A := A) (B := c :: b :: B) (C := C) (k := k - 1 - 1 - 1 - 1 - 1 - 1 - 1 - 1 - 1 - 1 - 8) (by simp only [List.length_cons]; omega) rfl
      · callP (nxt_spec (l := l))
        intro r
        xsub
        rw [firstN_cons]
        have ih := ih _ (by simp at hn ⊢; omega) (A := A ++ [b]) (B := B) (C := c :: C) (k := k - 1 - 1 - 1 - 1 - 1 - 1 - 1 - 1 - 1) (by simp only [List.length_cons]; omega) rfl
        simp only [lastN_append_cons, lastN_nil, List.append_assoc, List.singleton_append, List.cons_append, List.nil_append] at ih
        call ih
        intro r
        xintro D B' C' ⟨h1, h2, h3⟩
        xexists b :: D, B', C'
        simp only [List.append_assoc, List.singleton_append, List.cons_append]
        cancel
        exact ⟨by rw [h1], h2, by rw [h3, lastN_append_cons]⟩

theorem mergeBy_time {comp : V → V → Bool} (hty : isSame ty t2 = true) (hk : 10 * xs.length + 28 * ys.length + 19 ≤ k) :
    Triple nf (isSList l a s ty xs ∗ isSList o a2 s2 t2 ys) (within k (mergeBy l o (some comp)))
      (fun _ => isSList l a s ty (mergeS (ltE comp) xs ys) ∗ isSList o a2 s2 t2 []) := by
  unfold mergeBy
  dsimp only
  callP spliceGuard_spec
  intro r
  xsub
  iteP
  · intro h
    have : ys = [] := by simpa [hty] using h
    subst this
    retP
    rw [mergeS_nil_right]
    cancel
  · intro _
    callP (beforeBegin_spec (l := l))
    intro r
    xsub
    callP (end_spec (l := l))
    intro r
    xsub
    callP (beforeBegin_spec (l := o))
    intro r
    xsub
    callP (end_spec (l := o))
    intro r
    xsub
    have := mergeLoop_time (k := 9 * xs.length + 27 * ys.length + 2) (nf := nf) (l := l) (a := a) (s := s) (ty := ty) (o := o) (a2 := a2) (s2 := s2) (t2 := t2) (comp := comp) (A := []) (B := xs) (C := ys) (Nat.le_refl _)
    simp only [List.nil_append, lastN_nil] at this
    payW (9 * xs.length + 27 * ys.length + 2)
    call this
    intro r
    xintro D B' C' ⟨h1, h2, rfl⟩
    rw [h1]
    have hnx := nxt_spec (nf := nf) (l := o) (a := a2) (s := s2) (ty := t2) (X := []) (Y := C')
    simp only [List.nil_append, lastN_nil] at hnx
    callP hnx
    intro r
    xsub
    apply list_facts (l := o) (R := isSList l a s ty (D ++ B')) (by cancel); intro f2
    cases C' with
    | nil =>
      rw [if_neg (by simp), mergeS_nil_right]
      retP
      cancel
    | cons c C' =>
      rw [if_pos (by rw [firstN_cons]; exact f2.ns c List.mem_cons_self)]
      obtain rfl : B' = [] := by simpa using h2
      rw [mergeS_nil_left, List.append_nil]
      have ht := transfer_lists_time (k := xs.length + ys.length + 7) (nf := nf) (l := l) (a := a) (s := s) (ty := ty) (o := o) (a2 := a2) (s2 := s2) (t2 := t2) (X := D) (Y := []) (Z := []) (M := c :: C') (W := []) (by have := congrArg List.length h1; simp only [List.length_append, (mergeS_perm _ _ _).length_eq] at this; omega)
      simp only [List.nil_append, firstN_nil, lastN_nil, List.append_nil] at ht
      refine Triple.le (within_mono (k := xs.length + ys.length + 7) (by omega)) ?_
      call ht
      intro _
      cancel

theorem merge_time (hty : isSame ty t2 = true) (hk : 10 * xs.length + 28 * ys.length + 20 ≤ k) :
    Triple nf (isSList l a s ty xs ∗ isSList o a2 s2 t2 ys) (within k (merge E l o))
      (fun _ => isSList l a s ty (mergeS (ltE (E ty).less) xs ys) ∗ isSList o a2 s2 t2 []) := by
  apply list_facts (l := l) (R := isSList o a2 s2 t2 ys) (by cancel); intro f
  unfold merge
  rw [if_neg f.l0]
  callP (ltype_spec (l := l))
  intro r
  xsub
  exact mergeBy_time hty (by omega)

theorem removeIfLoop_time {pred : V → Bool} {X Y : List (Elem V)} (hk : 17 * Y.length ≤ k) :
    Triple nf (isSList l a s ty (X ++ Y)) (within k (removeIfLoop l pred (lastN X a) (firstN Y s) s))
      (fun _ => isSList l a s ty (X ++ Y.filter fun e => !pred e.val)) := by
  induction Y generalizing X k with
  | nil =>
    rw [removeIfLoop, if_neg (by simp)]
    retP
    simp only [List.filter_nil]
    cancel
  | cons e Y ih =>
    simp only [List.length_cons] at hk
    apply list_facts0; intro f
    have hes := f.ns e (List.mem_append_right _ List.mem_cons_self)
    rw [removeIfLoop, if_pos ⟨by simpa using hes, f.lastN_ne.1⟩, firstN_cons]
    callP valOf_in
    intro r
    xsub
    callP ldV_in
    intro r
    xsub
    iteP
    · intro hp
      callP popAfter_spec
      intro r
      xsub
      rw [List.filter_cons_of_neg (by simp [hp])]
      exact ih (by omega)
    · intro hp
      callP nxt_spec
      intro r
      xsub
      rw [firstN_cons]
      callP nxt_spec'
      intro r
      xsub
      have ih' := ih (X := X ++ [e]) (k := k - 1 - 1 - 1 - 1) (by omega)
      simp only [List.append_assoc, List.cons_append, List.nil_append, lastN_append_cons, lastN_nil] at ih'
      rw [List.filter_cons_of_pos (by simp [hp])]
      exact ih'

theorem removeIf_time {pred : V → Bool} (hk : 17 * xs.length + 6 ≤ k) :
    Triple nf (isSList l a s ty xs) (within k (removeIf l pred)) (fun _ => isSList l a s ty (xs.filter fun e => !pred e.val)) := by
  unfold removeIf
  callP empty_spec
  intro r
  xsub
  cases xs with
  | nil => simp; retP; cancel
  | cons e xs =>
    rw [if_neg (by simp)]
    callP beforeBegin_spec
    intro r
    xsub
    have hnx := nxt_spec (nf := nf) (l := l) (a := a) (s := s) (ty := ty) (X := []) (Y := e :: xs)
    simp only [List.nil_append, lastN_nil] at hnx
    callP hnx
    intro r
    xsub
    callP end_spec
    intro r
    xsub
    have := removeIfLoop_time (k := k - 3 - 1 - 1 - 1) (nf := nf) (l := l) (a := a) (s := s) (ty := ty) (pred := pred) (X := []) (Y := e :: xs) (by omega)
    simpa only [List.nil_append, lastN_nil] using this

theorem removeLoop_time {value : Loc} {v : V} {R : HProp V} (hv : Reads R value v) {X Y : List (Elem V)} (hk : 19 * Y.length ≤ k) :
    Triple nf (isSList l a s ty (X ++ Y) ∗ R) (within k (removeLoop E l value (lastN X a) (firstN Y s) s))
      (fun _ => isSList l a s ty (X ++ Y.filter fun e => !(E ty).equal e.val v) ∗ R) := by
  induction Y generalizing X k with
  | nil =>
    rw [removeLoop, if_neg (by simp)]
    retP
    simp only [List.filter_nil]
    cancel
  | cons e Y ih =>
    simp only [List.length_cons] at hk
    apply list_facts (l := l) (R := R) (by cancel); intro f
    have hes := f.ns e (List.mem_append_right _ List.mem_cons_self)
    rw [removeLoop, if_pos ⟨by simpa using hes, f.lastN_ne.1⟩, firstN_cons]
    callP ltype_spec
    intro r
    xsub
    callP valOf_in
    intro r
    xsub
    callP ldV_in
    intro r
    xsub
    pay
    refine ldV_reads (v := v) (hv.of_ent (R := isSList l a s ty (X ++ e :: Y)) (by cancel)) ?_
    iteP
    · intro hp
      callP popAfter_spec
      intro r
      xsub
      rw [List.filter_cons_of_neg (by simp [hp])]
      exact ih (by omega)
    · intro hp
      callP nxt_spec
      intro r
      xsub
      rw [firstN_cons]
      callP nxt_spec'
      intro r
      xsub
      have ih' := ih (X := X ++ [e]) (k := k - 1 - 1 - 1 - 1 - 1 - 1) (by omega)
      simp only [List.append_assoc, List.cons_append, List.nil_append, lastN_append_cons, lastN_nil] at ih'
      rw [List.filter_cons_of_pos (by simp [hp])]
      exact ih'

theorem remove_time {value : Loc} {v : V} {R : HProp V} (hv0 : value.1 ≠ 0) (hv : Reads R value v) (hk : 19 * xs.length + 6 ≤ k) :
    Triple nf (isSList l a s ty xs ∗ R) (within k (remove E l value))
      (fun _ => isSList l a s ty (xs.filter fun e => !(E ty).equal e.val v) ∗ R) := by
  unfold remove
  callP empty_spec
  intro r
  xsub
  cases xs with
  | nil => simp; retP; cancel
  | cons e xs =>
    rw [if_neg (by simp [hv0])]
    callP beforeBegin_spec
    intro r
    xsub
    have hnx := nxt_spec (nf := nf) (l := l) (a := a) (s := s) (ty := ty) (X := []) (Y := e :: xs)
    simp only [List.nil_append, lastN_nil] at hnx
    callP hnx
    intro r
    xsub
    callP end_spec
    intro r
    xsub
    have := removeLoop_time (k := k - 3 - 1 - 1 - 1) (E := E) (nf := nf) (l := l) (a := a) (s := s) (ty := ty) hv (X := []) (Y := e :: xs) (by omega)
    simpa only [List.nil_append, lastN_nil] using this

theorem reverseLoop_time {e : Elem V} {Y R : List (Elem V)} {px : Addr} (hl : l ≠ 0) (hs : ∀ y ∈ e :: Y, y.node ≠ s) (hk : 5 * Y.length + 6 ≤ k) :
    Triple nf (fld l 1 a ∗ fld l 2 s ∗ fld a 1 px ∗ pathTail R s ∗ path e.node (nodes Y ++ [s]))
      (within k (reverseLoop l e.node (firstN R s)))
      (fun _ => fld l 1 a ∗ fld l 2 s ∗ path a (nodes ((e :: Y).reverse ++ R) ++ [s])) := by
  induction Y generalizing e R px k with
  | nil =>
    rw [reverseLoop]
    simp only [List.map_nil, List.nil_append, path]
    have hca : (cassert (l != 0) : M V Unit) = pure () := by unfold cassert; rw [if_pos (by simpa using hl)]
    unfold end_
    simp only [hca, pure_bind]
    stepsP
    rw [if_pos (hs e (by simp))]
    stepsP
    rw [reverseLoop]
    have hca : (cassert (l != 0) : M V Unit) = pure () := by unfold cassert; rw [if_pos (by simpa using hl)]
    unfold end_
    simp only [hca, pure_bind]
    stepsP
    rw [if_neg (by simp)]
    retP
    simp only [List.reverse_singleton, List.singleton_append, List.map_cons, List.cons_append, path]
    rw [path_first]
    cancel
  | cons y Y ih =>
    simp only [List.length_cons] at hk
    rw [reverseLoop]
    simp only [List.map_cons, List.cons_append, path]
    have hca : (cassert (l != 0) : M V Unit) = pure () := by unfold cassert; rw [if_pos (by simpa using hl)]
    unfold end_
    simp only [hca, pure_bind]
    stepsP
    rw [if_pos (hs e (by simp))]
    stepsP
    have ih' := ih (e := y) (R := e :: R) (px := e.node) (fun y hy => hs y (by simp [hy])) (k := k - 1 - 1 - 1 - 1 - 1) (by omega)
    rw [pathTail, path_first, firstN_cons] at ih'
    call ih'
    intro _
    simp only [List.reverse_cons, List.append_assoc, List.singleton_append]
    cancel

theorem reverse_time (hk : 5 * xs.length + 11 ≤ k) : Triple nf (isSList l a s ty xs) (within k (reverse l)) (fun _ => isSList l a s ty xs.reverse) := by
  apply list_facts0; intro f
  unfold reverse
  callP empty_spec
  intro r
  xsub
  cases xs with
  | nil => simp; retP; cancel
  | cons e xs =>
    rw [if_neg (by simp)]
    callP single_spec
    intro r
    xintro hr
    rw [hr (by simp)]
    iteP
    · intro h1
      have : xs = [] := by simpa using h1
      subst this
      retP
      simp only [List.reverse_singleton]
      cancel
    · intro _
      callP begin_spec
      intro r
      xsub
      callP end_spec
      intro r
      xsub
      have hr := reverseLoop_time (k := k - 3 - 4 - 2 - 1) (nf := nf) (a := a) (e := e) (Y := xs) (R := []) (px := e.node) f.l0 f.ns (by simp only [List.length_cons] at hk; omega)
      simp only [firstN_nil, pathTail, List.append_nil] at hr
      simp only [isSList, hdr, elts_reverse, List.map_cons, List.cons_append, path, firstN_cons]
      call hr
      intro _
      cancel

theorem uniqueInner_time {pred : V → V → Bool} {X Y : List (Elem V)} {x : Elem V} (hk : 19 * (Y.length - (Y.dropWhile fun y => pred x.val y.val).length) + 4 ≤ k) :
    Triple nf (isSList l a s ty (X ++ x :: Y)) (within k (uniqueInner l pred x.node (firstN Y s) s))
      (fun _ => isSList l a s ty (X ++ x :: Y.dropWhile fun y => pred x.val y.val)) := by
  induction Y generalizing k with
  | nil =>
    rw [uniqueInner, if_neg (by simp)]
    retP
    simp only [List.dropWhile_nil]
    cancel
  | cons y Y ih =>
    apply list_facts0; intro f
    have hes := f.ns y (by simp)
    rw [uniqueInner, if_pos (by simpa using hes), firstN_cons]
    callP valOf_in
    intro r
    xsub
    have e1 : X ++ x :: y :: Y = (X ++ [x]) ++ y :: Y := by simp
    rw [e1]
    callP valOf_in
    intro r
    xsub
    rw [← e1]
    callP ldV_in
    intro r
    xsub
    rw [e1]
    callP ldV_in
    intro r
    xsub
    iteP
    · intro hp
      rw [List.dropWhile_cons_of_pos (by simpa using hp)] at hk
      have h1 := (List.dropWhile_sublist (l := Y) (fun y => pred x.val y.val)).length_le
      simp only [List.length_cons] at hk
      have he := popAfter_spec (nf := nf) (l := l) (a := a) (s := s) (ty := ty) (X := X ++ [x]) (Y := Y) (e := y)
      rw [lastN_append_cons, lastN_nil] at he
      callP he
      intro r
      xsub
      rw [List.dropWhile_cons_of_pos (by simpa using hp)]
      simpa using ih (k := k - 1 - 1 - 1 - 1 - 15) (by omega)
    · intro hp
      retP
      rw [List.dropWhile_cons_of_neg (by simpa using hp), e1]
      cancel

theorem uniqueLoop_time {pred : V → V → Bool} {X Y : List (Elem V)} (hk : 19 * Y.length + 1 ≤ k) :
    Triple nf (isSList l a s ty (X ++ Y)) (within k (uniqueLoop l pred (firstN Y s) s))
      (fun _ => isSList l a s ty (X ++ uniqBy (fun a b => pred a.val b.val) Y)) := by
  induction h : Y.length using Nat.strongRecOn generalizing X Y k with
  | _ n ih =>
  cases Y with
  | nil =>
    rw [uniqueLoop, if_neg (by simp), uniqBy_nil]
    retP
    cancel
  | cons x Y =>
    simp only [List.length_cons] at hk
    apply list_facts0; intro f
    have hes := f.ns x (by simp)
    rw [uniqueLoop, if_pos (by simpa using hes), firstN_cons]
    callP nxt_spec'
    intro r
    xsub
    iteP
    · intro hne
      callP nxt_spec'
      intro r
      xsub
      have h1 := List.dropWhile_sublist (l := Y) (fun y => pred x.val y.val)
      have h2 := h1.length_le
      payW (19 * (Y.length - (Y.dropWhile fun y => pred x.val y.val).length) + 4)
      call (uniqueInner_time (Nat.le_refl _))
      intro _
      callP nxt_spec'
      intro r
      xsub
      have ih' := ih _ (by have := h1.length_le; simp at h; omega) (X := X ++ [x]) (Y := Y.dropWhile fun y => pred x.val y.val) (k := k - 1 - 1 - (19 * (Y.length - (Y.dropWhile fun y => pred x.val y.val).length) + 4) - 1) (by omega) rfl
      simp only [List.append_assoc, List.cons_append, List.nil_append] at ih'
      rw [uniqBy_cons]
      exact ih'
    · intro hne
      cases Y with
      | nil =>
        retP
        rw [uniqBy_cons, List.dropWhile_nil, uniqBy_nil]
        cancel
      | cons y Y => exact absurd (by simpa using hne) (f.ns y (by simp))

theorem uniqueIf_time {pred : V → V → Bool} (hk : 19 * xs.length + 11 ≤ k) :
    Triple nf (isSList l a s ty xs) (within k (uniqueIf l (some pred)))
      (fun _ => isSList l a s ty (uniqBy (fun a b => pred a.val b.val) xs)) := by
  unfold uniqueIf
  callP empty_spec
  intro r
  xsub
  cases xs with
  | nil => simp [uniqBy_nil]; retP; cancel
  | cons e xs =>
    rw [if_neg (by simp)]
    callP single_spec
    intro r
    xintro hr
    rw [hr (by simp)]
    iteP
    · intro h1
      have : xs = [] := by simpa using h1
      subst this
      retP
      rw [uniqBy_cons, List.dropWhile_nil, uniqBy_nil]
      cancel
    · intro _
      dsimp only
      callP end_spec
      intro r
      xsub
      callP begin_spec
      intro r
      xsub
      have := uniqueLoop_time (k := k - 3 - 4 - 1 - 2) (nf := nf) (l := l) (a := a) (s := s) (ty := ty) (pred := pred) (X := []) (Y := e :: xs) (by omega)
      simpa only [List.nil_append] using this

theorem unique_time (hk : 19 * xs.length + 12 ≤ k) : Triple nf (isSList l a s ty xs) (within k (unique E l))
      (fun _ => isSList l a s ty (uniqBy (fun a b => (E ty).equal a.val b.val) xs)) := by
  apply list_facts0; intro f
  unfold unique
  rw [if_neg f.l0]
  callP ltype_spec
  intro r
  xsub
  exact uniqueIf_time (by omega)

end CC.SList
