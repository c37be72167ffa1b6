import Verif.SList.Spec
/-!
# Specifications of the forward list functions, part 2 (proof layer)
-/
namespace CC.SList
open CC.Tac
open CC.CList (Elem nodes vals firstN lastN firstN_nil firstN_cons lastN_nil lastN_cons lastN_append_cons firstN_append
  blk_ne ArgVal ltE vals_mergeL Rearr)
variable {V β : Type} {E : Types V} {nf : Prop} {l a s o a2 s2 : Addr} {ty t2 : Nat} {xs ys : List (Elem V)}

/-! ### swap, copy, assign -/

theorem swap_spec :
    Triple nf (isSList l a s ty xs ∗ isSList o a2 s2 t2 ys) (swap l o)
      (fun _ => isSList l a2 s2 t2 ys ∗ isSList o a s ty xs) := by
  apply list_facts (R := isSList o a2 s2 t2 ys) (by cancel); intro f
  apply list_facts (l := o) (R := isSList l a s ty xs) (by cancel); intro f2
  unfold swap
  rw [if_neg (by simp [f.l0, f2.l0])]
  unfold isSList hdr
  steps
  apply Triple.ret
  cancel

theorem swap_self : Triple nf (isSList l a s ty xs) (swap l l) (fun _ => isSList l a s ty xs) := by
  apply list_facts0; intro f
  unfold swap
  rw [if_neg (by simp [f.l0])]
  unfold isSList hdr
  steps
  apply Triple.ret
  cancel

theorem elts_reads {xs : List (Elem V)} {e : Elem V} (he : e ∈ xs) : Reads (elts xs) (e.box, 1) e.val := by
  obtain ⟨X, Y, rfl⟩ := List.append_of_mem he
  rw [elts_append, elts, elt]
  exact (Reads.pts (l := (e.box, 1)) (v := e.val)).of_ent (by cancel)

theorem reads_in {e : Elem V} (he : e ∈ xs) : Reads (isSList l a s ty xs) (e.box, 1) e.val := by
  unfold isSList
  exact (elts_reads he).of_ent (by cancel)

theorem elt_box_ne {e : Elem V} (he : e ∈ xs) {R : HProp V} {h : Heap V} (hh : (isSList l a s ty xs ∗ R) h) : e.box ≠ 0 := by
  obtain ⟨X, Y, rfl⟩ := List.append_of_mem he
  rw [isSList, elts_append, elts, elt] at hh
  have : (blk e.box 1 ∗ (hdr l a s ty ∗ path a (nodes (X ++ e :: Y) ++ [s]) ∗ elts X ∗ (blk e.node 2 ∗ fld e.node 2 e.box ∗
    pts (e.box, 1) (.obj (some e.val))) ∗ elts Y ∗ R)) h := by
    refine Eq.mp (congrFun ?_ h) hh; ac_rfl
  exact pts_ne_zero this

theorem copyLoop_spec {X Y : List (Elem V)} :
    Triple nf (isSList l a s ty xs ∗ isSList o a2 s2 t2 (X ++ Y)) (copyLoop E l (lastN xs a) o (firstN Y s2))
      (fun _ => ∃ₛ N, ⌜(vals N).Sublist (vals Y) ∧ (nf → vals N = vals Y)⌝ ∗ isSList l a s ty (xs ++ N) ∗
        isSList o a2 s2 t2 (X ++ Y)) := by
  induction Y generalizing xs X with
  | nil =>
    rw [copyLoop]
    call (end_spec (l := o))
    intro e
    xsub
    rw [firstN_nil, if_neg (by simp)]
    apply Triple.ret
    xexists []
    simp only [List.append_nil]
    cancel
    simp
  | cons e Y ih =>
    apply list_facts (l := o) (R := isSList l a s ty xs) (by cancel); intro f
    rw [copyLoop]
    call (end_spec (l := o))
    intro r
    xsub
    have hmem : e ∈ X ++ e :: Y := List.mem_append_right _ List.mem_cons_self
    rw [if_pos (by rw [firstN_cons]; exact f.ns e hmem), firstN_cons]
    call (valOf_in (l := o))
    intro r
    xsub
    apply Triple.fact (p := e.box ≠ 0)
    · intro h hh
      refine elt_box_ne (l := o) (a := a2) (s := s2) (ty := t2) hmem (h := h) (R := isSList l a s ty xs) ?_
      exact (show _ ⊢ₛ _ by cancel) _ hh
    intro hb
    have hpb := insertAfter_spec (E := E) (nf := nf) (l := l) (a := a) (s := s) (ty := ty) (X := xs) (Y := [])
      (R := isSList o a2 s2 t2 (X ++ e :: Y)) (value := (e.box, 1)) (v := e.val) hb
      ((reads_in hmem).right)
    simp only [List.append_nil] at hpb
    call hpb
    intro r
    xintro N ⟨hN1, hN2, rfl⟩
    call (nxt_spec' (l := o))
    intro r
    xsub
    have ih' := ih (xs := xs ++ N) (X := X ++ [e])
    simp only [List.append_assoc, List.singleton_append] at ih'
    call ih'
    intro _
    xintro N' ⟨h1, h2⟩
    xexists (N ++ N')
    cancel
    constructor
    · rcases hN2 with rfl | ⟨e', rfl, he'⟩
      · simpa using h1.cons _
      · simpa [he'] using h1
    · intro hnf
      rcases hN2 with rfl | ⟨e', rfl, he'⟩
      · exact absurd rfl (hN1 hnf)
      · simpa [he'] using h2 hnf

theorem copy_spec (hty : ty ≠ 0) :
    Triple nf (isSList l a s ty xs) (copy E l)
      (fun r => isSList l a s ty xs ∗ ∃ₛ a' s' N, ⌜(r = 0 → ¬ nf) ∧ (vals N).Sublist (vals xs) ∧ (nf → vals N = vals xs)⌝ ∗
        if r = 0 then emp else isSList r a' s' ty N) := by
  apply list_facts0; intro f
  unfold copy
  rw [if_neg f.l0]
  call ltype_spec
  intro r
  xsub
  apply create_spec hty
  · intro h
    rw [if_pos rfl]
    apply Triple.ret
    simp only [if_true, sep_emp]
    xexists 0, 0, []
    cancel
    simp [h]
  · intro l' a' s' hl'
    rw [if_neg hl']
    call (beforeBegin_spec (l := l'))
    intro r
    xsub
    call (begin_spec (l := l))
    intro r
    xsub
    have hc := copyLoop_spec (nf := nf) (E := E) (X := []) (Y := xs) (o := l) (a2 := a) (s2 := s) (t2 := ty) (xs := []) (l := l') (a := a') (s := s') (ty := ty)
    simp only [List.nil_append, lastN_nil] at hc
    call hc
    intro _
    xintro N hN
    apply Triple.ret
    simp only [if_neg hl']
    xexists a', s', N
    cancel
    exact ⟨fun h => absurd h hl', hN⟩

theorem two_ne (hh : ∃ h, (isSList l a s ty xs ∗ isSList o a2 s2 t2 ys) h) : l ≠ o := by
  obtain ⟨h, hh⟩ := hh
  apply blk_ne (h := h) (a := l) (b := o) (n := 3) (m := 3) (P := isSList l a s ty xs ∗ isSList o a2 s2 t2 ys)
    (R := (fld l 1 a ∗ fld l 2 s ∗ fld l 3 ty ∗ blk a 2 ∗ fld a 2 0 ∗ blk s 2 ∗ fld s 1 0 ∗ fld s 2 0 ∗ path a (nodes xs ++ [s]) ∗ elts xs) ∗
      (fld o 1 a2 ∗ fld o 2 s2 ∗ fld o 3 t2 ∗ blk a2 2 ∗ fld a2 2 0 ∗ blk s2 2 ∗ fld s2 1 0 ∗ fld s2 2 0 ∗ path a2 (nodes ys ++ [s2]) ∗ elts ys)) ?_ hh
  unfold isSList hdr; ac_rfl

theorem assign_spec :
    Triple nf (isSList l a s ty xs ∗ isSList o a2 s2 t2 ys) (assign E l o)
      (fun r => ⌜r = l⌝ ∗ isSList o a2 s2 t2 ys ∗ ∃ₛ N, ⌜(vals N).Sublist (vals ys) ∧ (nf → vals N = vals ys)⌝ ∗
        isSList l a s t2 N) := by
  apply list_facts (R := isSList o a2 s2 t2 ys) (by cancel); intro f
  apply list_facts (l := o) (R := isSList l a s ty xs) (by cancel); intro f2
  apply Triple.fact (p := l ≠ o) (fun h hh => two_ne ⟨h, hh⟩)
  intro hne
  unfold assign
  rw [if_neg (by simp [f.l0, f2.l0]), if_pos hne]
  call (clear_spec (l := l))
  intro _
  call (ltype_spec (l := o))
  intro r
  xsub
  rw [show isSList l a s ty ([] : List (Elem V)) = ((blk l 3 ∗ fld l 1 a ∗ fld l 2 s ∗ fld l 3 ty ∗ blk a 2 ∗ fld a 2 0 ∗ blk s 2 ∗ fld s 1 0 ∗ fld s 2 0) ∗
    path a (nodes ([] : List (Elem V)) ++ [s]) ∗ elts []) from rfl]
  steps
  refine Triple.pre (P' := isSList l a s t2 [] ∗ isSList o a2 s2 t2 ys) (by unfold isSList hdr; cancel) ?_
  call (beforeBegin_spec (l := l))
  intro r
  xsub
  call (begin_spec (l := o))
  intro r
  xsub
  have hc := copyLoop_spec (nf := nf) (E := E) (X := []) (Y := ys) (o := o) (a2 := a2) (s2 := s2) (t2 := t2) (xs := []) (l := l) (a := a) (s := s) (ty := t2)
  simp only [List.nil_append, lastN_nil] at hc
  call hc
  intro _
  xintro N hN
  apply Triple.ret
  xexists N
  cancel

theorem assign_self : Triple nf (isSList l a s ty xs) (assign E l l) (fun r => ⌜r = l⌝ ∗ isSList l a s ty xs) := by
  apply list_facts0; intro f
  unfold assign
  rw [if_neg (by simp [f.l0]), if_neg (by simp)]
  apply Triple.ret
  cancel

theorem createFromLoop_spec {b i : Nat} {vs : List V} :
    Triple nf (isSList l a s ty xs ∗ arr b i (vs.map fun v => .obj (some v))) (createFromLoop E l (lastN xs a) (b, i) vs.length)
      (fun _ => ∃ₛ N, ⌜(vals N).Sublist vs ∧ (nf → vals N = vs)⌝ ∗ isSList l a s ty (xs ++ N) ∗
        arr b i (vs.map fun v => .obj (some v))) := by
  induction vs generalizing xs i with
  | nil =>
    simp only [List.length_nil, createFromLoop]
    apply Triple.ret
    xexists []
    rw [List.append_nil]
    cancel
    simp
  | cons v vs ih =>
    simp only [List.length_cons, createFromLoop, List.map_cons, arr]
    focus_atom pts (b, i) (.obj (some v))
    apply Triple.ne_zero; intro hb
    have hpb := insertAfter_spec (E := E) (nf := nf) (l := l) (a := a) (s := s) (ty := ty) (X := xs) (Y := [])
      (R := pts (b, i) (.obj (some v))) (value := (b, i)) (v := v) hb Reads.pts.right
    simp only [List.append_nil] at hpb
    call hpb
    intro r
    xintro N ⟨hN1, hN2, rfl⟩
    call (ih (xs := xs ++ N) (i := i + 1))
    intro _
    xintro N' ⟨h1, h2⟩
    xexists (N ++ N')
    rw [List.append_assoc]
    cancel
    constructor
    · rcases hN2 with rfl | ⟨e', rfl, he'⟩
      · simpa using h1.cons _
      · simpa [he'] using h1
    · intro hnf
      rcases hN2 with rfl | ⟨e', rfl, he'⟩
      · exact absurd rfl (hN1 hnf)
      · simpa [he'] using h2 hnf

theorem createFrom_spec {b i : Nat} {vs : List V} (hty : ty ≠ 0) (hb : b ≠ 0) (hvs : vs ≠ []) :
    Triple nf (arr b i (vs.map fun v => .obj (some v))) (createFrom E ty (b, i) vs.length)
      (fun r => (arr b i (vs.map fun v => .obj (some v))) ∗ ∃ₛ a' s' N, ⌜(r = 0 → ¬ nf) ∧ (vals N).Sublist vs ∧ (nf → vals N = vs)⌝ ∗
        if r = 0 then emp else isSList r a' s' ty N) := by
  unfold createFrom
  rw [if_neg (by simp [hty, hb, hvs])]
  apply create_spec hty
  · intro h
    rw [if_pos rfl]
    apply Triple.ret
    simp only [if_true, sep_emp]
    xexists 0, 0, []
    cancel
    simp [h]
  · intro l' a' s' hl'
    rw [if_neg hl']
    call (beforeBegin_spec (l := l'))
    intro r
    xsub
    have hc := createFromLoop_spec (nf := nf) (E := E) (l := l') (a := a') (s := s') (ty := ty) (xs := []) (b := b) (i := i) (vs := vs)
    simp only [List.nil_append, lastN_nil] at hc
    call hc
    intro _
    xintro N hN
    apply Triple.ret
    simp only [if_neg hl']
    xexists a', s', N
    cancel
    exact ⟨fun h => absurd h hl', hN⟩

/-! ### transfer -/

theorem findPrev_spec {p t : Addr} {M : List (Elem V)} (hM : ∀ e ∈ M, e.node ≠ t) :
    Triple (V := V) nf (path p (nodes M ++ [t])) (findPrev p t) (fun r => ⌜r = lastN M p⌝ ∗ path p (nodes M ++ [t])) := by
  induction M generalizing p with
  | nil =>
    rw [findPrev]
    simp only [List.map_nil, List.nil_append, path]
    steps
    rw [if_neg (by simp)]
    apply Triple.ret
    cancel
  | cons e M ih =>
    rw [findPrev]
    simp only [List.map_cons, List.cons_append, path]
    steps
    rw [if_pos (hM e (by simp))]
    call (ih (p := e.node) (fun e he => hM e (by simp [he])))
    intro r
    xsub
    cancel
    rw [lastN_cons]

/-- the chain `m, M` between `first` and `last` is moved behind `pos` -/
theorem transfer_spec {pos px first last : Addr} {m : Elem V} {M : List (Elem V)} (h1 : pos ≠ first) (h2 : first ≠ last)
    (hM : ∀ e ∈ m :: M, e.node ≠ last) :
    Triple (V := V) nf (fld pos 1 px ∗ fld first 1 m.node ∗ path m.node (nodes M) ∗ fld (lastN M m.node) 1 last) (transfer pos first last)
      (fun _ => fld pos 1 m.node ∗ path m.node (nodes M) ∗ fld (lastN M m.node) 1 px ∗ fld first 1 last) := by
  unfold transfer
  rw [if_pos ⟨h1, h2⟩]
  steps
  rw [if_pos (hM m (by simp))]
  steps
  refine Triple.bind_frame (findPrev_spec (nf := nf) (p := m.node) (t := last) (M := M) (fun e he => hM e (by simp [he]))) (R := fld pos 1 px ∗ fld first 1 m.node) ?_ ?_
  · rw [path_snoc]; cancel
  intro r
  xsub
  rw [path_snoc]
  steps
  apply Triple.ret
  cancel

/-- the transferred range is empty -/
theorem transfer_empty {pos first last : Addr} :
    Triple (V := V) nf (fld first 1 last) (transfer pos first last) (fun _ => fld first 1 last) := by
  unfold transfer
  apply Triple.ite
  · intro _
    steps
    rw [if_neg (by simp)]
    apply Triple.ret
    cancel
  · intro _
    apply Triple.ret
    cancel

theorem transfer_same {pos last : Addr} : Triple (V := V) nf emp (transfer pos pos last) (fun _ => emp) := by
  unfold transfer
  rw [if_neg (by simp)]
  apply Triple.ret
  cancel

theorem isSList_blk_last {X Y : List (Elem V)} :
    ∃ R, isSList l a s ty (X ++ Y) = (blk (lastN X a) 2 ∗ R) := by
  rcases List.eq_nil_or_concat X with rfl | ⟨X, e, rfl⟩
  · refine ⟨(blk l 3 ∗ fld l 1 a ∗ fld l 2 s ∗ fld l 3 ty ∗ fld a 2 0 ∗ blk s 2 ∗ fld s 1 0 ∗ fld s 2 0) ∗
      path a (nodes ([] ++ Y) ++ [s]) ∗ elts ([] ++ Y), ?_⟩
    unfold isSList hdr; rw [lastN_nil]; ac_rfl
  · refine ⟨hdr l a s ty ∗ path a (nodes (X ++ e :: Y) ++ [s]) ∗ elts X ∗ (fld e.node 2 e.box ∗ blk e.box 1 ∗
      pts (e.box, 1) (.obj (some e.val))) ∗ elts Y, ?_⟩
    rw [List.concat_eq_append, lastN_append_cons, lastN_nil, List.append_assoc, List.singleton_append]
    unfold isSList; rw [elts_append, elts, elt]; ac_rfl

theorem two_lists_ne {X Y Z W : List (Elem V)} {α : Type} {m : M V α} {Q : α → HProp V} {P R : HProp V}
    (hP : P ⊢ₛ isSList l a s ty (X ++ Y) ∗ isSList o a2 s2 t2 (Z ++ W) ∗ R)
    (h : lastN X a ≠ lastN Z a2 → Triple nf P m Q) : Triple nf P m Q := by
  refine Triple.fact (fun h hp => ?_) h
  have hh := hP h hp
  obtain ⟨R1, h1⟩ := isSList_blk_last (l := l) (a := a) (s := s) (ty := ty) (X := X) (Y := Y)
  obtain ⟨R2, h2⟩ := isSList_blk_last (l := o) (a := a2) (s := s2) (ty := t2) (X := Z) (Y := W)
  rw [h1, h2] at hh
  exact blk_ne (a := lastN X a) (b := lastN Z a2) (n := 2) (m := 2) (R := R1 ∗ R2 ∗ R) (h := h) (by ac_rfl) hh

theorem Facts.lastN_ne_firstN {X Y Z : List (Elem V)} (f : Facts l a s (X ++ Y ++ Z)) : lastN X a ≠ firstN Z s := by
  cases Z with
  | nil => 
    rw [List.append_assoc] at f
    exact f.lastN_ne.1
  | cons z Z =>
    rcases List.eq_nil_or_concat X with rfl | ⟨X, e, rfl⟩
    · exact (f.na z (by simp)).symm
    · rw [List.concat_eq_append, lastN_append_cons, lastN_nil, firstN_cons]
      intro h
      have := f.nd
      simp [List.nodup_append, h] at this

theorem Facts.mid_ne_firstN {X Y Z : List (Elem V)} (f : Facts l a s (X ++ Y ++ Z)) : ∀ e ∈ Y, e.node ≠ firstN Z s := by
  intro e he
  cases Z with
  | nil => exact f.ns e (by simp [he])
  | cons z Z =>
    intro h
    rw [firstN_cons] at h
    have := f.nd
    rw [nodes, List.map_append, List.nodup_append] at this
    exact this.2.2 e.node (by rw [List.map_append]; exact List.mem_append_right _ (List.mem_map_of_mem he)) z.node (by simp) h

/-- moving a segment from one list to another -/
theorem transfer_lists {X Y Z M W : List (Elem V)} :
    Triple nf (isSList l a s ty (X ++ Y) ∗ isSList o a2 s2 t2 (Z ++ M ++ W))
      (transfer (lastN X a) (lastN Z a2) (firstN W s2))
      (fun _ => isSList l a s ty (X ++ M ++ Y) ∗ isSList o a2 s2 t2 (Z ++ W)) := by
  cases M with
  | nil =>
    simp only [List.append_nil]
    rw [show isSList o a2 s2 t2 (Z ++ W) = (hdr o a2 s2 t2 ∗ (path a2 (nodes Z) ∗ fld (lastN Z a2) 1 (firstN W s2)
        ∗ pathTail W s2) ∗ elts (Z ++ W)) by rw [isSList, path_split]]
    call transfer_empty
    intro _
    cancel
  | cons m M =>
    apply two_lists_ne (X := X) (Y := Y) (Z := Z) (W := m :: M ++ W) (R := emp) (l := l) (a := a) (s := s) (ty := ty)
      (o := o) (a2 := a2) (s2 := s2) (t2 := t2) (by rw [← List.append_assoc]; cancel)
    intro h1
    apply list_facts (l := o) (R := isSList l a s ty (X ++ Y)) (by cancel); intro f
    have h2 := f.lastN_ne_firstN
    have h3 := f.mid_ne_firstN
    have e1 : isSList o a2 s2 t2 (Z ++ m :: M ++ W) = (hdr o a2 s2 t2 ∗ (path a2 (nodes Z) ∗ fld (lastN Z a2) 1 m.node ∗
        (path m.node (nodes M) ∗ fld (lastN M m.node) 1 (firstN W s2)) ∗ pathTail W s2) ∗ elts Z ∗ (elt m ∗ elts M) ∗ elts W) := by
      rw [isSList, List.append_assoc, List.cons_append, path_split, elts_append, elts, elts_append, pathTail, firstN_cons, path_split]
      ac_rfl
    have e2 : isSList o a2 s2 t2 (Z ++ W) = (hdr o a2 s2 t2 ∗ (path a2 (nodes Z) ∗ fld (lastN Z a2) 1 (firstN W s2)
        ∗ pathTail W s2) ∗ elts Z ∗ elts W) := by
      rw [isSList, path_split, elts_append]
    have e3 : isSList l a s ty (X ++ Y) = (hdr l a s ty ∗ (path a (nodes X) ∗ fld (lastN X a) 1 (firstN Y s)
        ∗ pathTail Y s) ∗ elts X ∗ elts Y) := by
      rw [isSList, path_split, elts_append]
    have e4 : isSList l a s ty (X ++ m :: M ++ Y) = (hdr l a s ty ∗ (path a (nodes X) ∗ fld (lastN X a) 1 m.node ∗
        (path m.node (nodes M) ∗ fld (lastN M m.node) 1 (firstN Y s)) ∗ pathTail Y s) ∗ elts X ∗ (elt m ∗ elts M) ∗ elts Y) := by
      rw [isSList, List.append_assoc, List.cons_append, path_split, elts_append, elts, elts_append, pathTail, firstN_cons, path_split]
      ac_rfl
    rw [e1, e2, e3, e4]
    call (transfer_spec (nf := nf) (M := M) (px := firstN Y s) h1 h2 h3)
    intro _
    cancel

/-- moving a segment of a list to a later position of the same list -/
theorem transfer_later {X M Y Z : List (Elem V)} (hY : Y ≠ []) :
    Triple nf (isSList l a s ty (X ++ M ++ Y ++ Z))
      (transfer (lastN (X ++ M ++ Y) a) (lastN X a) (firstN Y s))
      (fun _ => isSList l a s ty (X ++ Y ++ M ++ Z)) := by
  obtain ⟨y, Y, rfl⟩ := List.exists_cons_of_ne_nil hY
  rw [firstN_cons]
  cases M with
  | nil =>
    simp only [List.append_nil]
    rw [show isSList l a s ty (X ++ y :: Y ++ Z) = (hdr l a s ty ∗ (path a (nodes X) ∗ fld (lastN X a) 1 y.node
        ∗ pathTail (y :: Y ++ Z) s) ∗ elts (X ++ y :: Y ++ Z)) by rw [isSList, List.append_assoc, List.cons_append, path_split, firstN_cons]]
    call transfer_empty
    intro _
    cancel
  | cons m M =>
    apply list_facts0; intro f
    have h3 : ∀ e ∈ m :: M, e.node ≠ y.node := by
      have f' := f
      rw [List.append_assoc] at f'
      exact f'.mid_ne_firstN
    have h2 : lastN X a ≠ y.node := by
      have f' := f
      rw [List.append_assoc] at f'
      exact f'.lastN_ne_firstN
    have h1 : lastN (X ++ m :: M ++ y :: Y) a ≠ lastN X a := by
      rw [lastN_append_cons]
      intro h
      have hin : lastN Y y.node ∈ nodes (y :: Y) := by
        rcases List.eq_nil_or_concat Y with rfl | ⟨Y, e, rfl⟩
        · simp
        · rw [List.concat_eq_append, lastN_append_cons]; simp
      obtain ⟨e', he', hh⟩ := List.mem_map.1 hin
      rcases List.eq_nil_or_concat X with rfl | ⟨X, e, rfl⟩
      · rw [lastN_nil] at h
        exact f.na e' (by simp at he' ⊢; grind) (hh.trans h)
      · rw [List.concat_eq_append] at h f
        rw [lastN_append_cons, lastN_nil] at h
        have hnd := f.nd
        rw [h] at hin
        rw [show X ++ [e] ++ m :: M ++ y :: Y ++ Z = (X ++ [e] ++ m :: M) ++ (y :: Y ++ Z) by simp] at hnd
        rw [nodes, List.map_append, List.nodup_append] at hnd
        exact hnd.2.2 e.node (by simp) e.node (by rw [List.map_append]; exact List.mem_append_left _ hin) rfl
    have e1 : ∀ (m y : Elem V) (M Y : List (Elem V)), isSList l a s ty (X ++ m :: M ++ y :: Y ++ Z) = (hdr l a s ty ∗ (path a (nodes X) ∗ fld (lastN X a) 1 m.node ∗
        path m.node (nodes M) ∗ fld (lastN M m.node) 1 y.node ∗ path y.node (nodes Y) ∗ fld (lastN Y y.node) 1 (firstN Z s)
        ∗ pathTail Z s) ∗ elts X ∗ (elt m ∗ elts M) ∗ (elt y ∗ elts Y) ∗ elts Z) := by
      intro m y M Y
      rw [isSList]
      simp only [List.append_assoc, List.cons_append]
      rw [path_split, elts_append, elts, elts_append, elts, elts_append, pathTail, firstN_cons, path_split, firstN_cons, pathTail, path_split]
      ac_rfl
    rw [lastN_append_cons] at h1 ⊢
    rw [e1, e1]
    call (transfer_spec (nf := nf) (M := M) (px := firstN Z s) h1 h2 h3)
    intro _
    cancel

/-- moving a segment of a list to an earlier position of the same list -/
theorem transfer_earlier {X Y M Z : List (Elem V)} :
    Triple nf (isSList l a s ty (X ++ Y ++ M ++ Z))
      (transfer (lastN X a) (lastN (X ++ Y) a) (firstN Z s))
      (fun _ => isSList l a s ty (X ++ M ++ Y ++ Z)) := by
  cases Y with
  | nil =>
    simp only [List.append_nil]
    call transfer_same
    intro _
    cancel
  | cons y Y =>
  cases M with
  | nil =>
    simp only [List.append_nil]
    rw [show isSList l a s ty (X ++ y :: Y ++ Z) = (hdr l a s ty ∗ (path a (nodes (X ++ y :: Y)) ∗ fld (lastN (X ++ y :: Y) a) 1 (firstN Z s)
        ∗ pathTail Z s) ∗ elts (X ++ y :: Y ++ Z)) by rw [isSList, path_split]]
    call transfer_empty
    intro _
    cancel
  | cons m M =>
    apply list_facts0; intro f
    have h3 := f.mid_ne_firstN
    have h2 := f.lastN_ne_firstN
    have h1 : lastN X a ≠ lastN (X ++ y :: Y) a := by
      rw [lastN_append_cons]
      intro h
      have hin : lastN Y y.node ∈ nodes (y :: Y) := by
        rcases List.eq_nil_or_concat Y with rfl | ⟨Y, e, rfl⟩
        · simp
        · rw [List.concat_eq_append, lastN_append_cons]; simp
      obtain ⟨e', he', hh⟩ := List.mem_map.1 hin
      rcases List.eq_nil_or_concat X with rfl | ⟨X, e, rfl⟩
      · rw [lastN_nil] at h
        exact f.na e' (by simp at he' ⊢; grind) (hh.trans h.symm)
      · rw [List.concat_eq_append] at h f
        rw [lastN_append_cons, lastN_nil] at h
        have hnd := f.nd
        rw [← h] at hin
        rw [show X ++ [e] ++ y :: Y ++ m :: M ++ Z = (X ++ [e]) ++ (y :: Y ++ (m :: M ++ Z)) by simp] at hnd
        rw [nodes, List.map_append, List.nodup_append] at hnd
        exact hnd.2.2 e.node (by simp) e.node (by rw [List.map_append]; exact List.mem_append_left _ hin) rfl
    have e1 : ∀ (m y : Elem V) (M Y : List (Elem V)), isSList l a s ty (X ++ m :: M ++ y :: Y ++ Z) = (hdr l a s ty ∗ (path a (nodes X) ∗ fld (lastN X a) 1 m.node ∗
        path m.node (nodes M) ∗ fld (lastN M m.node) 1 y.node ∗ path y.node (nodes Y) ∗ fld (lastN Y y.node) 1 (firstN Z s)
        ∗ pathTail Z s) ∗ elts X ∗ (elt m ∗ elts M) ∗ (elt y ∗ elts Y) ∗ elts Z) := by
      intro m y M Y
      rw [isSList]
      simp only [List.append_assoc, List.cons_append]
      rw [path_split, elts_append, elts, elts_append, elts, elts_append, pathTail, firstN_cons, path_split, firstN_cons, pathTail, path_split]
      ac_rfl
    rw [lastN_append_cons] at h1 h2 ⊢
    rw [e1, e1]
    call (transfer_spec (nf := nf) (M := M) (px := y.node) h1 h2 h3)
    intro _
    cancel

end CC.SList
