import Verif.List.Spec
import Verif.Spec.Order
/-!
# Specifications of the public list functions, part 2 (proof layer)
-/
namespace CC.CList
open CC.Tac
variable {V β : Type} {E : Types V} {nf : Prop} {l s : Addr} {ty : Nat} {xs : List (Elem V)}

/-- A `c_ref_t` argument with value `v`: a reference to an element of the list, or to any live object outside (in `R`). -/
def RefIn (xs : List (Elem V)) (R : HProp V) (value : Loc) (v : V) : Prop :=
  (∃ e ∈ xs, value = (e.box, 1) ∧ v = e.val) ∨ Reads R value v

theorem elts_reads {xs : List (Elem V)} {e : Elem V} (he : e ∈ xs) : Reads (elts xs) (e.box, 1) e.val := by
  obtain ⟨X, Y, rfl⟩ := List.append_of_mem he
  rw [elts_append, elts, elt]
  exact (Reads.pts (l := (e.box, 1)) (v := e.val)).of_ent (by cancel)

theorem RefIn.reads {X Y : List (Elem V)} {R : HProp V} {value : Loc} {v : V} (h : RefIn xs R value v) :
    Reads (isList l s ty (X ++ xs ++ Y) ∗ R) value v := by
  rcases h with ⟨e, he, rfl, rfl⟩ | h
  · unfold isList
    have : e ∈ X ++ xs ++ Y := by simp [he]
    exact (elts_reads this).of_ent (by cancel)
  · exact h.right

theorem RefIn.mono {X Y : List (Elem V)} {R R' : HProp V} {value : Loc} {v : V} (h : RefIn xs R value v) :
    RefIn (X ++ xs ++ Y) (R ∗ R') value v := by
  rcases h with ⟨e, he, rfl, rfl⟩ | h
  · exact Or.inl ⟨e, by simp [he], rfl, rfl⟩
  · exact Or.inr h.left

/-! ### resize -/

theorem resizeSkip_spec {Y : List (Elem V)} {c : Nat} (hs : ∀ e ∈ Y, e.node ≠ s) :
    Triple nf (fld l 1 s ∗ pathTail Y s) (resizeSkip l (firstN Y s) c)
      (fun r => ⌜r = (firstN (Y.drop c) s, c - Y.length)⌝ ∗ fld l 1 s ∗ pathTail Y s) := by
  induction Y generalizing c with
  | nil =>
    rw [resizeSkip]
    steps
    simp
    apply Triple.ret
    cancel
  | cons e Y ih =>
    rw [resizeSkip]
    steps
    cases c with
    | zero => simp; apply Triple.ret; cancel
    | succ c =>
      rw [if_pos ⟨by simpa using hs e (by simp), by omega⟩]
      simp only [pathTail, firstN_cons]
      rw [path_first]
      simp only [link]
      steps
      call (ih (c := c) (fun e he => hs e (by simp [he])))
      intro r
      xsub
      cancel_core
      simp

theorem resizeGrow_spec {c : Nat} {value : Loc} {v : V} {R : HProp V}
    (hv : ∀ N, ArgVal (isList l s ty (xs ++ N) ∗ R) value (E ty).dflt v) :
    Triple nf (isList l s ty xs ∗ R) (resizeGrow E l value c)
      (fun _ => ∃ₛ N, ⌜(∃ k, k ≤ c ∧ vals N = List.replicate k v) ∧ (nf → N.length = c)⌝
        ∗ isList l s ty (xs ++ N) ∗ R) := by
  induction c generalizing xs with
  | zero =>
    rw [resizeGrow]
    apply Triple.ret
    apply ent_ex_right []
    rw [List.append_nil]
    cancel
    exact ⟨⟨0, by simp⟩, by simp⟩
  | succ c ih =>
    apply list_facts (R := R) (ent_refl _); intro hl hs0 hs _
    rw [resizeGrow]
    have e1 : (isList l s ty xs ∗ R) = (fld l 2 ty ∗ (blk l 2 ∗ fld l 1 s ∗ blk s 3 ∗ fld s 3 0) ∗
        path s (nodes xs ++ [s]) ∗ elts xs ∗ R) := by
      unfold isList hdr; ac_rfl
    have hv0 := hv []
    rw [List.append_nil] at hv0
    rw [e1] at hv0 ⊢
    apply createNode_spec hl hv0
    · intro h
      rw [if_pos rfl]
      apply Triple.ret
      apply ent_ex_right []
      rw [List.append_nil, e1]
      cancel
      exact ⟨⟨0, by simp⟩, fun h' => absurd h' h⟩
    · intro e he hn
      rw [if_neg hn]
      refine Triple.bind_frame (linkBack_spec (e := e) (u := 0) (v := 0) (xs := xs) (s := s) (ty := ty)) (R := R) ?_ ?_
      · unfold isList hdr; cancel
      · intro _
        refine Triple.post (ih (xs := xs ++ [e]) ?_) ?_
        · intro N; rw [List.append_assoc]; exact hv _
        · intro _
          xintro N ⟨⟨k, hk, hN⟩, hnf⟩
          apply ent_ex_right (e :: N)
          rw [List.append_assoc]
          cancel
          exact ⟨⟨k+1, by omega, by simp [hN, he, List.replicate_succ]⟩, fun h => by simp [hnf h]⟩

theorem resizeShrink_spec {Y : List (Elem V)} {p : Addr} (hs : ∀ e ∈ Y, e.node ≠ s) :
    Triple nf (fld l 1 s ∗ path p (nodes Y ++ [s]) ∗ elts Y) (resizeShrink l (firstN Y s))
      (fun _ => fld l 1 s ∗ link p s) := by
  induction Y generalizing p with
  | nil => 
    rw [resizeShrink]
    steps
    simp [path, elts]
    apply Triple.ret; cancel
  | cons e Y ih =>
    rw [resizeShrink]
    steps
    rw [if_pos (by simpa using hs e (by simp))]
    simp only [List.map_cons, List.cons_append, path, path_first, firstN_cons, elts]
    call (popNode_spec (s := s) (hs e (by simp)))
    intro r
    xsub
    refine Triple.pre ?_ (ih (p := p) (fun e he => hs e (by simp [he])))
    rw [path_first]
    cancel

theorem resizeWithValue_spec {c : Nat} {value : Loc} {v : V} {R : HProp V}
    (hv : ∀ N, ArgVal (isList l s ty (xs ++ N) ∗ R) value (E ty).dflt v) :
    Triple nf (isList l s ty xs ∗ R) (resizeWithValue E l c value)
      (fun _ => ∃ₛ N, ⌜(∃ k, k ≤ c - xs.length ∧ vals N = List.replicate k v) ∧ (nf → N.length = c - xs.length)⌝
        ∗ isList l s ty (xs.take c ++ N) ∗ R) := by
  apply list_facts (R := R) (ent_refl _); intro hl hs0 hs _
  unfold resizeWithValue
  rw [if_neg hl]
  have e1 : isList l s ty xs = (hdr l s ty ∗ link s (firstN xs s) ∗ pathTail xs s ∗ elts xs) := by
    rw [isList, path_first, sep_assoc]
  have e2 : isList l s ty xs = ((blk l 2 ∗ fld l 1 s ∗ fld l 2 ty ∗ blk s 3 ∗ fld s 3 0) ∗
      (fld s 2 (firstN xs s) ∗ fld (firstN xs s) 1 s) ∗ pathTail xs s ∗ elts xs) := by
    rw [e1, hdr, link]
  rw [show (isList l s ty xs ∗ R) = (((blk l 2 ∗ fld l 1 s ∗ fld l 2 ty ∗ blk s 3 ∗ fld s 3 0) ∗
      (fld s 2 (firstN xs s) ∗ fld (firstN xs s) 1 s) ∗ pathTail xs s ∗ elts xs) ∗ R) by rw [e2]]
  steps
  call (resizeSkip_spec hs)
  intro r
  xsub
  by_cases hc : c ≤ xs.length
  · have h0 : c - xs.length = 0 := by omega
    simp only [h0]
    rw [if_neg (by omega)]
    obtain ⟨X, Y, rfl, hX⟩ : ∃ X Y, xs = X ++ Y ∧ X.length = c :=
      ⟨xs.take c, xs.drop c, (List.take_append_drop c xs).symm, by simp [hc]⟩
    subst hX
    simp only [List.drop_left', List.take_left']
    refine Triple.call_frame (resizeShrink_spec (s := s) (p := lastN X s) (Y := Y) (l := l)
      (fun e he => hs e (by simp [he])))
      (R := (blk l 2 ∗ fld l 2 ty ∗ blk s 3 ∗ fld s 3 0) ∗ path s (nodes X) ∗ elts X ∗ R) ?_ ?_
    · have e3 : (link s (firstN (X ++ Y) s) ∗ pathTail (X ++ Y) s : HProp V) =
        (path s (nodes X) ∗ path (lastN X s) (nodes Y ++ [s])) := by
        rw [← path_first, path_split, ← path_first]
      have e4 : ((fld l 1 s ∗ pathTail (X ++ Y) s) ∗ (blk l 2 ∗ fld l 2 ty ∗ blk s 3 ∗ fld s 3 0) ∗
         link s (firstN (X ++ Y) s) ∗ elts (X ++ Y) ∗ R) =
        (fld l 1 s ∗ (blk l 2 ∗ fld l 2 ty ∗ blk s 3 ∗ fld s 3 0) ∗ elts (X ++ Y) ∗ R ∗
          (link s (firstN (X ++ Y) s) ∗ pathTail (X ++ Y) s)) := by ac_rfl
      refine ent_trans (Q := (fld l 1 s ∗ pathTail (X ++ Y) s) ∗ (blk l 2 ∗ fld l 2 ty ∗ blk s 3 ∗ fld s 3 0) ∗
         link s (firstN (X ++ Y) s) ∗ elts (X ++ Y) ∗ R) (by unfold link; cancel) ?_
      rw [e4, e3, elts_append]
      cancel
    · intro _
      apply ent_ex_right []
      rw [List.append_nil]
      simp only [isList, hdr, path_snoc]
      cancel
      exact ⟨⟨0, by simp⟩, by simp⟩
  · dsimp only
    rw [if_pos (by omega)]
    rw [List.take_of_length_le (by omega)]
    refine Triple.pre ?_ (resizeGrow_spec hv)
    rw [e2]
    cancel

theorem ltype_spec : Triple nf (isList l s ty xs) (ltype l) (fun r => ⌜r = ty⌝ ∗ isList l s ty xs) := by
  unfold isList hdr
  steps
  apply Triple.ret
  cancel

/-! ### swap, copy, assign -/

theorem swap_spec {l2 s2 : Addr} {t2 : Nat} {ys : List (Elem V)} :
    Triple nf (isList l s ty xs ∗ isList l2 s2 t2 ys) (swap l l2)
      (fun _ => isList l s2 t2 ys ∗ isList l2 s ty xs) := by
  apply list_facts (R := isList l2 s2 t2 ys) (by cancel); intro hl _ _ _
  apply list_facts (l := l2) (R := isList l s ty xs) (by cancel); intro hl2 _ _ _
  unfold swap
  rw [if_neg (by simp [hl, hl2])]
  unfold isList hdr
  steps
  apply Triple.ret
  cancel

theorem swap_self : Triple nf (isList l s ty xs) (swap l l) (fun _ => isList l s ty xs) := by
  apply list_facts0; intro hl _ _ _
  unfold swap
  rw [if_neg (by simp [hl])]
  unfold isList hdr
  steps
  apply Triple.ret
  cancel

theorem copyLoop_spec {o s2 : Addr} {t2 : Nat} {X Y : List (Elem V)} :
    Triple nf (isList l s ty xs ∗ isList o s2 t2 (X ++ Y)) (copyLoop E l o (firstN Y s2))
      (fun _ => ∃ₛ N, ⌜(vals N).Sublist (vals Y) ∧ (nf → vals N = vals Y)⌝ ∗ isList l s ty (xs ++ N) ∗
        isList o s2 t2 (X ++ Y)) := by
  induction Y generalizing xs X with
  | nil =>
    rw [copyLoop]
    call end_spec (l := o)
    intro e
    xsub
    rw [firstN_nil, if_neg (by simp)]
    apply Triple.ret
    xexists []
    simp only [List.append_nil]
    cancel
    simp
  | cons e Y ih =>
    apply list_facts (l := o) (R := isList l s ty xs) (by cancel); intro _ _ hs _
    rw [copyLoop]
    call end_spec (l := o)
    intro r
    xsub
    rw [if_pos (by rw [firstN_cons]; exact hs e (List.mem_append_right _ List.mem_cons_self)), firstN_cons]
    have e1 : isList o s2 t2 (X ++ e :: Y) = (hdr o s2 t2 ∗ path s2 (nodes (X ++ e :: Y) ++ [s2]) ∗
      elts X ∗ elt e ∗ elts Y) := by rw [isList, elts_append, elts]
    rw [e1]
    call valOf_spec
    intro r
    xsub
    have hr : RefIn ([] : List (Elem V)) (isList o s2 t2 (X ++ e :: Y)) ((e.box, 1) : Loc) e.val := by
      right; unfold isList; exact (elts_reads (List.mem_append_right _ List.mem_cons_self)).of_ent (by cancel)
    apply Triple.fact (p := e.box ≠ 0)
    · intro h hh
      have : (blk e.box 1 ∗ ⌜True⌝ ∗ (fld e.node 3 e.box ∗ blk e.node 3 ∗ pts (e.box, 1) (.obj (some e.val)) ∗
        isList l s ty xs ∗ hdr o s2 t2 ∗ path s2 (nodes (X ++ e :: Y) ++ [s2]) ∗ elts X ∗ elts Y)) h := by
        refine (show _ ⊢ₛ _ from ?_) _ hh
        unfold elt; cancel
      exact pts_ne_zero this
    intro hb
    have hpb := pushBack_spec (E := E) (nf := nf) (l := l) (s := s) (ty := ty) (xs := xs)
      (R := isList o s2 t2 (X ++ e :: Y)) (value := (e.box, 1)) (v := e.val) hb
      (by simpa using hr.reads (l := l) (s := s) (ty := ty) (X := xs) (Y := []))
    refine Triple.bind_frame hpb (R := emp) (by rw [e1]; cancel) ?_
    intro _
    xintro N ⟨hN1, hN2⟩
    have e2 : isList o s2 t2 (X ++ e :: Y) = (hdr o s2 t2 ∗ (path s2 (nodes X) ∗ link (lastN X s2) e.node ∗
      (fld e.node 2 (firstN Y s2) ∗ fld (firstN Y s2) 1 e.node) ∗ pathTail Y s2) ∗ elts (X ++ e :: Y)) := by
      rw [isList, path_split_cons]; rfl
    rw [e2]
    steps
    have ih' := ih (xs := xs ++ N) (X := X ++ [e])
    simp only [List.append_assoc, List.singleton_append] at ih'
    refine Triple.call_frame ih' (R := emp) ?_ ?_
    · rw [e2]
      cancel
    · intro _
      xintro N' ⟨h1, h2⟩
      xexists (N ++ N')
      rw [← e1]
      cancel
      constructor
      · rcases hN2 with rfl | ⟨e', rfl, he'⟩
        · simpa using h1.cons _
        · simpa [he'] using h1
      · intro hnf
        rcases hN2 with rfl | ⟨e', rfl, he'⟩
        · exact absurd rfl (hN1 hnf)
        · simpa [he'] using h2 hnf

theorem copy_spec (hty : ty ≠ 0) :
    Triple nf (isList l s ty xs) (copy E l)
      (fun r => isList l s ty xs ∗ ∃ₛ s' N, ⌜(r = 0 → ¬ nf) ∧ (vals N).Sublist (vals xs) ∧ (nf → vals N = vals xs)⌝ ∗
        if r = 0 then emp else isList r s' ty N) := by
  apply list_facts0; intro hl _ _ _
  unfold copy
  rw [if_neg hl]
  call ltype_spec
  intro r
  xsub
  apply create_spec hty
  · intro h
    rw [if_pos rfl]
    apply Triple.ret
    simp only [if_true, sep_emp]
    xexists 0, []
    cancel
    simp [h]
  · intro l' s' hl'
    rw [if_neg hl']
    call begin_spec (l := l)
    intro r
    xsub
    refine Triple.bind_frame (copyLoop_spec (E := E) (X := []) (Y := xs) (o := l) (xs := []) (l := l') (s := s') (ty := ty)) (R := emp)
      (by rw [List.nil_append]; cancel) ?_
    intro _
    xintro N hN
    apply Triple.ret
    simp only [if_neg hl', List.nil_append]
    xexists s', N
    cancel
    exact ⟨fun h => absurd h hl', hN⟩

theorem assign_spec {o s2 : Addr} {t2 : Nat} {ys : List (Elem V)} :
    Triple nf (isList l s ty xs ∗ isList o s2 t2 ys) (assign E l o)
      (fun r => ⌜r = l⌝ ∗ isList o s2 t2 ys ∗ ∃ₛ N, ⌜(vals N).Sublist (vals ys) ∧ (nf → vals N = vals ys)⌝ ∗
        isList l s t2 N) := by
  apply list_facts (R := isList o s2 t2 ys) (by cancel); intro hl _ _ _
  apply list_facts (l := o) (R := isList l s ty xs) (by cancel); intro hl2 _ _ _
  apply Triple.fact (p := l ≠ o)
  · intro h hh
    apply blk_ne (h := h) (a := l) (b := o) (n := 2) (m := 2) (P := isList l s ty xs ∗ isList o s2 t2 ys)
      (R := (fld l 1 s ∗ fld l 2 ty ∗ blk s 3 ∗ fld s 3 0 ∗ path s (nodes xs ++ [s]) ∗ elts xs) ∗
        (fld o 1 s2 ∗ fld o 2 t2 ∗ blk s2 3 ∗ fld s2 3 0 ∗ path s2 (nodes ys ++ [s2]) ∗ elts ys)) ?_ hh
    unfold isList hdr; ac_rfl
  intro hne
  unfold assign
  rw [if_neg (by simp [hl, hl2]), if_pos hne]
  call clear_spec (l := l)
  intro _
  call (ltype_spec (l := o))
  intro r
  xsub
  rw [show isList l s ty ([] : List (Elem V)) = ((blk l 2 ∗ fld l 1 s ∗ fld l 2 ty ∗ blk s 3 ∗ fld s 3 0) ∗
    path s (nodes ([] : List (Elem V)) ++ [s]) ∗ elts []) from rfl]
  steps
  refine Triple.pre (P' := isList l s t2 [] ∗ isList o s2 t2 ys) (by unfold isList hdr; cancel) ?_
  call begin_spec (l := o)
  intro r
  xsub
  refine Triple.bind_frame (copyLoop_spec (E := E) (X := []) (Y := ys) (o := o) (xs := []) (l := l) (s := s) (ty := t2)) (R := emp)
    (by rw [List.nil_append]; cancel) ?_
  intro _
  xintro N hN
  apply Triple.ret
  rw [List.nil_append, List.nil_append]
  xexists N
  cancel

theorem assign_self : Triple nf (isList l s ty xs) (assign E l l) (fun r => ⌜r = l⌝ ∗ isList l s ty xs) := by
  apply list_facts0; intro hl _ _ _
  unfold assign
  rw [if_neg (by simp [hl]), if_neg (by simp)]
  apply Triple.ret
  cancel

theorem createFromLoop_spec {b i : Nat} {vs : List V} :
    Triple nf (isList l s ty xs ∗ arr b i (vs.map fun v => .obj (some v))) (createFromLoop E l (b, i) vs.length)
      (fun _ => ∃ₛ N, ⌜(vals N).Sublist vs ∧ (nf → vals N = vs)⌝ ∗ isList l s ty (xs ++ N) ∗
        arr b i (vs.map fun v => .obj (some v))) := by
  induction vs generalizing xs i with
  | nil =>
    simp only [List.length_nil, createFromLoop]
    apply Triple.ret
    apply ent_ex_right []
    rw [List.append_nil]
    cancel
    simp
  | cons v vs ih =>
    simp only [List.length_cons, createFromLoop, List.map_cons, arr]
    focus_atom pts (b, i) (.obj (some v))
    apply Triple.ne_zero; intro hb
    have hpb := pushBack_spec (E := E) (nf := nf) (l := l) (s := s) (ty := ty) (xs := xs)
      (R := pts (b, i) (.obj (some v))) (value := (b, i)) (v := v) hb Reads.pts.right
    call hpb
    intro _
    xintro N ⟨hN1, hN2⟩
    call (ih (xs := xs ++ N) (i := i + 1))
    intro _
    xintro N' ⟨h1, h2⟩
    apply ent_ex_right (N ++ N')
    rw [List.append_assoc]
    cancel
    constructor
    · rcases hN2 with rfl | ⟨e', rfl, he'⟩
      · simpa using h1.cons _
      · simpa [he'] using h1
    · intro hnf
      rcases hN2 with rfl | ⟨e', rfl, he'⟩
      · exact absurd rfl (hN1 hnf)
      · simpa [he'] using h2 hnf

theorem createFrom_spec {b i : Nat} {vs : List V} (hty : ty ≠ 0) (hb : b ≠ 0) (hvs : vs ≠ []) :
    Triple nf (arr b i (vs.map fun v => .obj (some v))) (createFrom E ty (b, i) vs.length)
      (fun r => (arr b i (vs.map fun v => .obj (some v))) ∗ ∃ₛ s' N, ⌜(r = 0 → ¬ nf) ∧ (vals N).Sublist vs ∧ (nf → vals N = vs)⌝ ∗
        if r = 0 then emp else isList r s' ty N) := by
  unfold createFrom
  rw [if_neg (by simp [hty, hb, hvs])]
  apply create_spec hty
  · intro h
    rw [if_pos rfl]
    apply Triple.ret
    simp only [if_true, sep_emp]
    xexists 0, []
    cancel
    simp [h]
  · intro l' s' hl'
    rw [if_neg hl']
    call (createFromLoop_spec (l := l') (xs := []))
    intro _
    xintro N hN
    apply Triple.ret
    simp only [if_neg hl', List.nil_append]
    xexists s', N
    cancel
    exact ⟨fun h => absurd h hl', hN⟩

end CC.CList
