import Verif.Info.OwnList
import Verif.Props.CInfo
/-!
# Lists of elements with callbacks and storage of their own: copying, assignment
-/
namespace CC.Info.L
open CC.Tac
open CC.CList (link path hdr Elem prv nxt valp setPrv setNxt setValp lnode ltype begin_ end_ empty valOf)
variable {V W α β : Type} {nf : Prop} {C : Funs V} {i : Table} {t : Addr} {A : HProp V} {Own : Addr → HProp V}
variable {e : ElemSpec nf (ops C i) W} {l s o s2 : Addr} {xs ys : List (Elem W)} {R : HProp V}

/-- an element of a list, and the rest -/
theorem list_elem {X Y : List (Elem W)} {x : Elem W} : isList e Own o s2 t (X ++ x :: Y) =
    (cell e (x.box, 1) x.val ∗ hdr o s2 t ∗ path s2 (nodes (X ++ x :: Y) ++ [s2]) ∗ elts e Own X ∗ (blk x.node 3 ∗ fld x.node 3 x.box ∗ Own x.box) ∗ elts e Own Y) := by
  rw [isList, elts_append, elts, elt]
  ac_rfl

theorem list_next {X Y : List (Elem W)} {x : Elem W} {P : HProp V} : ReadsN (isList e Own o s2 t (X ++ x :: Y) ∗ P) (x.node, 2) (firstN Y s2) :=
  ReadsN.of_ent (by rw [isList, path_split_cons, show link x.node (firstN Y s2) = (fld x.node 2 (firstN Y s2) ∗ fld (firstN Y s2) 1 x.node) from rfl]; cancel)

theorem list_box {X Y : List (Elem W)} {x : Elem W} {P : HProp V} : ReadsN (isList e Own o s2 t (X ++ x :: Y) ∗ P) (x.node, 3) x.box :=
  ReadsN.of_ent (by rw [list_elem]; cancel)

theorem list_type {P : HProp V} : ReadsN (isList e Own l s t xs ∗ P) (l, 2) t := ReadsN.of_ent (by rw [isList, hdr]; cancel)

theorem box_ne {X Y : List (Elem W)} {x : Elem W} {P : HProp V} {h : Heap V} (hh : (isList e Own o s2 t (X ++ x :: Y) ∗ P) h) : x.box ≠ 0 := by
  rw [list_elem, cell] at hh
  simp only [sep_assoc, hex_sep] at hh
  obtain ⟨u, hh⟩ := hh
  exact pts_ne_zero hh

theorem copyLoop_spec {X Y : List (Elem W)} (ha : Storage nf C i A Own) (hc : Calls i) (ht : t ≠ 0) :
    Triple nf (A ∗ info t i ∗ isList e Own l s t xs ∗ isList e Own o s2 t (X ++ Y) ∗ R) (copyLoop C l o (firstN Y s2))
      (fun _ => ∃ₛ N, ⌜(vals N).Sublist (vals Y) ∧ (nf → vals N = vals Y)⌝ ∗ A ∗ info t i ∗ isList e Own l s t (xs ++ N) ∗ isList e Own o s2 t (X ++ Y) ∗ R) := by
  induction Y generalizing xs X with
  | nil =>
    rw [copyLoop]
    refine Triple.bind_frame (end_spec (e := e) (Own := Own) (l := o) (s := s2) (t := t) (xs := X ++ [])) (R := A ∗ info t i ∗ isList e Own l s t xs ∗ R) (by cancel) fun r => ?_
    xsub
    rw [firstN_nil, if_neg (by simp)]
    apply Triple.ret
    apply ent_ex_right []
    simp only [List.append_nil]
    cancel
    simp
  | cons x Y ih =>
    refine list_facts (e := e) (Own := Own) (l := o) (s := s2) (t := t) (xs := X ++ x :: Y) (A ∗ info t i ∗ isList e Own l s t xs ∗ R) (by cancel) fun _ _ hs => ?_
    rw [copyLoop]
    refine Triple.bind_frame (end_spec (e := e) (Own := Own) (l := o) (s := s2) (t := t) (xs := X ++ x :: Y)) (R := A ∗ info t i ∗ isList e Own l s t xs ∗ R) (by cancel) fun r => ?_
    xsub
    rw [if_pos (by rw [firstN_cons]; exact hs x (List.mem_append_right _ List.mem_cons_self)), firstN_cons]
    unfold valOf
    rw [bind_assoc]
    refine ldN_reads (list_box (X := X) (Y := Y)) ?_
    rw [pure_bind]
    refine Triple.fact (p := x.box ≠ 0) (fun h hh => box_ne (X := X) (Y := Y) hh) fun hb => ?_
    refine Triple.bind (Triple.pre (P' := A ∗ info t i ∗ isList e Own l s t xs ∗ (isList e Own o s2 t (X ++ x :: Y) ∗ R)) (by cancel)
      (pushBack_spec (w := x.val) ha hc ht ⟨hb, _, by rw [list_elem, sep_assoc]⟩)) fun _ => ?_
    refine Triple.ex_left fun N => Triple.pure_left fun hN => ?_
    refine Triple.pre (P' := isList e Own o s2 t (X ++ x :: Y) ∗ A ∗ info t i ∗ isList e Own l s t (xs ++ N) ∗ R) (by cancel) ?_
    refine ldN_reads (list_next (X := X) (Y := Y)) ?_
    have ih' := ih (xs := xs ++ N) (X := X ++ [x])
    simp only [List.append_assoc, List.singleton_append] at ih'
    refine Triple.conseq ih' (by cancel) fun _ => ?_
    xintro N' ⟨h1, h2⟩
    apply ent_ex_right (N ++ N')
    cancel
    obtain ⟨hN1, hN2⟩ := hN
    constructor
    · rcases hN2 with rfl | ⟨e', rfl, he'⟩
      · simpa using h1.cons _
      · simpa [he'] using h1
    · intro hnf
      rcases hN2 with rfl | ⟨e', rfl, he'⟩
      · exact absurd rfl (hN1 hnf)
      · simpa [he'] using h2 hnf

theorem copy_spec (ha : Storage nf C i A Own) (hi : Complete i) (ht : t ≠ 0) :
    Triple nf (A ∗ info t i ∗ isList e Own o s2 t ys ∗ R) (copy C o)
      (fun r => A ∗ info t i ∗ isList e Own o s2 t ys ∗ R ∗ ∃ₛ N, ⌜(r = 0 → ¬ nf) ∧ (vals N).Sublist (vals ys) ∧ (nf → vals N = vals ys)⌝ ∗
        if r = 0 then ⌜N = []⌝ else ∃ₛ s, isList e Own r s t N) := by
  have hc : Calls i := ⟨hi.2.1, hi.2.2.1, hi.2.2.2.1⟩
  refine list_facts (e := e) (Own := Own) (l := o) (s := s2) (t := t) (xs := ys) (A ∗ info t i ∗ R) (by cancel) fun hl _ _ => ?_
  unfold copy
  rw [if_neg hl]
  refine Triple.pre (P' := isList e Own o s2 t ys ∗ A ∗ info t i ∗ R) (by cancel) ?_
  refine ldN_reads list_type ?_
  unfold listCreate
  rw [if_neg ht]
  simp only [bind_assoc]
  refine Triple.pre (P' := info t i ∗ A ∗ isList e Own o s2 t ys ∗ R) (by cancel) (validate_cps hi ?_)
  refine create_spec (e := e) (Own := Own) ht (fun h => ?_) fun l s hl' => ?_
  · rw [if_pos rfl]
    apply Triple.ret
    simp only [↓reduceIte]
    refine ent_trans (Q := (A ∗ info t i ∗ isList e Own o s2 t ys ∗ R) ∗ emp) (by cancel) ?_
    simp only [sep_assoc]
    refine ent_cancel (ent_cancel (ent_cancel (ent_cancel ?_)))
    apply ent_ex_right []
    refine ent_pure_right ⟨fun _ => h, by simp, fun hn => absurd hn h⟩ ?_
    rw [← sep_emp (⌜_⌝)]
    exact ent_pure_right rfl (ent_refl _)
  · rw [if_neg hl']
    refine Triple.bind_frame (begin_spec (e := e) (Own := Own) (l := o) (s := s2) (t := t) (xs := ys)) (R := A ∗ info t i ∗ isList e Own l s t [] ∗ R) (by cancel) fun r => ?_
    xsub
    refine Triple.bind (Triple.pre (by cancel) (copyLoop_spec (e := e) (l := l) (s := s) (o := o) (s2 := s2) (xs := []) (X := []) (Y := ys) (R := R) ha hc ht)) fun _ => ?_
    refine Triple.ex_left fun N => Triple.pure_left fun hN => ?_
    apply Triple.ret
    simp only [if_neg hl']
    refine ent_trans (Q := A ∗ info t i ∗ isList e Own o s2 t ys ∗ R ∗ isList e Own l s t N) (by rw [List.nil_append, List.nil_append]; cancel) ?_
    refine ent_cancel (ent_cancel (ent_cancel (ent_cancel ?_)))
    apply ent_ex_right N
    refine ent_pure_right ⟨fun h => absurd h hl', hN.1, hN.2⟩ ?_
    exact ent_ex_right s (ent_refl _)

/-- an empty list is a list of any type -/
theorem retype {C' : Funs V} {i' : Table} {nf' : Prop} {W' : Type} {e' : ElemSpec nf' (ops C' i') W'} {Own' : Addr → HProp V} :
    isList e Own l s t [] = isList e' Own' l s t [] := rfl

/-- assigning from a list of the same type -/
theorem assign_spec (ha : Storage nf C i A Own) (hc : Calls i) (ht : t ≠ 0) :
    Triple nf (A ∗ info t i ∗ isList e Own l s t xs ∗ isList e Own o s2 t ys ∗ R) (assign C l o)
      (fun r => ∃ₛ N, ⌜r = l ∧ (vals N).Sublist (vals ys) ∧ (nf → vals N = vals ys)⌝ ∗ A ∗ info t i ∗ isList e Own l s t N ∗ isList e Own o s2 t ys ∗ R) := by
  refine list_facts (e := e) (Own := Own) (l := o) (s := s2) (t := t) (xs := ys) (A ∗ info t i ∗ isList e Own l s t xs ∗ R) (by cancel) fun ho _ _ => ?_
  refine list_facts (e := e) (Own := Own) (l := l) (s := s) (t := t) (xs := xs) (A ∗ info t i ∗ isList e Own o s2 t ys ∗ R) (by cancel) fun hl _ _ => ?_
  refine Triple.fact (p := l ≠ o) (fun h hh => ?_) fun hlo => ?_
  · rw [isList, isList, hdr, hdr] at hh
    exact CList.blk_ne (a := l) (b := o) (n := 2) (m := 2) rfl ((show _ ⊢ₛ _ by cancel) _ hh)
  unfold assign
  rw [if_neg (by simp [hl, ho]), if_pos hlo]
  refine Triple.bind_frame (clear_spec (e := e) (l := l) (s := s) (xs := xs) ha hc ht) (R := isList e Own o s2 t ys ∗ R) (by cancel) fun _ => ?_
  refine Triple.pre (P' := isList e Own o s2 t ys ∗ A ∗ info t i ∗ isList e Own l s t [] ∗ R) (by cancel) ?_
  refine ldN_reads list_type ?_
  refine Triple.pre (P' := fld l 2 t ∗ (blk l 2 ∗ fld l 1 s ∗ blk s 3 ∗ fld s 3 0) ∗ path s (nodes ([] : List (Elem W)) ++ [s]) ∗ elts e Own [] ∗ isList e Own o s2 t ys ∗ A ∗ info t i ∗ R)
    (by rw [show isList e Own l s t [] = (hdr l s t ∗ path s (nodes ([] : List (Elem W)) ++ [s]) ∗ elts e Own []) from rfl, hdr]; cancel) ?_
  step
  refine Triple.bind_frame (begin_spec (e := e) (Own := Own) (l := o) (s := s2) (t := t) (xs := ys)) (R := A ∗ info t i ∗ isList e Own l s t [] ∗ R) (by rw [show isList e Own l s t [] = (hdr l s t ∗ path s (nodes ([] : List (Elem W)) ++ [s]) ∗ elts e Own []) from rfl, hdr]; cancel) fun r => ?_
  xsub
  refine Triple.bind (Triple.pre (by cancel) (copyLoop_spec (e := e) (l := l) (s := s) (o := o) (s2 := s2) (xs := []) (X := []) (Y := ys) (R := R) ha hc ht)) fun _ => ?_
  refine Triple.ex_left fun N => Triple.pure_left fun hN => ?_
  apply Triple.ret
  apply ent_ex_right N
  rw [List.nil_append, List.nil_append]
  cancel

/-- assigning from a list of another type, whose elements and allocator are different -/
theorem assign_other {C₁ : Funs V} {i₁ : Table} {t₁ : Addr} {A₁ : HProp V} {Own₁ : Addr → HProp V} {W₁ : Type} {e₁ : ElemSpec nf (ops C i₁) W₁} {zs : List (Elem W₁)}
    (ha₁ : Storage nf C i₁ A₁ Own₁) (hc₁ : Calls i₁) (ht₁ : t₁ ≠ 0) (ha : Storage nf C i A Own) (hc : Calls i) (ht : t ≠ 0) :
    Triple nf (A₁ ∗ info t₁ i₁ ∗ A ∗ info t i ∗ isList e₁ Own₁ l s t₁ zs ∗ isList e Own o s2 t ys ∗ R) (assign C l o)
      (fun r => ∃ₛ N, ⌜r = l ∧ (vals N).Sublist (vals ys) ∧ (nf → vals N = vals ys)⌝ ∗ A₁ ∗ info t₁ i₁ ∗ A ∗ info t i ∗ isList e Own l s t N ∗ isList e Own o s2 t ys ∗ R) := by
  refine list_facts (e := e) (Own := Own) (l := o) (s := s2) (t := t) (xs := ys) (A₁ ∗ info t₁ i₁ ∗ A ∗ info t i ∗ isList e₁ Own₁ l s t₁ zs ∗ R) (by cancel) fun ho _ _ => ?_
  refine list_facts (e := e₁) (Own := Own₁) (l := l) (s := s) (t := t₁) (xs := zs) (A₁ ∗ info t₁ i₁ ∗ A ∗ info t i ∗ isList e Own o s2 t ys ∗ R) (by cancel) fun hl _ _ => ?_
  refine Triple.fact (p := l ≠ o) (fun h hh => ?_) fun hlo => ?_
  · rw [isList, isList, hdr, hdr] at hh
    exact CList.blk_ne (a := l) (b := o) (n := 2) (m := 2) rfl ((show _ ⊢ₛ _ by cancel) _ hh)
  unfold assign
  rw [if_neg (by simp [hl, ho]), if_pos hlo]
  refine Triple.bind_frame (clear_spec (e := e₁) (l := l) (s := s) (xs := zs) ha₁ hc₁ ht₁) (R := A ∗ info t i ∗ isList e Own o s2 t ys ∗ R) (by cancel) fun _ => ?_
  refine Triple.pre (P' := isList e Own o s2 t ys ∗ A ∗ info t i ∗ isList e₁ Own₁ l s t₁ [] ∗ A₁ ∗ info t₁ i₁ ∗ R) (by cancel) ?_
  refine ldN_reads list_type ?_
  refine Triple.pre (P' := fld l 2 t₁ ∗ (blk l 2 ∗ fld l 1 s ∗ blk s 3 ∗ fld s 3 0) ∗ path s (nodes ([] : List (Elem W)) ++ [s]) ∗ isList e Own o s2 t ys ∗ A ∗ info t i ∗ A₁ ∗ info t₁ i₁ ∗ R)
    (by rw [show isList e₁ Own₁ l s t₁ [] = (hdr l s t₁ ∗ path s (nodes ([] : List (Elem W)) ++ [s]) ∗ emp) from rfl, hdr]; cancel) ?_
  step
  refine Triple.bind_frame (begin_spec (e := e) (Own := Own) (l := o) (s := s2) (t := t) (xs := ys)) (R := A ∗ info t i ∗ isList e Own l s t [] ∗ A₁ ∗ info t₁ i₁ ∗ R)
    (by rw [show isList e Own l s t [] = (hdr l s t ∗ path s (nodes ([] : List (Elem W)) ++ [s]) ∗ emp) from rfl, hdr]; cancel) fun r => ?_
  xsub
  refine Triple.bind (Triple.pre (by cancel) (copyLoop_spec (e := e) (l := l) (s := s) (o := o) (s2 := s2) (xs := []) (X := []) (Y := ys) (R := A₁ ∗ info t₁ i₁ ∗ R) ha hc ht)) fun _ => ?_
  refine Triple.ex_left fun N => Triple.pure_left fun hN => ?_
  apply Triple.ret
  apply ent_ex_right N
  rw [List.nil_append, List.nil_append]
  cancel

end CC.Info.L
