import Verif.Info.OwnMove
import Verif.Props.COwnSort
/-!
# Property C101: splicing, swapping and reversing lists and forward lists whose elements own something

As C97 and C98.  These functions only relink nodes: the results are lists of the *same* elements (`Elem` is the address of an element together with its value), and what the elements own stays with them.
A position in a list `X ++ Y` is the node of the first element of `Y`, or the end node (`firstN Y s`); a position in a forward list is the node of the last element of `X`, or the before-begin node (`lastN X a`).
-/
namespace CC.Info
open CC.Tac
open CC.CList (Elem vals)
variable {V W α β : Type} {nf : Prop} {C : Funs V} {i : Table} {t t2 : Addr} {R : HProp V} {Own : Addr → HProp V} {e : ElemSpec nf (ops C i) W} {l o a a2 s s2 : Addr}
variable {xs ys X Y Z N Z' : List (Elem W)}

/-- `c_list_splice` moves all elements of the other list of the same type to the position. -/
theorem C101_list_splice (ht : t ≠ 0) :
    Triple nf (L.isList e Own l s t (X ++ Y) ∗ L.isList e Own o s2 t ys ∗ R) (CList.splice l (L.firstN Y s) o) (fun _ => L.isList e Own l s t (X ++ ys ++ Y) ∗ L.isList e Own o s2 t [] ∗ R) :=
  Triple.call_frame (L.splice_spec (e := e) (Own := Own) (l := l) (s := s) (t := t) (t2 := t) (o := o) (s2 := s2) (X := X) (Y := Y) (ys := ys) (show isSame t t = true by simp [isSame, ht])) (R := R) (by cancel) fun _ => by cancel

/-- `c_list_splice_from` moves the elements from a position of the other list on. -/
theorem C101_list_splice_from (ht : t ≠ 0) :
    Triple nf (L.isList e Own l s t (X ++ Y) ∗ L.isList e Own o s2 t (Z ++ N) ∗ R) (CList.spliceFrom l (L.firstN Y s) o (L.firstN N s2))
      (fun _ => L.isList e Own l s t (X ++ N ++ Y) ∗ L.isList e Own o s2 t Z ∗ R) :=
  Triple.call_frame (L.spliceFrom_spec (e := e) (Own := Own) (l := l) (s := s) (t := t) (t2 := t) (o := o) (s2 := s2) (X := X) (Y := Y) (Z := Z) (N := N) (show isSame t t = true by simp [isSame, ht])) (R := R) (by cancel) fun _ => by cancel

/-- `c_list_splice_range` moves the elements of a range of the other list. -/
theorem C101_list_splice_range (ht : t ≠ 0) :
    Triple nf (L.isList e Own l s t (X ++ Y) ∗ L.isList e Own o s2 t (Z ++ N ++ Z') ∗ R) (CList.spliceRange l (L.firstN Y s) o (L.firstN N (L.firstN Z' s2)) (L.firstN Z' s2))
      (fun _ => L.isList e Own l s t (X ++ N ++ Y) ∗ L.isList e Own o s2 t (Z ++ Z') ∗ R) :=
  Triple.call_frame (L.spliceRange_spec (e := e) (Own := Own) (l := l) (s := s) (t := t) (t2 := t) (o := o) (s2 := s2) (X := X) (Y := Y) (Z := Z) (N := N) (Z' := Z') (show isSame t t = true by simp [isSame, ht])) (R := R) (by cancel) fun _ => by cancel

/-- Lists of different element types are left alone, whatever the positions are. -/
theorem C101_list_other_type (ht : isSame t t2 = false) {pos first last : Addr} :
    Triple nf (L.isList e Own l s t xs ∗ L.isList e Own o s2 t2 ys ∗ R) (CList.spliceRange l pos o first last) (fun _ => L.isList e Own l s t xs ∗ L.isList e Own o s2 t2 ys ∗ R) := by
  unfold CList.spliceRange
  refine Triple.bind_frame (L.spliceGuard_spec (e := e) (Own := Own) (l := l) (s := s) (t := t) (xs := xs) (o := o) (s2 := s2) (t2 := t2) (ys := ys)) (R := R) (by cancel) fun r => ?_
  xsub
  rw [if_pos (by simp [ht])]
  exact Triple.ret (by cancel)

/-- `c_list_swap` exchanges the contents of two lists. -/
theorem C101_list_swap :
    Triple nf (L.isList e Own l s t xs ∗ L.isList e Own o s2 t ys ∗ R) (CList.swap l o) (fun _ => L.isList e Own l s2 t ys ∗ L.isList e Own o s t xs ∗ R) :=
  Triple.call_frame L.swap_spec (R := R) (by cancel) fun _ => by cancel

/-- The two lists may have different element types: each list takes the other's type along with its contents. -/
theorem C101_list_swap_types {W2 : Type} {C2 : Funs V} {i2 : Table} {Own2 : Addr → HProp V} {e2 : ElemSpec nf (ops C2 i2) W2} {zs : List (Elem W2)} :
    Triple nf (L.isList e Own l s t xs ∗ L.isList e2 Own2 o s2 t2 zs ∗ R) (CList.swap l o) (fun _ => L.isList e2 Own2 l s2 t2 zs ∗ L.isList e Own o s t xs ∗ R) := by
  refine L.list_facts (e := e) (Own := Own) (l := l) (s := s) (t := t) (xs := xs) (L.isList e2 Own2 o s2 t2 zs ∗ R) (by cancel) fun hl _ _ => ?_
  refine L.list_facts (e := e2) (Own := Own2) (l := o) (s := s2) (t := t2) (xs := zs) (L.isList e Own l s t xs ∗ R) (by cancel) fun hl2 _ _ => ?_
  unfold CList.swap
  rw [if_neg (by simp [hl, hl2])]
  unfold L.isList CList.hdr
  steps
  apply Triple.ret
  cancel

/-- `c_list_reverse` reverses the order of the elements. -/
theorem C101_list_reverse : Triple nf (L.isList e Own l s t xs ∗ R) (CList.reverse l) (fun _ => L.isList e Own l s t xs.reverse ∗ R) :=
  Triple.call_frame L.reverse_spec (R := R) (by cancel) fun _ => by cancel

/-- `c_slist_splice_after` moves all elements of the other list of the same type behind the position. -/
theorem C101_slist_splice_after (ht : t ≠ 0) :
    Triple nf (S.isL e Own l a s t (X ++ Y) ∗ S.isL e Own o a2 s2 t ys ∗ R) (SList.spliceAfter l (CList.lastN X a) o)
      (fun _ => S.isL e Own l a s t (X ++ ys ++ Y) ∗ S.isL e Own o a2 s2 t [] ∗ R) :=
  Triple.call_frame (S.spliceAfter_spec (e := e) (Own := Own) (l := l) (s := s) (t := t) (t2 := t) (o := o) (s2 := s2) (X := X) (Y := Y) (a := a) (a2 := a2) (ys := ys) (show isSame t t = true by simp [isSame, ht])) (R := R) (by cancel) fun _ => by cancel

/-- `c_slist_splice_after_from` moves the elements behind a position of the other list. -/
theorem C101_slist_splice_after_from (ht : t ≠ 0) :
    Triple nf (S.isL e Own l a s t (X ++ Y) ∗ S.isL e Own o a2 s2 t (Z ++ N) ∗ R) (SList.spliceAfterFrom l (CList.lastN X a) o (CList.lastN Z a2))
      (fun _ => S.isL e Own l a s t (X ++ N ++ Y) ∗ S.isL e Own o a2 s2 t Z ∗ R) :=
  Triple.call_frame (S.spliceAfterFrom_spec (e := e) (Own := Own) (l := l) (s := s) (t := t) (t2 := t) (o := o) (s2 := s2) (X := X) (Y := Y) (a := a) (a2 := a2) (Z := Z) (N := N) (show isSame t t = true by simp [isSame, ht])) (R := R) (by cancel) fun _ => by cancel

/-- `c_slist_splice_after_range` moves the elements between two positions of the other list. -/
theorem C101_slist_splice_after_range (ht : t ≠ 0) :
    Triple nf (S.isL e Own l a s t (X ++ Y) ∗ S.isL e Own o a2 s2 t (Z ++ N ++ Z') ∗ R) (SList.spliceAfterRange l (CList.lastN X a) o (CList.lastN Z a2) (CList.firstN Z' s2))
      (fun _ => S.isL e Own l a s t (X ++ N ++ Y) ∗ S.isL e Own o a2 s2 t (Z ++ Z') ∗ R) :=
  Triple.call_frame (S.spliceAfterRange_spec (e := e) (Own := Own) (l := l) (s := s) (t := t) (t2 := t) (o := o) (s2 := s2) (X := X) (Y := Y) (a := a) (a2 := a2) (Z := Z) (N := N) (Z' := Z') (show isSame t t = true by simp [isSame, ht])) (R := R) (by cancel) fun _ => by cancel

/-- Forward lists of different element types are left alone, whatever the positions are. -/
theorem C101_slist_other_type (ht : isSame t t2 = false) {pos first last : Addr} :
    Triple nf (S.isL e Own l a s t xs ∗ S.isL e Own o a2 s2 t2 ys ∗ R) (SList.spliceAfterRange l pos o first last) (fun _ => S.isL e Own l a s t xs ∗ S.isL e Own o a2 s2 t2 ys ∗ R) := by
  unfold SList.spliceAfterRange
  refine Triple.bind_frame (S.spliceGuard_spec (e := e) (Own := Own) (l := l) (a := a) (s := s) (t := t) (xs := xs) (o := o) (a2 := a2) (s2 := s2) (t2 := t2) (ys := ys)) (R := R) (by cancel) fun r => ?_
  xsub
  rw [if_pos (by simp [ht])]
  exact Triple.ret (by cancel)

/-- `c_slist_swap` exchanges the contents of two forward lists. -/
theorem C101_slist_swap :
    Triple nf (S.isL e Own l a s t xs ∗ S.isL e Own o a2 s2 t ys ∗ R) (SList.swap l o) (fun _ => S.isL e Own l a2 s2 t ys ∗ S.isL e Own o a s t xs ∗ R) :=
  Triple.call_frame S.swap_spec (R := R) (by cancel) fun _ => by cancel

/-- The two forward lists may have different element types: each takes the other's type along with its contents. -/
theorem C101_slist_swap_types {W2 : Type} {C2 : Funs V} {i2 : Table} {Own2 : Addr → HProp V} {e2 : ElemSpec nf (ops C2 i2) W2} {zs : List (Elem W2)} :
    Triple nf (S.isL e Own l a s t xs ∗ S.isL e2 Own2 o a2 s2 t2 zs ∗ R) (SList.swap l o) (fun _ => S.isL e2 Own2 l a2 s2 t2 zs ∗ S.isL e Own o a s t xs ∗ R) := by
  refine S.list_facts (e := e) (Own := Own) (l := l) (xs := xs) (S.isL e2 Own2 o a2 s2 t2 zs ∗ R) (by cancel) fun f => ?_
  refine S.list_facts (e := e2) (Own := Own2) (l := o) (xs := zs) (S.isL e Own l a s t xs ∗ R) (by cancel) fun f2 => ?_
  unfold SList.swap
  rw [if_neg (by simp [f.l0, f2.l0])]
  unfold S.isL SList.hdr
  steps
  apply Triple.ret
  cancel

/-- `c_slist_reverse` reverses the order of the elements. -/
theorem C101_slist_reverse : Triple nf (S.isL e Own l a s t xs ∗ R) (SList.reverse l) (fun _ => S.isL e Own l a s t xs.reverse ∗ R) :=
  Triple.call_frame S.reverse_spec (R := R) (by cancel) fun _ => by cancel

/-! ## an example: moving the second and third of four boxes to the front of a list of one, then reversing it -/

example (ty : Ty V) (ht : t ≠ 0) (x1 x2 x3 x4 y : Elem V) :
    Triple True (L.isList (i := ⟨1, 8, 2, 3, 4, 9, 5, 0, 0⟩) (C := L.marked ty) (boxSpec ty) (fun a => blk a 2 ∗ fld a 2 77) l s t [y] ∗
        L.isList (i := ⟨1, 8, 2, 3, 4, 9, 5, 0, 0⟩) (C := L.marked ty) (boxSpec ty) (fun a => blk a 2 ∗ fld a 2 77) o s2 t [x1, x2, x3, x4] ∗ emp)
      (do CList.spliceRange l y.node o x2.node x4.node; CList.reverse l)
      (fun _ => L.isList (i := ⟨1, 8, 2, 3, 4, 9, 5, 0, 0⟩) (C := L.marked ty) (boxSpec ty) (fun a => blk a 2 ∗ fld a 2 77) l s t [y, x3, x2] ∗
        L.isList (i := ⟨1, 8, 2, 3, 4, 9, 5, 0, 0⟩) (C := L.marked ty) (boxSpec ty) (fun a => blk a 2 ∗ fld a 2 77) o s2 t [x1, x4] ∗ emp) := by
  refine Triple.bind_frame (C101_list_splice_range (X := []) (Y := [y]) (Z := [x1]) (N := [x2, x3]) (Z' := [x4]) (R := emp) ht) (R := emp) (by simp only [List.nil_append, List.cons_append]; cancel) fun _ => ?_
  simp only [List.nil_append, List.cons_append]
  exact Triple.call_frame (C101_list_reverse (R := emp) (xs := [x2, x3, y])) (by cancel) fun _ => by
    simp only [List.reverse_cons, List.reverse_nil, List.nil_append, List.cons_append]
    cancel

end CC.Info
