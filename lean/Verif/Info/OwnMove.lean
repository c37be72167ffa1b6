import Verif.Info.OwnSort
import Verif.Info.OwnSSort
/-!
# Lists and forward lists of elements with callbacks and storage of their own: splicing, swapping, reversing

The functions relink nodes and never look at an element; they are those of Verif/List/Model.lean and Verif/SList/Model.lean.
-/
namespace CC.Info.L
open CC.Tac
open CC.CList (link path hdr Elem prv nxt ltype begin_ end_ empty transfer spliceGuard splice spliceFrom spliceRange reverse reverseLoop)
variable {V W α β : Type} {nf : Prop} {C : Funs V} {i : Table} {t t2 : Addr} {Own : Addr → HProp V}
variable {e : ElemSpec nf (ops C i) W} {l s o s2 : Addr} {xs ys : List (Elem W)}

theorem spliceGuard_spec :
    Triple nf (isList e Own l s t xs ∗ isList e Own o s2 t2 ys) (spliceGuard l o)
      (fun r => ⌜r = (ys.isEmpty || !isSame t t2)⌝ ∗ isList e Own l s t xs ∗ isList e Own o s2 t2 ys) := by
  refine list_facts (e := e) (Own := Own) (l := l) (s := s) (t := t) (xs := xs) (isList e Own o s2 t2 ys) (ent_refl _) fun hl _ _ => ?_
  unfold spliceGuard
  rw [if_neg hl]
  call (empty_spec (e := e) (Own := Own) (l := o) (s := s2) (t := t2) (xs := ys))
  intro r
  xsub
  cases ys with
  | nil => simp; apply Triple.ret; cancel
  | cons y ys =>
    rw [if_neg (by simp)]
    call (ltype_spec (e := e) (Own := Own) (l := l) (s := s) (t := t) (xs := xs))
    intro r
    xsub
    call (ltype_spec (e := e) (Own := Own) (l := o) (s := s2) (t := t2) (xs := y :: ys))
    intro r
    xsub
    apply Triple.ret
    cancel

theorem spliceRange_spec {X Y Z N Z' : List (Elem W)} (ht : isSame t t2 = true) :
    Triple nf (isList e Own l s t (X ++ Y) ∗ isList e Own o s2 t2 (Z ++ N ++ Z')) (spliceRange l (firstN Y s) o (firstN N (firstN Z' s2)) (firstN Z' s2))
      (fun _ => isList e Own l s t (X ++ N ++ Y) ∗ isList e Own o s2 t2 (Z ++ Z')) := by
  unfold spliceRange
  call (spliceGuard_spec (e := e) (Own := Own) (l := l) (s := s) (t := t) (xs := X ++ Y) (o := o) (s2 := s2) (t2 := t2) (ys := Z ++ N ++ Z'))
  intro r
  xsub
  apply Triple.ite
  · intro h
    have : Z ++ N ++ Z' = [] := by simpa [ht] using h
    simp only [List.append_eq_nil_iff] at this
    obtain ⟨⟨rfl, rfl⟩, rfl⟩ := this
    apply Triple.ret
    simp only [List.append_nil]
    cancel
  · intro _
    exact transfer_lists

theorem splice_spec {X Y : List (Elem W)} (ht : isSame t t2 = true) :
    Triple nf (isList e Own l s t (X ++ Y) ∗ isList e Own o s2 t2 ys) (splice l (firstN Y s) o)
      (fun _ => isList e Own l s t (X ++ ys ++ Y) ∗ isList e Own o s2 t2 []) := by
  unfold splice
  call (spliceGuard_spec (e := e) (Own := Own) (l := l) (s := s) (t := t) (xs := X ++ Y) (o := o) (s2 := s2) (t2 := t2) (ys := ys))
  intro r
  xsub
  apply Triple.ite
  · intro h
    have : ys = [] := by simpa [ht] using h
    subst this
    apply Triple.ret
    simp only [List.append_nil]
    cancel
  · intro _
    call (begin_spec (e := e) (Own := Own) (l := o) (s := s2) (t := t2) (xs := ys))
    intro r
    xsub
    call (end_spec (e := e) (Own := Own) (l := o) (s := s2) (t := t2) (xs := ys))
    intro r
    xsub
    have := transfer_lists (nf := nf) (e := e) (Own := Own) (l := l) (s := s) (t := t) (o := o) (s2 := s2) (t2 := t2) (X := X) (Y := Y) (Z := []) (N := ys) (Z' := [])
    simp only [List.append_nil, List.nil_append, firstN_nil] at this
    call this
    intro _
    cancel

theorem spliceFrom_spec {X Y Z N : List (Elem W)} (ht : isSame t t2 = true) :
    Triple nf (isList e Own l s t (X ++ Y) ∗ isList e Own o s2 t2 (Z ++ N)) (spliceFrom l (firstN Y s) o (firstN N s2))
      (fun _ => isList e Own l s t (X ++ N ++ Y) ∗ isList e Own o s2 t2 Z) := by
  unfold spliceFrom
  call (spliceGuard_spec (e := e) (Own := Own) (l := l) (s := s) (t := t) (xs := X ++ Y) (o := o) (s2 := s2) (t2 := t2) (ys := Z ++ N))
  intro r
  xsub
  apply Triple.ite
  · intro h
    have : Z ++ N = [] := by simpa [ht] using h
    simp only [List.append_eq_nil_iff] at this
    obtain ⟨rfl, rfl⟩ := this
    apply Triple.ret
    simp only [List.append_nil]
    cancel
  · intro _
    call (end_spec (e := e) (Own := Own) (l := o) (s := s2) (t := t2) (xs := Z ++ N))
    intro r
    xsub
    have := transfer_lists (nf := nf) (e := e) (Own := Own) (l := l) (s := s) (t := t) (o := o) (s2 := s2) (t2 := t2) (X := X) (Y := Y) (Z := Z) (N := N) (Z' := [])
    simp only [List.append_nil, firstN_nil] at this
    call this
    intro _
    cancel

/-- chain of `Y` with the two links of every node exchanged -/
def revd : List (Elem W) → Addr → Addr → HProp V
  | [], _, _ => emp
  | x :: Y, p, t => fld x.node 2 p ∗ fld x.node 1 (firstN Y t) ∗ revd Y x.node t

theorem revd_path (Y : List (Elem W)) (p t : Addr) :
    (revd Y p t ∗ fld p 1 (firstN Y t) ∗ fld t 2 (lastN Y p)) = path (V := V) t (nodes Y.reverse ++ [p]) := by
  induction Y generalizing p with
  | nil => simp only [revd, firstN_nil, lastN_nil, List.reverse_nil, List.map_nil, List.nil_append, path, link, emp_sep, sep_emp, nodes]; ac_rfl
  | cons x Y ih =>
    rw [path_snoc, List.reverse_cons, nodes, List.map_append]
    rw [show List.map Elem.node [x] = [x.node] from rfl, ← nodes, ← ih, lastN_append_cons, lastN_nil, lastN_cons, revd, firstN_cons, link]
    ac_rfl

theorem reverseLoop_spec {Y : List (Elem W)} {p : Addr} (hl : l ≠ 0) (hs : ∀ x ∈ Y, x.node ≠ s) :
    Triple (V := V) nf (fld l 1 s ∗ fld (firstN Y s) 1 p ∗ pathTail Y s) (reverseLoop l (firstN Y s))
      (fun _ => fld l 1 s ∗ revd Y p s ∗ fld s 1 (lastN Y p)) := by
  induction Y generalizing p with
  | nil =>
    rw [reverseLoop]
    unfold end_
    steps
    · simpa using hl
    steps
    simp [pathTail, revd]
    apply Triple.ret
    cancel
  | cons x Y ih =>
    rw [reverseLoop]
    unfold end_
    steps
    · simpa using hl
    steps
    rw [if_pos (by simpa using hs x (by simp))]
    simp only [pathTail, firstN_cons]
    rw [path_first]
    simp only [link]
    steps
    call (ih (p := x.node) (fun y hy => hs y (by simp [hy])))
    intro _
    simp only [revd, lastN_cons]
    cancel

theorem elts_reverse (Y : List (Elem W)) : elts e Own Y.reverse = elts e Own Y := by
  induction Y with
  | nil => rfl
  | cons y Y ih => rw [List.reverse_cons, elts_append, ih, elts, elts, elts, sep_emp, sep_comm]

theorem reverse_spec : Triple nf (isList e Own l s t xs) (reverse l) (fun _ => isList e Own l s t xs.reverse) := by
  refine list_facts (e := e) (Own := Own) (l := l) (s := s) (t := t) (xs := xs) emp (by rw [sep_emp]; exact ent_refl _) fun hl _ hs => ?_
  unfold reverse
  call (empty_spec (e := e) (Own := Own) (l := l) (s := s) (t := t) (xs := xs))
  intro r
  xsub
  cases xs with
  | nil => simp; apply Triple.ret; cancel
  | cons x xs =>
    rw [if_neg (by simp)]
    call (size_spec (e := e) (Own := Own) (l := l) (s := s) (t := t) (xs := x :: xs))
    intro r
    xsub
    apply Triple.ite
    · intro h1
      have : xs = [] := by simpa using h1
      subst this
      apply Triple.ret
      simp only [List.reverse_singleton]
      cancel
    · intro _
      call (begin_spec (e := e) (Own := Own) (l := l) (s := s) (t := t) (xs := x :: xs))
      intro r
      xsub
      have e1 : isList e Own l s t (x :: xs) = ((blk l 2 ∗ fld l 1 s ∗ fld l 2 t ∗ blk s 3 ∗ fld s 3 0) ∗
        ((fld s 2 (firstN (x :: xs) s) ∗ fld (firstN (x :: xs) s) 1 s) ∗ pathTail (x :: xs) s) ∗ elts e Own (x :: xs)) := by
        rw [isList, path_first, hdr, link]
      rw [e1]
      call (reverseLoop_spec (V := V) (Y := x :: xs) (p := s) hl hs)
      intro _
      steps
      apply Triple.ret
      rw [isList, ← revd_path, hdr, elts_reverse]
      cancel

end CC.Info.L

namespace CC.Info.S
open CC.Tac
open CC.SList (hdr nxt lanc lnode ltype begin_ end_ beforeBegin empty transfer spliceGuard spliceAfter spliceAfterFrom spliceAfterRange reverse reverseLoop)
open CC.CList (Elem nodes vals firstN lastN firstN_nil firstN_cons lastN_nil lastN_append_cons lastN_cons)
variable {V W α β : Type} {nf : Prop} {C : Funs V} {i : Table} {t t2 : Addr} {Own : Addr → HProp V}
variable {e : ElemSpec nf (ops C i) W} {l a s o a2 s2 : Addr} {xs ys : List (Elem W)}

theorem spliceAfterRange_spec {X Y Z N Z' : List (Elem W)} (ht : isSame t t2 = true) :
    Triple nf (isL e Own l a s t (X ++ Y) ∗ isL e Own o a2 s2 t2 (Z ++ N ++ Z')) (spliceAfterRange l (lastN X a) o (lastN Z a2) (firstN Z' s2))
      (fun _ => isL e Own l a s t (X ++ N ++ Y) ∗ isL e Own o a2 s2 t2 (Z ++ Z')) := by
  unfold spliceAfterRange
  call (spliceGuard_spec (e := e) (Own := Own) (l := l) (a := a) (s := s) (t := t) (xs := X ++ Y) (o := o) (a2 := a2) (s2 := s2) (t2 := t2) (ys := Z ++ N ++ Z'))
  intro r
  xsub
  apply Triple.ite
  · intro h
    have : Z ++ N ++ Z' = [] := by simpa [ht] using h
    simp only [List.append_eq_nil_iff] at this
    obtain ⟨⟨rfl, rfl⟩, rfl⟩ := this
    apply Triple.ret
    simp only [List.append_nil]
    cancel
  · intro _
    exact transfer_lists

theorem spliceAfter_spec {X Y : List (Elem W)} (ht : isSame t t2 = true) :
    Triple nf (isL e Own l a s t (X ++ Y) ∗ isL e Own o a2 s2 t2 ys) (spliceAfter l (lastN X a) o)
      (fun _ => isL e Own l a s t (X ++ ys ++ Y) ∗ isL e Own o a2 s2 t2 []) := by
  unfold spliceAfter
  call (spliceGuard_spec (e := e) (Own := Own) (l := l) (a := a) (s := s) (t := t) (xs := X ++ Y) (o := o) (a2 := a2) (s2 := s2) (t2 := t2) (ys := ys))
  intro r
  xsub
  apply Triple.ite
  · intro h
    have : ys = [] := by simpa [ht] using h
    subst this
    apply Triple.ret
    simp only [List.append_nil]
    cancel
  · intro _
    call (beforeBegin_spec (e := e) (Own := Own) (l := o) (a := a2) (s := s2) (t := t2) (xs := ys))
    intro r
    xsub
    call (end_spec (e := e) (Own := Own) (l := o) (a := a2) (s := s2) (t := t2) (xs := ys))
    intro r
    xsub
    have := transfer_lists (nf := nf) (e := e) (Own := Own) (l := l) (a := a) (s := s) (t := t) (o := o) (a2 := a2) (s2 := s2) (t2 := t2) (X := X) (Y := Y) (Z := []) (N := ys) (Z' := [])
    simp only [List.append_nil, List.nil_append, firstN_nil, lastN_nil] at this
    call this
    intro _
    cancel

theorem spliceAfterFrom_spec {X Y Z N : List (Elem W)} (ht : isSame t t2 = true) :
    Triple nf (isL e Own l a s t (X ++ Y) ∗ isL e Own o a2 s2 t2 (Z ++ N)) (spliceAfterFrom l (lastN X a) o (lastN Z a2))
      (fun _ => isL e Own l a s t (X ++ N ++ Y) ∗ isL e Own o a2 s2 t2 Z) := by
  unfold spliceAfterFrom
  call (spliceGuard_spec (e := e) (Own := Own) (l := l) (a := a) (s := s) (t := t) (xs := X ++ Y) (o := o) (a2 := a2) (s2 := s2) (t2 := t2) (ys := Z ++ N))
  intro r
  xsub
  apply Triple.ite
  · intro h
    have : Z ++ N = [] := by simpa [ht] using h
    simp only [List.append_eq_nil_iff] at this
    obtain ⟨rfl, rfl⟩ := this
    apply Triple.ret
    simp only [List.append_nil]
    cancel
  · intro _
    call (end_spec (e := e) (Own := Own) (l := o) (a := a2) (s := s2) (t := t2) (xs := Z ++ N))
    intro r
    xsub
    have := transfer_lists (nf := nf) (e := e) (Own := Own) (l := l) (a := a) (s := s) (t := t) (o := o) (a2 := a2) (s2 := s2) (t2 := t2) (X := X) (Y := Y) (Z := Z) (N := N) (Z' := [])
    simp only [List.append_nil, firstN_nil] at this
    call this
    intro _
    cancel

theorem reverseLoop_spec {x : Elem W} {Y R : List (Elem W)} {px : Addr} (hl : l ≠ 0) (hs : ∀ y ∈ x :: Y, y.node ≠ s) :
    Triple (V := V) nf (fld l 1 a ∗ fld l 2 s ∗ fld a 1 px ∗ pathTail R s ∗ SList.path x.node (nodes Y ++ [s])) (reverseLoop l x.node (firstN R s))
      (fun _ => fld l 1 a ∗ fld l 2 s ∗ SList.path a (nodes ((x :: Y).reverse ++ R) ++ [s])) := by
  induction Y generalizing x R px with
  | nil =>
    rw [reverseLoop]
    simp only [List.map_nil, List.nil_append, SList.path]
    unfold end_
    steps
    · simpa using hl
    steps
    rw [if_pos (hs x (by simp))]
    steps
    rw [reverseLoop]
    unfold end_
    steps
    · simpa using hl
    steps
    rw [if_neg (by simp)]
    apply Triple.ret
    simp only [List.reverse_singleton, List.singleton_append, List.map_cons, List.cons_append, SList.path]
    rw [path_first]
    cancel
  | cons y Y ih =>
    rw [reverseLoop]
    simp only [List.map_cons, List.cons_append, SList.path]
    unfold end_
    steps
    · simpa using hl
    steps
    rw [if_pos (hs x (by simp))]
    steps
    have ih' := ih (x := y) (R := x :: R) (px := x.node) (fun y hy => hs y (by simp [hy]))
    rw [pathTail, path_first, firstN_cons] at ih'
    call ih'
    intro _
    simp only [List.reverse_cons, List.append_assoc, List.singleton_append]
    cancel

theorem elts_reverse (Y : List (Elem W)) : elts e Own Y.reverse = elts e Own Y := by
  induction Y with
  | nil => rfl
  | cons y Y ih => rw [List.reverse_cons, elts_append, ih, elts, elts, elts, sep_emp, sep_comm]

theorem reverse_spec : Triple nf (isL e Own l a s t xs) (reverse l) (fun _ => isL e Own l a s t xs.reverse) := by
  refine list_facts emp (by rw [sep_emp]; exact ent_refl _) fun f => ?_
  refine Triple.pre (P' := isL e Own l a s t xs ∗ emp) (by cancel) ?_
  unfold reverse
  refine cps empty_spec ?_
  cases xs with
  | nil => simp; apply Triple.ret; cancel
  | cons x xs =>
    rw [if_neg (by simp)]
    refine single_spec ?_
    apply Triple.ite
    · intro h1
      have : xs = [] := by simpa using h1
      subst this
      apply Triple.ret
      simp only [List.reverse_singleton]
      cancel
    · intro _
      refine cps begin_spec (cps end_spec ?_)
      have hr := reverseLoop_spec (V := V) (nf := nf) (l := l) (a := a) (s := s) (x := x) (Y := xs) (R := []) (px := x.node) f.l0 f.ns
      simp only [firstN_nil, pathTail, List.append_nil] at hr
      simp only [isL, hdr, elts_reverse, List.map_cons, List.cons_append, SList.path, firstN_cons]
      call hr
      intro _
      cancel

end CC.Info.S
