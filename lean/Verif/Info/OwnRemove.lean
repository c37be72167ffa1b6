import Verif.Info.OwnCopy
import Verif.Spec.Order
/-!
# Lists of elements with callbacks and storage of their own: removal with the client's predicates
-/
namespace CC.Info
open CC.Tac
variable {V W : Type} {nf : Prop} {C : Funs V} {i : Table}

/-- the client's function `pred` answers `p` about the value of an element, keeps the element's value and may use the client's data `D` -/
def Asks (e : ElemSpec nf (ops C i) W) (D : HProp V) (pred : Loc → M V Bool) (p : W → Bool) : Prop :=
  ∀ a w, Triple nf (D ∗ cell e a w) (pred a) (fun r => ⌜r = p w⌝ ∗ D ∗ cell e a w)

/-- the same for a function of two elements -/
def Asks2 (e : ElemSpec nf (ops C i) W) (D : HProp V) (pred : Loc → Loc → M V Bool) (p : W → W → Bool) : Prop :=
  ∀ a b u w, Triple nf (D ∗ cell e a u ∗ cell e b w) (pred a b) (fun r => ⌜r = p u w⌝ ∗ D ∗ cell e a u ∗ cell e b w)
end CC.Info

namespace CC.Info.L
open CC.Tac
open CC.CList (link path hdr Elem prv nxt valp setPrv setNxt setValp lnode ltype begin_ end_ empty valOf)
variable {V W α β : Type} {nf : Prop} {C : Funs V} {i : Table} {t : Addr} {A D : HProp V} {Own : Addr → HProp V}
variable {e : ElemSpec nf (ops C i) W} {l s : Addr} {xs : List (Elem W)} {R : HProp V}

theorem popElem_spec {X Y : List (Elem W)} {x : Elem W} (ha : Storage nf C i A Own) (hc : Calls i) (ht : t ≠ 0) :
    Triple nf (A ∗ info t i ∗ isList e Own l s t (X ++ x :: Y)) (popNode C l x.node) (fun r => ⌜r = firstN Y s⌝ ∗ A ∗ info t i ∗ isList e Own l s t (X ++ Y)) := by
  refine list_facts (e := e) (Own := Own) (l := l) (s := s) (t := t) (xs := X ++ x :: Y) (A ∗ info t i) (by cancel) fun hl _ _ => ?_
  have he := erase_spec (X := X) (Y := Y) (x := x) (l := l) (s := s) (e := e) ha hc ht
  unfold erase at he
  rwa [if_neg hl] at he

theorem distanceLoop_spec {Y : List (Elem W)} {q : Addr} {n : Nat} (hq : ∀ x ∈ Y, x.node ≠ q) :
    Triple nf (pathTail Y q : HProp V) (CList.distanceLoop (firstN Y q) q n) (fun r => ⌜r = n + Y.length⌝ ∗ pathTail Y q) := by
  induction Y generalizing n with
  | nil => rw [CList.distanceLoop]; simp; apply Triple.ret; cancel
  | cons x Y ih =>
    rw [CList.distanceLoop, if_pos (by simpa using hq x (by simp))]
    simp only [pathTail, firstN_cons]
    rw [path_first]
    simp only [link]
    steps
    call (ih (n := n+1) (fun x hx => hq x (by simp [hx])))
    intro r
    xintro h
    cancel_core
    simp only [h, List.length_cons]; omega

theorem size_spec : Triple nf (isList e Own l s t xs) (CList.size l) (fun r => ⌜r = xs.length⌝ ∗ isList e Own l s t xs) := by
  refine list_facts emp (by rw [sep_emp]; exact ent_refl _) fun hl _ hs => ?_
  unfold CList.size
  rw [if_neg hl]
  call (begin_spec (e := e) (Own := Own) (s := s) (t := t) (xs := xs))
  intro b
  xsub
  call (end_spec (e := e) (Own := Own) (s := s) (t := t) (xs := xs))
  intro b
  xsub
  simp only [isList, path_first]
  call (distanceLoop_spec hs)
  intro r
  xintro h
  cancel_core
  simpa using h

theorem eraseRange_spec {X Y Z : List (Elem W)} (ha : Storage nf C i A Own) (hc : Calls i) (ht : t ≠ 0) :
    Triple nf (A ∗ info t i ∗ isList e Own l s t (X ++ (Y ++ Z)) ∗ R) (eraseRange C l (firstN (Y ++ Z) s) (firstN Z s))
      (fun r => ⌜r = firstN Z s⌝ ∗ A ∗ info t i ∗ isList e Own l s t (X ++ Z) ∗ R) := by
  induction Y with
  | nil =>
    rw [eraseRange, List.nil_append, if_neg (by simp)]
    apply Triple.ret
    cancel
  | cons y Y ih =>
    refine Triple.fact (p := y.node ≠ firstN Z s) (fun h hh => ?_) fun hne => ?_
    · cases Z with
      | nil =>
        rw [isList, hdr, elts_append] at hh
        exact elts_nodes_ne (e := e) (Own := Own) (xs := y :: Y ++ []) ((show _ ⊢ₛ blk s 3 ∗ elts e Own (y :: Y ++ []) ∗ A ∗ info t i ∗ (blk l 2 ∗ fld l 1 s ∗ fld l 2 t ∗ fld s 3 0) ∗
          path s (nodes (X ++ (y :: Y ++ [])) ++ [s]) ∗ elts e Own X ∗ R by cancel) _ hh) y (by simp)
      | cons z Z =>
        rw [isList, elts_append, elts_append, elts, elt] at hh
        rw [firstN_cons]
        rw [show elts e Own (z :: Z) = (elt e Own z ∗ elts e Own Z) from rfl, elt] at hh
        exact CList.blk_ne (a := y.node) (b := z.node) (n := 3) (m := 3) rfl ((show _ ⊢ₛ _ by cancel) _ hh)
    rw [eraseRange, if_pos (by rw [List.cons_append, firstN_cons]; exact hne), List.cons_append, firstN_cons]
    refine Triple.bind_frame (erase_spec (X := X) (Y := Y ++ Z) (x := y) (l := l) (s := s) (e := e) ha hc ht) (R := R) (by cancel) fun r => ?_
    xsub
    exact Triple.pre (by cancel) ih

theorem removeIfLoop_spec {pred : Loc → M V Bool} {p : W → Bool} {X Y : List (Elem W)} (ha : Storage nf C i A Own) (hc : Calls i) (ht : t ≠ 0) (hp : Asks e D pred p) :
    Triple nf (A ∗ info t i ∗ isList e Own l s t (X ++ Y) ∗ D) (removeIfLoop C l pred (firstN Y s) s)
      (fun _ => A ∗ info t i ∗ isList e Own l s t (X ++ Y.filter fun x => !p x.val) ∗ D) := by
  induction Y generalizing X with
  | nil =>
    rw [removeIfLoop, if_neg (by simp)]
    apply Triple.ret
    simp only [List.filter_nil]
    cancel
  | cons x Y ih =>
    refine list_facts (e := e) (Own := Own) (l := l) (s := s) (t := t) (xs := X ++ x :: Y) (A ∗ info t i ∗ D) (by cancel) fun hl _ hs => ?_
    rw [removeIfLoop, if_pos (by rw [firstN_cons]; exact hs x (List.mem_append_right _ List.mem_cons_self)), firstN_cons]
    refine Triple.pre (P' := isList e Own l s t (X ++ x :: Y) ∗ A ∗ info t i ∗ D) (by cancel) ?_
    refine ldN_reads (list_box (X := X) (Y := Y)) ?_
    rw [list_elem]
    refine Triple.bind_frame (hp (x.box, 1) x.val) (R := (hdr l s t ∗ path s (nodes (X ++ x :: Y) ++ [s]) ∗ elts e Own X ∗ (blk x.node 3 ∗ fld x.node 3 x.box ∗ Own x.box) ∗ elts e Own Y) ∗ A ∗ info t i) (by cancel) fun r => ?_
    xsub
    refine Triple.pre (P' := A ∗ info t i ∗ isList e Own l s t (X ++ x :: Y) ∗ D) (by rw [list_elem]; cancel) ?_
    by_cases hpx : p x.val
    · rw [if_pos hpx]
      refine Triple.bind_frame (popElem_spec (X := X) (Y := Y) (x := x) (l := l) (s := s) (e := e) ha hc ht) (R := D) (by cancel) fun r => ?_
      xsub
      rw [List.filter_cons_of_neg (by simp [hpx])]
      exact Triple.pre (by cancel) ih
    · rw [if_neg hpx]
      refine Triple.pre (P' := isList e Own l s t (X ++ x :: Y) ∗ A ∗ info t i ∗ D) (by cancel) ?_
      refine ldN_reads (list_next (X := X) (Y := Y)) ?_
      have ih' := ih (X := X ++ [x])
      simp only [List.append_assoc, List.cons_append, List.nil_append] at ih'
      rw [List.filter_cons_of_pos (by simp [hpx])]
      exact Triple.pre (by cancel) ih'

theorem removeIf_spec {pred : Loc → M V Bool} {p : W → Bool} (ha : Storage nf C i A Own) (hc : Calls i) (ht : t ≠ 0) (hp : Asks e D pred p) :
    Triple nf (A ∗ info t i ∗ isList e Own l s t xs ∗ D) (removeIf C l (some pred))
      (fun _ => A ∗ info t i ∗ isList e Own l s t (xs.filter fun x => !p x.val) ∗ D) := by
  unfold removeIf
  refine Triple.bind_frame (empty_spec (e := e) (Own := Own) (l := l) (s := s) (t := t) (xs := xs)) (R := A ∗ info t i ∗ D) (by cancel) fun r => ?_
  xsub
  cases xs with
  | nil => simp only [List.isEmpty_nil, ↓reduceIte, List.filter_nil]; apply Triple.ret; cancel
  | cons x xs =>
    rw [if_neg (by simp)]
    dsimp only
    refine Triple.bind_frame (begin_spec (e := e) (Own := Own) (l := l) (s := s) (t := t) (xs := x :: xs)) (R := A ∗ info t i ∗ D) (by cancel) fun r => ?_
    xsub
    refine Triple.bind_frame (end_spec (e := e) (Own := Own) (l := l) (s := s) (t := t) (xs := x :: xs)) (R := A ∗ info t i ∗ D) (by cancel) fun r => ?_
    xsub
    have := removeIfLoop_spec (l := l) (s := s) (X := []) (Y := x :: xs) ha hc ht hp
    simp only [List.nil_append] at this
    exact Triple.pre (by cancel) this

theorem removeLoop_spec {Q : Nat → Loc → Loc → M V Bool} {p : W → W → Bool} {value : Loc} {v : W} {X Y : List (Elem W)} (ha : Storage nf C i A Own) (hc : Calls i) (ht : t ≠ 0) (hq : i.equal ≠ 0) (hp : Asks2 e D (Q i.equal) p) :
    Triple nf (A ∗ info t i ∗ isList e Own l s t (X ++ Y) ∗ D ∗ cell e value v) (removeLoop C Q l value (firstN Y s) s)
      (fun _ => A ∗ info t i ∗ isList e Own l s t (X ++ Y.filter fun x => !p x.val v) ∗ D ∗ cell e value v) := by
  induction Y generalizing X with
  | nil =>
    rw [removeLoop, if_neg (by simp)]
    apply Triple.ret
    simp only [List.filter_nil]
    cancel
  | cons x Y ih =>
    refine list_facts (e := e) (Own := Own) (l := l) (s := s) (t := t) (xs := X ++ x :: Y) (A ∗ info t i ∗ D ∗ cell e value v) (by cancel) fun hl _ hs => ?_
    rw [removeLoop, if_pos (by rw [firstN_cons]; exact hs x (List.mem_append_right _ List.mem_cons_self)), firstN_cons]
    refine Triple.pre (P' := isList e Own l s t (X ++ x :: Y) ∗ A ∗ info t i ∗ D ∗ cell e value v) (by cancel) ?_
    refine ldN_reads list_type ?_
    refine ldN_reads (list_box (X := X) (Y := Y)) ?_
    unfold callEqual
    rw [bind_assoc]
    have hr : ReadsN (isList e Own l s t (X ++ x :: Y) ∗ A ∗ info t i ∗ D ∗ cell e value v) (t, 9) i.equal := ReadsN.of_ent (by unfold info; cancel)
    refine ldN_reads hr ?_
    rw [if_neg hq, list_elem]
    refine Triple.bind_frame (hp (x.box, 1) value x.val v) (R := (hdr l s t ∗ path s (nodes (X ++ x :: Y) ++ [s]) ∗ elts e Own X ∗ (blk x.node 3 ∗ fld x.node 3 x.box ∗ Own x.box) ∗ elts e Own Y) ∗ A ∗ info t i) (by cancel) fun r => ?_
    xsub
    refine Triple.pre (P' := A ∗ info t i ∗ isList e Own l s t (X ++ x :: Y) ∗ D ∗ cell e value v) (by rw [list_elem]; cancel) ?_
    by_cases hpx : p x.val v
    · rw [if_pos hpx]
      refine Triple.bind_frame (popElem_spec (X := X) (Y := Y) (x := x) (l := l) (s := s) (e := e) ha hc ht) (R := D ∗ cell e value v) (by cancel) fun r => ?_
      xsub
      rw [List.filter_cons_of_neg (by simp [hpx])]
      exact Triple.pre (by cancel) ih
    · rw [if_neg hpx]
      refine Triple.pre (P' := isList e Own l s t (X ++ x :: Y) ∗ A ∗ info t i ∗ D ∗ cell e value v) (by cancel) ?_
      refine ldN_reads (list_next (X := X) (Y := Y)) ?_
      have ih' := ih (X := X ++ [x])
      simp only [List.append_assoc, List.cons_append, List.nil_append] at ih'
      rw [List.filter_cons_of_pos (by simp [hpx])]
      exact Triple.pre (by cancel) ih'

theorem remove_spec {Q : Nat → Loc → Loc → M V Bool} {p : W → W → Bool} {value : Loc} {v : W} (ha : Storage nf C i A Own) (hc : Calls i) (ht : t ≠ 0) (hq : i.equal ≠ 0) (hp : Asks2 e D (Q i.equal) p) (hv : value.1 ≠ 0) :
    Triple nf (A ∗ info t i ∗ isList e Own l s t xs ∗ D ∗ cell e value v) (remove C Q l value)
      (fun _ => A ∗ info t i ∗ isList e Own l s t (xs.filter fun x => !p x.val v) ∗ D ∗ cell e value v) := by
  unfold remove
  refine Triple.bind_frame (empty_spec (e := e) (Own := Own) (l := l) (s := s) (t := t) (xs := xs)) (R := A ∗ info t i ∗ D ∗ cell e value v) (by cancel) fun r => ?_
  xsub
  cases xs with
  | nil => simp only [List.isEmpty_nil, true_or, ↓reduceIte, List.filter_nil]; apply Triple.ret; cancel
  | cons x xs =>
    rw [if_neg (by simp [hv])]
    refine Triple.bind_frame (begin_spec (e := e) (Own := Own) (l := l) (s := s) (t := t) (xs := x :: xs)) (R := A ∗ info t i ∗ D ∗ cell e value v) (by cancel) fun r => ?_
    xsub
    refine Triple.bind_frame (end_spec (e := e) (Own := Own) (l := l) (s := s) (t := t) (xs := x :: xs)) (R := A ∗ info t i ∗ D ∗ cell e value v) (by cancel) fun r => ?_
    xsub
    have := removeLoop_spec (value := value) (v := v) (l := l) (s := s) (X := []) (Y := x :: xs) ha hc ht hq hp
    simp only [List.nil_append] at this
    exact Triple.pre (by cancel) this

/-- two elements of a list, and the rest -/
theorem list_two {X Y : List (Elem W)} {x y : Elem W} : isList e Own l s t (X ++ x :: y :: Y) =
    (cell e (x.box, 1) x.val ∗ cell e (y.box, 1) y.val ∗ hdr l s t ∗ path s (nodes (X ++ x :: y :: Y) ++ [s]) ∗ elts e Own X ∗ (blk x.node 3 ∗ fld x.node 3 x.box ∗ Own x.box) ∗
      (blk y.node 3 ∗ fld y.node 3 y.box ∗ Own y.box) ∗ elts e Own Y) := by
  rw [isList, elts_append, elts, elts, elt, elt]
  ac_rfl

theorem uniqueInner_spec {pred : Loc → Loc → M V Bool} {p : W → W → Bool} {X Y : List (Elem W)} {x : Elem W} (ha : Storage nf C i A Own) (hc : Calls i) (ht : t ≠ 0) (hp : Asks2 e D pred p) :
    Triple nf (A ∗ info t i ∗ isList e Own l s t (X ++ x :: Y) ∗ D) (uniqueInner C l pred x.node (firstN Y s))
      (fun _ => A ∗ info t i ∗ isList e Own l s t (X ++ x :: Y.dropWhile fun y => p x.val y.val) ∗ D) := by
  induction Y with
  | nil =>
    rw [uniqueInner]
    refine Triple.bind_frame (end_spec (e := e) (Own := Own) (l := l) (s := s) (t := t) (xs := X ++ [x])) (R := A ∗ info t i ∗ D) (by cancel) fun r => ?_
    xsub
    rw [if_neg (by simp)]
    apply Triple.ret
    simp only [List.dropWhile_nil]
    cancel
  | cons y Y ih =>
    refine list_facts (e := e) (Own := Own) (l := l) (s := s) (t := t) (xs := X ++ x :: y :: Y) (A ∗ info t i ∗ D) (by cancel) fun hl _ hs => ?_
    rw [uniqueInner]
    refine Triple.bind_frame (end_spec (e := e) (Own := Own) (l := l) (s := s) (t := t) (xs := X ++ x :: y :: Y)) (R := A ∗ info t i ∗ D) (by cancel) fun r => ?_
    xsub
    rw [if_pos (by rw [firstN_cons]; exact hs y (by simp)), firstN_cons]
    have e1 : X ++ x :: y :: Y = (X ++ [x]) ++ y :: Y := by simp
    refine ldN_reads (list_box (X := X) (Y := y :: Y)) ?_
    rw [e1]
    refine ldN_reads (list_box (X := X ++ [x]) (Y := Y)) ?_
    rw [← e1, list_two]
    refine Triple.bind_frame (hp (x.box, 1) (y.box, 1) x.val y.val) (R := (hdr l s t ∗ path s (nodes (X ++ x :: y :: Y) ++ [s]) ∗ elts e Own X ∗ (blk x.node 3 ∗ fld x.node 3 x.box ∗ Own x.box) ∗
      (blk y.node 3 ∗ fld y.node 3 y.box ∗ Own y.box) ∗ elts e Own Y) ∗ A ∗ info t i) (by cancel) fun r => ?_
    xsub
    refine Triple.pre (P' := A ∗ info t i ∗ isList e Own l s t (X ++ x :: y :: Y) ∗ D) (by rw [list_two]; cancel) ?_
    by_cases hpx : p x.val y.val
    · rw [if_pos hpx, List.dropWhile_cons_of_pos (by simpa using hpx)]
      refine Triple.bind_frame (popElem_spec (X := X ++ [x]) (Y := Y) (x := y) (l := l) (s := s) (e := e) ha hc ht) (R := D) (by rw [e1]; cancel) fun r => ?_
      xsub
      exact Triple.pre (by rw [List.append_assoc, List.singleton_append]; cancel) ih
    · rw [if_neg hpx, List.dropWhile_cons_of_neg (by simpa using hpx)]
      apply Triple.ret
      cancel

theorem uniqueLoop_spec {pred : Loc → Loc → M V Bool} {p : W → W → Bool} {X Y : List (Elem W)} (ha : Storage nf C i A Own) (hc : Calls i) (ht : t ≠ 0) (hp : Asks2 e D pred p) :
    Triple nf (A ∗ info t i ∗ isList e Own l s t (X ++ Y) ∗ D) (uniqueLoop C l pred (firstN Y s))
      (fun _ => A ∗ info t i ∗ isList e Own l s t (X ++ uniqBy (fun a b => p a.val b.val) Y) ∗ D) := by
  induction h : Y.length using Nat.strongRecOn generalizing X Y with
  | _ n ih =>
  cases Y with
  | nil =>
    rw [uniqueLoop]
    refine Triple.bind_frame (end_spec (e := e) (Own := Own) (l := l) (s := s) (t := t) (xs := X ++ [])) (R := A ∗ info t i ∗ D) (by cancel) fun r => ?_
    xsub
    rw [if_neg (by simp), uniqBy_nil]
    apply Triple.ret
    cancel
  | cons x Y =>
    refine list_facts (e := e) (Own := Own) (l := l) (s := s) (t := t) (xs := X ++ x :: Y) (A ∗ info t i ∗ D) (by cancel) fun hl _ hs => ?_
    rw [uniqueLoop]
    refine Triple.bind_frame (end_spec (e := e) (Own := Own) (l := l) (s := s) (t := t) (xs := X ++ x :: Y)) (R := A ∗ info t i ∗ D) (by cancel) fun r => ?_
    xsub
    rw [if_pos (by rw [firstN_cons]; exact hs x (by simp)), firstN_cons]
    refine ldN_reads (list_next (X := X) (Y := Y)) ?_
    by_cases hne : firstN Y s = s
    · rw [if_neg (by simpa using hne)]
      cases Y with
      | nil =>
        apply Triple.ret
        rw [uniqBy_cons, List.dropWhile_nil, uniqBy_nil]
        cancel
      | cons y Y => exact absurd hne (hs y (by simp))
    · rw [if_pos hne]
      refine ldN_reads (list_next (X := X) (Y := Y)) ?_
      refine Triple.bind (Triple.pre (by cancel) (uniqueInner_spec (X := X) (Y := Y) (x := x) (l := l) (s := s) ha hc ht hp)) fun _ => ?_
      refine Triple.pre (P' := isList e Own l s t (X ++ x :: Y.dropWhile fun y => p x.val y.val) ∗ A ∗ info t i ∗ D) (by cancel) ?_
      refine ldN_reads (list_next (X := X)) ?_
      have h1 := List.dropWhile_sublist (l := Y) (fun y => p x.val y.val)
      have ih' := ih _ (by have := h1.length_le; simp at h; omega) (X := X ++ [x]) (Y := Y.dropWhile fun y => p x.val y.val) rfl
      simp only [List.append_assoc, List.cons_append, List.nil_append] at ih'
      rw [uniqBy_cons]
      exact Triple.pre (by cancel) ih'

theorem uniqueIf_spec {pred : Loc → Loc → M V Bool} {p : W → W → Bool} (ha : Storage nf C i A Own) (hc : Calls i) (ht : t ≠ 0) (hp : Asks2 e D pred p) :
    Triple nf (A ∗ info t i ∗ isList e Own l s t xs ∗ D) (uniqueIf C l (some pred))
      (fun _ => A ∗ info t i ∗ isList e Own l s t (uniqBy (fun a b => p a.val b.val) xs) ∗ D) := by
  unfold uniqueIf
  refine Triple.bind_frame (empty_spec (e := e) (Own := Own) (l := l) (s := s) (t := t) (xs := xs)) (R := A ∗ info t i ∗ D) (by cancel) fun r => ?_
  xsub
  cases xs with
  | nil => simp only [List.isEmpty_nil, ↓reduceIte, uniqBy_nil]; apply Triple.ret; cancel
  | cons x xs =>
    rw [if_neg (by simp)]
    refine Triple.bind_frame (size_spec (e := e) (Own := Own) (l := l) (s := s) (t := t) (xs := x :: xs)) (R := A ∗ info t i ∗ D) (by cancel) fun r => ?_
    xsub
    by_cases h1 : (x :: xs).length = 1
    · rw [if_pos h1]
      have : xs = [] := by simpa using h1
      subst this
      apply Triple.ret
      rw [uniqBy_cons, List.dropWhile_nil, uniqBy_nil]
      cancel
    · rw [if_neg h1]
      dsimp only
      refine Triple.bind_frame (begin_spec (e := e) (Own := Own) (l := l) (s := s) (t := t) (xs := x :: xs)) (R := A ∗ info t i ∗ D) (by cancel) fun r => ?_
      xsub
      have := uniqueLoop_spec (l := l) (s := s) (X := []) (Y := x :: xs) ha hc ht hp
      simp only [List.nil_append] at this
      exact Triple.pre (by cancel) this

theorem unique_spec {Q : Nat → Loc → Loc → M V Bool} {p : W → W → Bool} (ha : Storage nf C i A Own) (hc : Calls i) (ht : t ≠ 0) (hq : i.equal ≠ 0) (hp : Asks2 e D (Q i.equal) p) :
    Triple nf (A ∗ info t i ∗ isList e Own l s t xs ∗ D) (unique C Q l)
      (fun _ => A ∗ info t i ∗ isList e Own l s t (uniqBy (fun a b => p a.val b.val) xs) ∗ D) := by
  refine list_facts (e := e) (Own := Own) (l := l) (s := s) (t := t) (xs := xs) (A ∗ info t i ∗ D) (by cancel) fun hl _ _ => ?_
  unfold unique
  rw [if_neg hl]
  refine Triple.pre (P' := isList e Own l s t xs ∗ A ∗ info t i ∗ D) (by cancel) ?_
  refine ldN_reads list_type ?_
  have hr : ReadsN (isList e Own l s t xs ∗ A ∗ info t i ∗ D) (t, 9) i.equal := ReadsN.of_ent (by unfold info; cancel)
  refine ldN_reads hr ?_
  rw [if_neg hq]
  exact Triple.pre (by cancel) (uniqueIf_spec ha hc ht hp)

end CC.Info.L
