import Verif.Info.OwnSList
import Verif.Info.OwnRemove
/-!
# Forward lists of elements with callbacks and storage of their own: removal with the client's predicates
-/
namespace CC.Info.S
open CC.Tac
open CC.SList (hdr nxt valp setNxt setValp lanc lnode begin_ end_ beforeBegin empty)
open CC.CList (Elem)
open CC.CList (nodes vals firstN lastN firstN_nil firstN_cons lastN_nil lastN_append_cons lastN_cons)
variable {V W α β : Type} {nf : Prop} {C : Funs V} {i : Table} {t : Addr} {A D : HProp V} {Own : Addr → HProp V}
variable {e : ElemSpec nf (ops C i) W} {l a s : Addr} {xs : List (Elem W)}

/-- an element of a list, and the rest -/
theorem list_elem {X Y : List (Elem W)} {x : Elem W} : isL e Own l a s t (X ++ x :: Y) =
    (cell e (x.box, 1) x.val ∗ hdr l a s t ∗ SList.path a (nodes (X ++ x :: Y) ++ [s]) ∗ elts e Own X ∗ (blk x.node 2 ∗ fld x.node 2 x.box ∗ Own x.box) ∗ elts e Own Y) := by
  rw [isL, elts_append, elts, elt]
  ac_rfl

/-- two elements of a list, and the rest -/
theorem list_two {X Y : List (Elem W)} {x y : Elem W} : isL e Own l a s t (X ++ x :: y :: Y) =
    (cell e (x.box, 1) x.val ∗ cell e (y.box, 1) y.val ∗ hdr l a s t ∗ SList.path a (nodes (X ++ x :: y :: Y) ++ [s]) ∗ elts e Own X ∗ (blk x.node 2 ∗ fld x.node 2 x.box ∗ Own x.box) ∗
      (blk y.node 2 ∗ fld y.node 2 y.box ∗ Own y.box) ∗ elts e Own Y) := by
  rw [isL, elts_append, elts, elts, elt, elt]
  ac_rfl

theorem single_spec {P : HProp V} {x : Elem W} {k : Bool → M V β} {Q : β → HProp V}
    (hk : Triple nf (isL e Own l a s t (x :: xs) ∗ P) (k xs.isEmpty) Q) : Triple nf (isL e Own l a s t (x :: xs) ∗ P) (CC.SList.single l >>= k) Q := by
  refine list_facts P (ent_refl _) fun f => ?_
  unfold CC.SList.single
  simp only [bind_assoc]
  refine cps begin_spec ?_
  rw [firstN_cons]
  refine ldN_reads (nxt_rd' (X := []) (Y := xs)) ?_
  refine cps end_spec ?_
  rw [pure_bind]
  have : (firstN xs s == s) = xs.isEmpty := by
    cases xs with
    | nil => simp
    | cons y xs => simpa using f.ns y (by simp)
  rw [this]
  exact hk

theorem removeIfLoop_spec {pred : Loc → M V Bool} {p : W → Bool} {X Y : List (Elem W)} (ha : Storage nf C i A Own) (hc : Calls i) (ht : t ≠ 0) (hp : Asks e D pred p) :
    Triple nf (isL e Own l a s t (X ++ Y) ∗ A ∗ info t i ∗ D) (removeIfLoop C l pred (lastN X a) (firstN Y s) s)
      (fun _ => isL e Own l a s t (X ++ Y.filter fun x => !p x.val) ∗ A ∗ info t i ∗ D) := by
  induction Y generalizing X with
  | nil =>
    rw [removeIfLoop, if_neg (by simp)]
    apply Triple.ret
    simp only [List.filter_nil]
    cancel
  | cons x Y ih =>
    refine list_facts (A ∗ info t i ∗ D) (ent_refl _) fun f => ?_
    rw [removeIfLoop, if_pos ⟨by rw [firstN_cons]; exact f.ns x (by simp), f.lastN_ne.1⟩, firstN_cons]
    refine ldN_reads box_rd ?_
    rw [list_elem]
    refine Triple.bind_frame (hp (x.box, 1) x.val) (R := (hdr l a s t ∗ SList.path a (nodes (X ++ x :: Y) ++ [s]) ∗ elts e Own X ∗ (blk x.node 2 ∗ fld x.node 2 x.box ∗ Own x.box) ∗ elts e Own Y) ∗ A ∗ info t i) (by cancel) fun r => ?_
    xsub
    refine Triple.pre (P' := isL e Own l a s t (X ++ x :: Y) ∗ A ∗ info t i ∗ D) (by rw [list_elem]; cancel) ?_
    by_cases hpx : p x.val
    · rw [if_pos hpx]
      refine Triple.bind (popAfter_spec ha hc ht) fun r => ?_
      refine Triple.pure_left ?_
      rintro rfl
      rw [List.filter_cons_of_neg (by simp [hpx])]
      exact ih
    · rw [if_neg hpx]
      have h1 := nxt_rd (e := e) (Own := Own) (l := l) (a := a) (s := s) (t := t) (X := X) (Y := x :: Y) (P := A ∗ info t i ∗ D)
      rw [firstN_cons] at h1
      refine ldN_reads h1 ?_
      refine ldN_reads nxt_rd' ?_
      have ih' := ih (X := X ++ [x])
      simp only [List.append_assoc, List.cons_append, List.nil_append, lastN_append_cons, lastN_nil] at ih'
      rw [List.filter_cons_of_pos (by simp [hpx])]
      exact ih'

theorem removeIf_spec {pred : Loc → M V Bool} {p : W → Bool} (ha : Storage nf C i A Own) (hc : Calls i) (ht : t ≠ 0) (hp : Asks e D pred p) :
    Triple nf (isL e Own l a s t xs ∗ A ∗ info t i ∗ D) (removeIf C l (some pred))
      (fun _ => isL e Own l a s t (xs.filter fun x => !p x.val) ∗ A ∗ info t i ∗ D) := by
  unfold removeIf
  refine cps empty_spec ?_
  cases xs with
  | nil => simp only [List.isEmpty_nil, ↓reduceIte, List.filter_nil]; apply Triple.ret; cancel
  | cons x xs =>
    rw [if_neg (by simp)]
    dsimp only
    refine cps beforeBegin_spec ?_
    refine ldN_reads (nxt_rd (X := []) (Y := x :: xs)) ?_
    refine cps end_spec ?_
    exact removeIfLoop_spec (X := []) (Y := x :: xs) ha hc ht hp

theorem removeLoop_spec {Q : Nat → Loc → Loc → M V Bool} {p : W → W → Bool} {value : Loc} {v : W} {X Y : List (Elem W)} (ha : Storage nf C i A Own) (hc : Calls i) (ht : t ≠ 0) (hq : i.equal ≠ 0) (hp : Asks2 e D (Q i.equal) p) :
    Triple nf (isL e Own l a s t (X ++ Y) ∗ A ∗ info t i ∗ D ∗ cell e value v) (removeLoop C Q l value (lastN X a) (firstN Y s) s)
      (fun _ => isL e Own l a s t (X ++ Y.filter fun x => !p x.val v) ∗ A ∗ info t i ∗ D ∗ cell e value v) := by
  induction Y generalizing X with
  | nil =>
    rw [removeLoop, if_neg (by simp)]
    apply Triple.ret
    simp only [List.filter_nil]
    cancel
  | cons x Y ih =>
    refine list_facts (A ∗ info t i ∗ D ∗ cell e value v) (ent_refl _) fun f => ?_
    rw [removeLoop, if_pos ⟨by rw [firstN_cons]; exact f.ns x (by simp), f.lastN_ne.1⟩, firstN_cons]
    refine ldN_reads type_rd ?_
    refine ldN_reads box_rd ?_
    unfold callEqual
    rw [bind_assoc]
    have hr : ReadsN (isL e Own l a s t (X ++ x :: Y) ∗ A ∗ info t i ∗ D ∗ cell e value v) (t, 9) i.equal := ReadsN.of_ent (by unfold info; cancel)
    refine ldN_reads hr ?_
    rw [if_neg hq, list_elem]
    refine Triple.bind_frame (hp (x.box, 1) value x.val v) (R := (hdr l a s t ∗ SList.path a (nodes (X ++ x :: Y) ++ [s]) ∗ elts e Own X ∗ (blk x.node 2 ∗ fld x.node 2 x.box ∗ Own x.box) ∗ elts e Own Y) ∗ A ∗ info t i) (by cancel) fun r => ?_
    xsub
    refine Triple.pre (P' := isL e Own l a s t (X ++ x :: Y) ∗ A ∗ info t i ∗ D ∗ cell e value v) (by rw [list_elem]; cancel) ?_
    by_cases hpx : p x.val v
    · rw [if_pos hpx]
      refine Triple.bind (popAfter_spec ha hc ht) fun r => ?_
      refine Triple.pure_left ?_
      rintro rfl
      rw [List.filter_cons_of_neg (by simp [hpx])]
      exact ih
    · rw [if_neg hpx]
      have h1 := nxt_rd (e := e) (Own := Own) (l := l) (a := a) (s := s) (t := t) (X := X) (Y := x :: Y) (P := A ∗ info t i ∗ D ∗ cell e value v)
      rw [firstN_cons] at h1
      refine ldN_reads h1 ?_
      refine ldN_reads nxt_rd' ?_
      have ih' := ih (X := X ++ [x])
      simp only [List.append_assoc, List.cons_append, List.nil_append, lastN_append_cons, lastN_nil] at ih'
      rw [List.filter_cons_of_pos (by simp [hpx])]
      exact ih'

theorem remove_spec {Q : Nat → Loc → Loc → M V Bool} {p : W → W → Bool} {value : Loc} {v : W} (ha : Storage nf C i A Own) (hc : Calls i) (ht : t ≠ 0) (hq : i.equal ≠ 0) (hp : Asks2 e D (Q i.equal) p) (hv : value.1 ≠ 0) :
    Triple nf (isL e Own l a s t xs ∗ A ∗ info t i ∗ D ∗ cell e value v) (remove C Q l value)
      (fun _ => isL e Own l a s t (xs.filter fun x => !p x.val v) ∗ A ∗ info t i ∗ D ∗ cell e value v) := by
  unfold remove
  refine cps empty_spec ?_
  cases xs with
  | nil => simp only [List.isEmpty_nil, true_or, ↓reduceIte, List.filter_nil]; apply Triple.ret; cancel
  | cons x xs =>
    rw [if_neg (by simp [hv])]
    refine cps beforeBegin_spec ?_
    refine ldN_reads (nxt_rd (X := []) (Y := x :: xs)) ?_
    refine cps end_spec ?_
    exact removeLoop_spec (X := []) (Y := x :: xs) ha hc ht hq hp

theorem uniqueInner_spec {pred : Loc → Loc → M V Bool} {p : W → W → Bool} {X Y : List (Elem W)} {x : Elem W} (ha : Storage nf C i A Own) (hc : Calls i) (ht : t ≠ 0) (hp : Asks2 e D pred p) :
    Triple nf (isL e Own l a s t (X ++ x :: Y) ∗ A ∗ info t i ∗ D) (uniqueInner C l pred x.node (firstN Y s) s)
      (fun _ => isL e Own l a s t (X ++ x :: Y.dropWhile fun y => p x.val y.val) ∗ A ∗ info t i ∗ D) := by
  induction Y with
  | nil =>
    rw [uniqueInner, if_neg (by simp)]
    apply Triple.ret
    simp only [List.dropWhile_nil]
    cancel
  | cons y Y ih =>
    refine list_facts (A ∗ info t i ∗ D) (ent_refl _) fun f => ?_
    rw [uniqueInner, if_pos (by rw [firstN_cons]; exact f.ns y (by simp)), firstN_cons]
    have e1 : X ++ x :: y :: Y = (X ++ [x]) ++ y :: Y := by simp
    refine ldN_reads box_rd ?_
    rw [e1]
    refine ldN_reads box_rd ?_
    rw [← e1, list_two]
    refine Triple.bind_frame (hp (x.box, 1) (y.box, 1) x.val y.val) (R := (hdr l a s t ∗ SList.path a (nodes (X ++ x :: y :: Y) ++ [s]) ∗ elts e Own X ∗ (blk x.node 2 ∗ fld x.node 2 x.box ∗ Own x.box) ∗
      (blk y.node 2 ∗ fld y.node 2 y.box ∗ Own y.box) ∗ elts e Own Y) ∗ A ∗ info t i) (by cancel) fun r => ?_
    xsub
    refine Triple.pre (P' := isL e Own l a s t (X ++ x :: y :: Y) ∗ A ∗ info t i ∗ D) (by rw [list_two]; cancel) ?_
    by_cases hpx : p x.val y.val
    · rw [if_pos hpx, List.dropWhile_cons_of_pos (by simpa using hpx)]
      have he := popAfter_spec (e := e) (l := l) (a := a) (s := s) (X := X ++ [x]) (Y := Y) (x := y) (R := D) ha hc ht
      rw [lastN_append_cons, lastN_nil, ← e1] at he
      refine Triple.bind he fun r => ?_
      refine Triple.pure_left ?_
      rintro rfl
      rw [List.append_assoc, List.singleton_append]
      exact ih
    · rw [if_neg hpx, List.dropWhile_cons_of_neg (by simpa using hpx)]
      apply Triple.ret
      cancel

theorem uniqueLoop_spec {pred : Loc → Loc → M V Bool} {p : W → W → Bool} {X Y : List (Elem W)} (ha : Storage nf C i A Own) (hc : Calls i) (ht : t ≠ 0) (hp : Asks2 e D pred p) :
    Triple nf (isL e Own l a s t (X ++ Y) ∗ A ∗ info t i ∗ D) (uniqueLoop C l pred (firstN Y s) s)
      (fun _ => isL e Own l a s t (X ++ uniqBy (fun a b => p a.val b.val) Y) ∗ A ∗ info t i ∗ D) := by
  induction h : Y.length using Nat.strongRecOn generalizing X Y with
  | _ n ih =>
  cases Y with
  | nil =>
    rw [uniqueLoop, if_neg (by simp), uniqBy_nil]
    apply Triple.ret
    cancel
  | cons x Y =>
    refine list_facts (A ∗ info t i ∗ D) (ent_refl _) fun f => ?_
    rw [uniqueLoop, if_pos (by rw [firstN_cons]; exact f.ns x (by simp)), firstN_cons]
    refine ldN_reads nxt_rd' ?_
    by_cases hne : firstN Y s = s
    · rw [if_neg (by simpa using hne)]
      cases Y with
      | nil =>
        apply Triple.ret
        rw [uniqBy_cons, List.dropWhile_nil, uniqBy_nil]
        cancel
      | cons y Y => exact absurd hne (f.ns y (by simp))
    · rw [if_pos hne]
      refine ldN_reads nxt_rd' ?_
      refine Triple.bind (uniqueInner_spec ha hc ht hp) fun _ => ?_
      refine ldN_reads nxt_rd' ?_
      have h1 := List.dropWhile_sublist (l := Y) (fun y => p x.val y.val)
      have ih' := ih _ (by have := h1.length_le; simp at h; omega) (X := X ++ [x]) (Y := Y.dropWhile fun y => p x.val y.val) rfl
      simp only [List.append_assoc, List.cons_append, List.nil_append] at ih'
      rw [uniqBy_cons]
      exact ih'

theorem uniqueIf_spec {pred : Loc → Loc → M V Bool} {p : W → W → Bool} (ha : Storage nf C i A Own) (hc : Calls i) (ht : t ≠ 0) (hp : Asks2 e D pred p) :
    Triple nf (isL e Own l a s t xs ∗ A ∗ info t i ∗ D) (uniqueIf C l (some pred))
      (fun _ => isL e Own l a s t (uniqBy (fun a b => p a.val b.val) xs) ∗ A ∗ info t i ∗ D) := by
  unfold uniqueIf
  refine cps empty_spec ?_
  cases xs with
  | nil => simp only [List.isEmpty_nil, ↓reduceIte, uniqBy_nil]; apply Triple.ret; cancel
  | cons x xs =>
    rw [if_neg (by simp)]
    refine single_spec ?_
    cases xs with
    | nil =>
      rw [if_pos (by simp)]
      apply Triple.ret
      rw [uniqBy_cons, List.dropWhile_nil, uniqBy_nil]
      cancel
    | cons y xs =>
      rw [if_neg (by simp)]
      dsimp only
      refine cps end_spec (cps begin_spec ?_)
      exact uniqueLoop_spec (X := []) (Y := x :: y :: xs) ha hc ht hp

theorem unique_spec {Q : Nat → Loc → Loc → M V Bool} {p : W → W → Bool} (ha : Storage nf C i A Own) (hc : Calls i) (ht : t ≠ 0) (hq : i.equal ≠ 0) (hp : Asks2 e D (Q i.equal) p) :
    Triple nf (isL e Own l a s t xs ∗ A ∗ info t i ∗ D) (unique C Q l)
      (fun _ => isL e Own l a s t (uniqBy (fun a b => p a.val b.val) xs) ∗ A ∗ info t i ∗ D) := by
  refine list_facts (A ∗ info t i ∗ D) (ent_refl _) fun f => ?_
  unfold unique
  rw [if_neg f.l0]
  refine ldN_reads type_rd ?_
  have hr : ReadsN (isL e Own l a s t xs ∗ A ∗ info t i ∗ D) (t, 9) i.equal := ReadsN.of_ent (by unfold info; cancel)
  refine ldN_reads hr ?_
  rw [if_neg hq]
  exact uniqueIf_spec ha hc ht hp

end CC.Info.S
