import Verif.Info.OwnRemove
import Verif.List.Sort
/-!
# Lists of elements with callbacks and storage of their own: splicing, merging, sorting, reversing

The functions relink nodes and ask the client's comparison, here an arbitrary program on the locations of two elements.
-/
namespace CC.Info.L
open CC.CList (prv nxt valp ltype begin_ end_ empty transfer at_ size)
variable {V : Type}

/-- loop of `c_list_merge_by`, c_list.c:830-839; returns the final `other_node`; `comp` is the client's function -/
def mergeLoop (comp : Loc → Loc → M V Bool) (node last otherNode otherLast : Addr) : M V Addr :=
  if node ≠ last ∧ otherNode ≠ otherLast then do
    let x ← valp otherNode
    let y ← valp node
    let r ← comp (x, 1) (y, 1)
    if r then do
      let otherNext ← nxt otherNode
      transfer node otherNode otherNext
      mergeLoop comp node last otherNext otherLast
    else do
      let node ← nxt node
      mergeLoop comp node last otherNode otherLast
  else pure otherNode
partial_fixpoint

/-- `c_list_merge_by`, c_list.c:821-843 (a NULL `comp` is `none`) -/
def mergeBy (l other : Addr) (comp : Option (Loc → Loc → M V Bool)) : M V Unit :=
  if l = 0 then pure () else do
  let e ← empty other
  if e then pure () else do
  match comp with
  | none => pure ()
  | some comp => do
    let t1 ← ltype l
    let t2 ← ltype other
    if !isSame t1 t2 then pure () else do
    let node ← begin_ l
    let last ← end_ l
    let otherNode ← begin_ other
    let otherLast ← end_ other
    let otherNode ← mergeLoop comp node last otherNode otherLast
    if otherNode ≠ otherLast then transfer last otherNode otherLast
    else pure ()

/-- `c_list_merge`, c_list.c:815-819; `Q` gives the client's functions by their addresses -/
def merge (Q : Nat → Loc → Loc → M V Bool) (l other : Addr) : M V Unit :=
  if l = 0 then pure () else do
  let t ← ltype l
  let f ← ldN (t, 8)
  mergeBy l other (if f = 0 then none else some (Q f))

/-- inner loop of `c_list_sort_by`, c_list.c:922-925; returns the final `i` -/
def sortCarry (comp : Loc → Loc → M V Bool) (carry : Addr) (cs : List Addr) (fill i : Nat) : M V Nat :=
  if i < fill then do
    let c ← at_ cs i
    let e ← empty c
    if e then pure i else do
    mergeBy c carry (some comp)
    CList.swap carry c
    sortCarry comp carry cs fill (i+1)
  else pure i
partial_fixpoint

/-- main loop of `c_list_sort_by`, c_list.c:919-928; returns the final `fill` -/
def sortLoop (comp : Loc → Loc → M V Bool) (l carry : Addr) (cs : List Addr) (fill : Nat) : M V Nat := do
  let e ← empty l
  if e then pure fill else do
  let b ← begin_ carry
  let f ← begin_ l
  let f' ← begin_ l
  let n ← nxt f'
  transfer b f n
  let i ← sortCarry comp carry cs fill 0
  let c ← at_ cs i
  CList.swap carry c
  sortLoop comp l carry cs (if i = fill then fill + 1 else fill)
partial_fixpoint

/-- final merges of `c_list_sort_by`, c_list.c:930-931 -/
def sortFinal (comp : Loc → Loc → M V Bool) (cs : List Addr) (fill i : Nat) : M V Unit :=
  if i < fill then do
    let c ← at_ cs i
    let c' ← at_ cs (i - 1)
    mergeBy c c' (some comp)
    sortFinal comp cs fill (i+1)
  else pure ()
partial_fixpoint

/-- creation of the counters of `c_list_sort_by`, c_list.c:912-916; stops at the first failure -/
def createCounters (t : Addr) : Nat → M V (List Addr × Bool)
  | 0 => pure ([], true)
  | k+1 => do
    let c ← listCreate t
    if c = 0 then pure (List.replicate (k+1) 0, false) else do
    let (cs, ok) ← createCounters t k
    pure (c :: cs, ok)

/-- destruction of the counters, c_list.c:935-937 -/
def destroyCounters (C : Funs V) : List Addr → M V Unit
  | [] => pure ()
  | c :: cs => do
    destroy C c
    destroyCounters C cs

/-- `c_list_sort_by`, c_list.c:905-939 -/
def sortBy (C : Funs V) (l : Addr) (comp : Option (Loc → Loc → M V Bool)) : M V Unit := do
  let e ← empty l
  if e then pure () else do
  let n ← size l
  if n = 1 then pure () else do
  match comp with
  | none => pure ()
  | some comp => do
    let t ← ltype l
    let carry ← listCreate t
    if carry = 0 then pure () else do
    let t ← ltype l
    let (cs, ok) ← createCounters t 64
    if ok then do
      let fill ← sortLoop comp l carry cs 0
      sortFinal comp cs fill 1
      let c ← at_ cs (fill - 1)
      CList.swap l c
      destroyCounters C cs
      destroy C carry
    else do
      destroyCounters C cs
      destroy C carry

/-- `c_list_sort`, c_list.c:898-903 -/
def sort (C : Funs V) (Q : Nat → Loc → Loc → M V Bool) (l : Addr) : M V Unit := do
  let e ← empty l
  if e then pure () else do
  let n ← size l
  if n = 1 then pure () else do
  let t ← ltype l
  let f ← ldN (t, 8)
  sortBy C l (if f = 0 then none else some (Q f))

end CC.Info.L

namespace CC.Info.L
open CC.Tac
open CC.CList (link path hdr Elem prv nxt valp setPrv setNxt setValp lnode ltype begin_ end_ empty valOf transfer ltE at_ Ent rflat rflat_append rflat_empty Good GoodFrom Rearr)
variable {V W α β : Type} {nf : Prop} {C : Funs V} {i : Table} {t t2 : Addr} {A D : HProp V} {Own : Addr → HProp V}
variable {e : ElemSpec nf (ops C i) W} {l s o s2 : Addr} {xs ys : List (Elem W)} {R : HProp V}

theorem ltype_spec : Triple nf (isList e Own l s t xs) (ltype l) (fun r => ⌜r = t⌝ ∗ isList e Own l s t xs) := by
  unfold isList hdr
  steps
  apply Triple.ret
  cancel

theorem nxt_spec {X Y : List (Elem W)} {x : Elem W} : Triple nf (isList e Own l s t (X ++ x :: Y)) (nxt x.node) (fun r => ⌜r = firstN Y s⌝ ∗ isList e Own l s t (X ++ x :: Y)) := by
  rw [isList, path_split_cons, link, link]
  steps
  apply Triple.ret
  cancel

theorem valp_spec {X Y : List (Elem W)} {x : Elem W} : Triple nf (isList e Own l s t (X ++ x :: Y)) (valp x.node) (fun r => ⌜r = x.box⌝ ∗ isList e Own l s t (X ++ x :: Y)) := by
  rw [list_elem]
  steps
  apply Triple.ret
  cancel

theorem swap_spec {l2 s2 : Addr} {ys : List (Elem W)} :
    Triple nf (isList e Own l s t xs ∗ isList e Own l2 s2 t ys) (CList.swap l l2) (fun _ => isList e Own l s2 t ys ∗ isList e Own l2 s t xs) := by
  refine list_facts (e := e) (Own := Own) (l := l) (s := s) (t := t) (xs := xs) (isList e Own l2 s2 t ys) (by cancel) fun hl _ _ => ?_
  refine list_facts (e := e) (Own := Own) (l := l2) (s := s2) (t := t) (xs := ys) (isList e Own l s t xs) (by cancel) fun hl2 _ _ => ?_
  unfold CList.swap
  rw [if_neg (by simp [hl, hl2])]
  unfold isList hdr
  steps
  apply Triple.ret
  cancel

/-! ### two lists at once -/

theorem isList_blk {X Y : List (Elem W)} : ∃ R, isList e Own l s t (X ++ Y) = (blk (firstN Y s) 3 ∗ R) := by
  cases Y with
  | nil =>
    refine ⟨(blk l 2 ∗ fld l 1 s ∗ fld l 2 t ∗ fld s 3 0) ∗ path s (nodes (X ++ []) ++ [s]) ∗ elts e Own (X ++ []), ?_⟩
    unfold isList hdr; rw [firstN_nil]; ac_rfl
  | cons x Y =>
    refine ⟨hdr l s t ∗ path s (nodes (X ++ x :: Y) ++ [s]) ∗ elts e Own X ∗ (fld x.node 3 x.box ∗ Own x.box ∗ cell e (x.box, 1) x.val) ∗ elts e Own Y, ?_⟩
    unfold isList; rw [firstN_cons, elts_append, elts, elt]; ac_rfl

theorem two_lists_ne {X Y Z Z' : List (Elem W)} {m : M V α} {Q : α → HProp V} {P R : HProp V}
    (hP : P ⊢ₛ isList e Own l s t (X ++ Y) ∗ isList e Own o s2 t2 (Z ++ Z') ∗ R)
    (h : firstN Y s ≠ firstN Z' s2 → Triple nf P m Q) : Triple nf P m Q := by
  refine Triple.fact (fun h hp => ?_) h
  have hh := hP h hp
  obtain ⟨R1, h1⟩ := isList_blk (e := e) (Own := Own) (l := l) (s := s) (t := t) (X := X) (Y := Y)
  obtain ⟨R2, h2⟩ := isList_blk (e := e) (Own := Own) (l := o) (s := s2) (t := t2) (X := Z) (Y := Z')
  rw [h1, h2] at hh
  exact CList.blk_ne (a := firstN Y s) (b := firstN Z' s2) (n := 3) (m := 3) (R := R1 ∗ R2 ∗ R) (h := h) (by ac_rfl) hh

/-- the nodes of a list are distinct from each other and from the sentinel -/
theorem seg_ne {X Y : List (Elem W)} {x : Elem W} {m : M V α} {Q : α → HProp V} {P R : HProp V} (hP : P ⊢ₛ isList e Own l s t (X ++ x :: Y) ∗ R)
    (h : (∀ Z Z', Y = Z ++ Z' → x.node ≠ firstN Z' s) → Triple nf P m Q) : Triple nf P m Q := by
  refine Triple.fact (fun h hp Z Z' hY => ?_) h
  have hh := hP h hp
  subst hY
  cases Z' with
  | nil =>
    rw [isList, hdr] at hh
    refine elts_nodes_ne (e := e) (Own := Own) (xs := X ++ x :: (Z ++ [])) (R := (blk l 2 ∗ fld l 1 s ∗ fld l 2 t ∗ fld s 3 0) ∗ path s (nodes (X ++ x :: (Z ++ [])) ++ [s]) ∗ R) ((show _ ⊢ₛ _ by cancel) _ hh) x (by simp)
  | cons z Z' =>
    rw [isList, elts_append, elts, elt, elts_append, elts, elt] at hh
    rw [firstN_cons]
    exact CList.blk_ne (a := x.node) (b := z.node) (n := 3) (m := 3) (R := hdr l s t ∗ path s (nodes (X ++ x :: (Z ++ z :: Z')) ++ [s]) ∗ elts e Own X ∗ (fld x.node 3 x.box ∗ Own x.box ∗ cell e (x.box, 1) x.val) ∗
      elts e Own Z ∗ (fld z.node 3 z.box ∗ Own z.box ∗ cell e (z.box, 1) z.val) ∗ elts e Own Z' ∗ R) rfl ((show _ ⊢ₛ _ by cancel) _ hh)

/-- moving a segment from one list to another -/
theorem transfer_lists {X Y Z N Z' : List (Elem W)} :
    Triple nf (isList e Own l s t (X ++ Y) ∗ isList e Own o s2 t2 (Z ++ N ++ Z')) (transfer (firstN Y s) (firstN N (firstN Z' s2)) (firstN Z' s2))
      (fun _ => isList e Own l s t (X ++ N ++ Y) ∗ isList e Own o s2 t2 (Z ++ Z')) := by
  cases N with
  | nil =>
    call CList.transfer_noop
    intro _
    simp only [List.append_nil]
    cancel
  | cons x N =>
    refine two_lists_ne (e := e) (Own := Own) (X := X) (Y := Y) (Z := Z ++ x :: N) (Z' := Z') (R := emp) (l := l) (s := s) (t := t) (o := o) (s2 := s2) (t2 := t2) (by cancel) fun h1 => ?_
    refine seg_ne (e := e) (Own := Own) (l := o) (s := s2) (t := t2) (X := Z) (x := x) (Y := N ++ Z') (R := isList e Own l s t (X ++ Y)) (by rw [List.append_assoc, List.cons_append]; cancel) fun h2 => ?_
    have h2 := h2 N Z' rfl
    have e1 : isList e Own o s2 t2 (Z ++ x :: N ++ Z') = (hdr o s2 t2 ∗ (path s2 (nodes Z) ∗ link (lastN Z s2) x.node ∗
        (path x.node (nodes N) ∗ link (lastN N x.node) (firstN Z' s2)) ∗ pathTail Z' s2) ∗ elts e Own Z ∗ (elt e Own x ∗ elts e Own N) ∗ elts e Own Z') := by
      rw [isList, List.append_assoc, List.cons_append, path_split, elts_append, elts, elts_append, pathTail, firstN_cons, path_split]
      ac_rfl
    have e2 : isList e Own o s2 t2 (Z ++ Z') = (hdr o s2 t2 ∗ (path s2 (nodes Z) ∗ link (lastN Z s2) (firstN Z' s2) ∗ pathTail Z' s2) ∗ elts e Own Z ∗ elts e Own Z') := by
      rw [isList, path_split, elts_append]
    have e3 : isList e Own l s t (X ++ Y) = (hdr l s t ∗ (path s (nodes X) ∗ link (lastN X s) (firstN Y s) ∗ pathTail Y s) ∗ elts e Own X ∗ elts e Own Y) := by
      rw [isList, path_split, elts_append]
    have e4 : isList e Own l s t (X ++ x :: N ++ Y) = (hdr l s t ∗ (path s (nodes X) ∗ link (lastN X s) x.node ∗
        (path x.node (nodes N) ∗ link (lastN N x.node) (firstN Y s)) ∗ pathTail Y s) ∗ elts e Own X ∗ (elt e Own x ∗ elts e Own N) ∗ elts e Own Y) := by
      rw [isList, List.append_assoc, List.cons_append, path_split, elts_append, elts, elts_append, pathTail, firstN_cons, path_split]
      ac_rfl
    rw [firstN_cons, e1, e2, e3, e4]
    call (CList.transfer_spec (pp := lastN X s) (fp := lastN Z s2) (lp := lastN N x.node) h1 h2)
    intro _
    cancel

/-! ### merging -/

theorem mergeLoop_spec {comp : Loc → Loc → M V Bool} {p : W → W → Bool} {X B Z : List (Elem W)} (hp : Asks2 e D comp p) :
    Triple nf (isList e Own l s t (X ++ B) ∗ isList e Own o s2 t2 Z ∗ D) (mergeLoop comp (firstN B s) s (firstN Z s2) s2)
      (fun r => ∃ₛ N Z', ⌜mergeL (ltE p) B Z = N ++ Z' ∧ r = firstN Z' s2⌝ ∗ isList e Own l s t (X ++ N) ∗ isList e Own o s2 t2 Z' ∗ D) := by
  induction B generalizing X Z with
  | nil =>
    rw [mergeLoop, if_neg (by simp)]
    apply Triple.ret
    xexists [], Z
    cancel
    exact ⟨by simp [mergeL_nil_left], rfl⟩
  | cons b B ihB =>
    induction Z generalizing X with
    | nil =>
      rw [mergeLoop, if_neg (by simp)]
      apply Triple.ret
      xexists b :: B, []
      cancel
      exact ⟨by simp [mergeL_nil_right], rfl⟩
    | cons c Z ihC =>
      refine list_facts (e := e) (Own := Own) (l := l) (s := s) (t := t) (xs := X ++ b :: B) (isList e Own o s2 t2 (c :: Z) ∗ D) (by cancel) fun _ _ hs => ?_
      refine list_facts (e := e) (Own := Own) (l := o) (s := s2) (t := t2) (xs := c :: Z) (isList e Own l s t (X ++ b :: B) ∗ D) (by cancel) fun _ _ hs2 => ?_
      rw [mergeLoop, if_pos ⟨by rw [firstN_cons]; exact hs b (List.mem_append_right _ List.mem_cons_self), by rw [firstN_cons]; exact hs2 c List.mem_cons_self⟩]
      simp only [firstN_cons]
      rw [← List.nil_append (c :: Z)]
      call (valp_spec (e := e) (Own := Own) (l := o) (s := s2) (t := t2) (X := []) (Y := Z) (x := c))
      intro r
      xsub
      call (valp_spec (e := e) (Own := Own) (l := l) (s := s) (t := t) (X := X) (Y := B) (x := b))
      intro r
      xsub
      refine Triple.pre (P' := (D ∗ cell e (c.box, 1) c.val ∗ cell e (b.box, 1) b.val) ∗
        (hdr o s2 t2 ∗ path s2 (nodes ([] ++ c :: Z) ++ [s2]) ∗ elts e Own [] ∗ (blk c.node 3 ∗ fld c.node 3 c.box ∗ Own c.box) ∗ elts e Own Z) ∗
        (hdr l s t ∗ path s (nodes (X ++ b :: B) ++ [s]) ∗ elts e Own X ∗ (blk b.node 3 ∗ fld b.node 3 b.box ∗ Own b.box) ∗ elts e Own B)) (by rw [list_elem, list_elem]; cancel) ?_
      refine Triple.bind_frame (hp (c.box, 1) (b.box, 1) c.val b.val) (ent_refl _) fun r => ?_
      xsub
      refine Triple.pre (P' := isList e Own l s t (X ++ b :: B) ∗ isList e Own o s2 t2 ([] ++ c :: Z) ∗ D) (by rw [list_elem, list_elem]; cancel) ?_
      rw [List.nil_append, mergeL_cons, show ltE p c b = p c.val b.val from rfl]
      split
      · rw [← List.nil_append (c :: Z)]
        call (nxt_spec (e := e) (Own := Own) (l := o) (s := s2) (t := t2) (X := []) (Y := Z) (x := c))
        intro r
        xsub
        have ht := transfer_lists (nf := nf) (e := e) (Own := Own) (l := l) (s := s) (t := t) (o := o) (s2 := s2) (t2 := t2) (X := X) (Y := b :: B) (Z := []) (N := [c]) (Z' := Z)
        simp only [List.nil_append, firstN_cons, List.singleton_append] at ht
        rw [List.nil_append]
        call ht
        intro _
        have ih := ihC (X := X ++ [c])
        simp only [firstN_cons] at ih
        call ih
        intro r
        xintro N Z' ⟨h1, h2⟩
        xexists c :: N, Z'
        simp only [List.append_assoc, List.singleton_append, List.cons_append]
        cancel
        exact ⟨by rw [h1], h2⟩
      · call (nxt_spec (e := e) (Own := Own) (l := l) (s := s) (t := t) (X := X) (Y := B) (x := b))
        intro r
        xsub
        have ih := ihB (X := X ++ [b]) (Z := c :: Z)
        simp only [firstN_cons, List.append_assoc, List.singleton_append] at ih
        call ih
        intro r
        xintro N Z' ⟨h1, h2⟩
        xexists b :: N, Z'
        simp only [List.append_assoc, List.singleton_append, List.cons_append]
        cancel
        exact ⟨by rw [h1], h2⟩

theorem mergeBy_spec {comp : Loc → Loc → M V Bool} {p : W → W → Bool} (hp : Asks2 e D comp p) (ht : isSame t t2 = true) :
    Triple nf (isList e Own l s t xs ∗ isList e Own o s2 t2 ys ∗ D) (mergeBy l o (some comp))
      (fun _ => isList e Own l s t (mergeL (ltE p) xs ys) ∗ isList e Own o s2 t2 [] ∗ D) := by
  refine list_facts (e := e) (Own := Own) (l := l) (s := s) (t := t) (xs := xs) (isList e Own o s2 t2 ys ∗ D) (by cancel) fun hl _ _ => ?_
  unfold mergeBy
  rw [if_neg hl]
  call (empty_spec (e := e) (Own := Own) (l := o) (s := s2) (t := t2) (xs := ys))
  intro r
  xsub
  cases ys with
  | nil => simp [mergeL_nil_right]; apply Triple.ret; cancel
  | cons y ys =>
    rw [if_neg (by simp)]
    dsimp only
    call (ltype_spec (e := e) (Own := Own) (l := l) (s := s) (t := t) (xs := xs))
    intro r
    xsub
    call (ltype_spec (e := e) (Own := Own) (l := o) (s := s2) (t := t2) (xs := y :: ys))
    intro r
    xsub
    rw [if_neg (by simp [ht])]
    call (begin_spec (e := e) (Own := Own) (l := l) (s := s) (t := t) (xs := xs))
    intro r
    xsub
    call (end_spec (e := e) (Own := Own) (l := l) (s := s) (t := t) (xs := xs))
    intro r
    xsub
    call (begin_spec (e := e) (Own := Own) (l := o) (s := s2) (t := t2) (xs := y :: ys))
    intro r
    xsub
    call (end_spec (e := e) (Own := Own) (l := o) (s := s2) (t := t2) (xs := y :: ys))
    intro r
    xsub
    have := mergeLoop_spec (nf := nf) (e := e) (Own := Own) (l := l) (s := s) (t := t) (o := o) (s2 := s2) (t2 := t2) (X := []) (B := xs) (Z := y :: ys) hp
    simp only [List.nil_append] at this
    call this
    intro r
    xintro N Z' ⟨h1, rfl⟩
    rw [h1]
    apply Triple.ite
    · intro hne
      have ht := transfer_lists (nf := nf) (e := e) (Own := Own) (l := l) (s := s) (t := t) (o := o) (s2 := s2) (t2 := t2) (X := N) (Y := []) (Z := []) (N := Z') (Z' := [])
      simp only [List.nil_append, firstN_nil, List.append_nil] at ht
      call ht
      intro _
      cancel
    · intro hne
      refine list_facts (e := e) (Own := Own) (l := o) (s := s2) (t := t2) (xs := Z') (isList e Own l s t N ∗ D) (by cancel) fun _ _ hs2 => ?_
      cases Z' with
      | nil => apply Triple.ret; simp only [List.append_nil]; cancel
      | cons c Z' => exact absurd (by simpa using hne) (hs2 c List.mem_cons_self)

/-! ### sorting -/

section
variable (e : ElemSpec nf (ops C i) W) (Own : Addr → HProp V)
/-- the counters in memory -/
def bag (t : Addr) : List (Ent W) → HProp V
  | [] => emp
  | u :: T => isList e Own u.c u.s t u.ys ∗ bag t T
end

theorem bag_append (T1 T2 : List (Ent W)) : bag e Own t (T1 ++ T2) = (bag e Own t T1 ∗ bag e Own t T2) := by
  induction T1 with
  | nil => simp [bag]
  | cons u T ih => simp only [List.cons_append, bag, ih, sep_assoc]

theorem bag_split (T1 T2 : List (Ent W)) (u : Ent W) : bag e Own t (T1 ++ u :: T2) = (bag e Own t T1 ∗ isList e Own u.c u.s t u.ys ∗ bag e Own t T2) := by
  rw [bag_append, bag]

theorem at_append (T1 T2 : List (Ent W)) (u : Ent W) : at_ (V := V) ((T1 ++ u :: T2).map Ent.c) T1.length = pure u.c := by
  simp [at_]

theorem sortCarry_spec {comp : Loc → Loc → M V Bool} {p : W → W → Bool} {ty : Addr} {cc sc fill : Nat} {T1 T2 : List (Ent W)} {z : List (Elem W)} (hp : Asks2 e D comp p) (hty : ty ≠ 0)
    (hT1 : ∀ t ∈ T1, t.ys = []) (hT2 : GoodFrom p fill T1.length T2) (hz : z.length = 2 ^ T1.length)
    (hzs : StrictWeak p → Sorted (ltE p) z) (hf1 : T1.length ≤ fill) (hf2 : fill ≤ T1.length + T2.length) :
    Triple nf (bag e Own ty (T1 ++ T2) ∗ isList e Own cc sc ty z ∗ D) (sortCarry comp cc ((T1 ++ T2).map Ent.c) fill T1.length)
      (fun r => ∃ₛ T1' T2' sc' z', ⌜(r = T1'.length ∧ (T1' ++ T2').map Ent.c = (T1 ++ T2).map Ent.c ∧
          (∀ t ∈ T1', t.ys = []) ∧ GoodFrom p fill T1'.length T2' ∧ (∀ t, T2'.head? = some t → t.ys = []) ∧
          z'.length = 2 ^ T1'.length ∧ (StrictWeak p → Sorted (ltE p) z') ∧ T1'.length ≤ fill ∧
          Rearr p (rflat T2 ++ z) (rflat T2' ++ z'))⌝ ∗
        bag e Own ty (T1' ++ T2') ∗ isList e Own cc sc' ty z' ∗ D) := by
  induction T2 generalizing T1 sc z with
  | nil =>
    rw [sortCarry, if_neg (by simp at hf2; omega)]
    apply Triple.ret
    xexists T1, [], sc, z
    cancel
    refine ⟨rfl, rfl, hT1, trivial, by simp, hz, hzs, hf1, Rearr.refl _⟩
  | cons t T2 ih =>
    rw [sortCarry]
    apply Triple.ite
    · intro hi
      rw [at_append, bag_split]
      step
      call (empty_spec (e := e) (Own := Own) (t := ty) (l := t.c) (s := t.s) (xs := t.ys))
      intro r
      xsub
      apply Triple.ite
      · intro he
        have hte : t.ys = [] := by simpa using he
        apply Triple.ret
        xexists T1, t :: T2, sc, z
        rw [bag_split]
        cancel
        refine ⟨rfl, rfl, hT1, hT2, ?_, hz, hzs, hf1, Rearr.refl _⟩
        intro t' ht'
        simp only [List.head?_cons, Option.some.injEq] at ht'
        subst ht'; exact hte
      · intro he
        call (mergeBy_spec (e := e) (Own := Own) (l := t.c) (s := t.s) (xs := t.ys) (o := cc) (s2 := sc) (ys := z) (t := ty) (t2 := ty) hp (by simp [isSame, hty]))
        intro _
        call (swap_spec (e := e) (Own := Own) (t := ty) (l := cc) (s := sc) (xs := []) (l2 := t.c) (s2 := t.s) (ys := mergeL (ltE p) t.ys z))
        intro _
        have hlen : t.ys.length = 2 ^ T1.length := by
          rcases hT2.1.1.1 with h | h
          · rw [h] at he; simp at he
          · exact h
        have ih' := ih (T1 := T1 ++ [⟨t.c, sc, []⟩]) (sc := t.s) (z := mergeL (ltE p) t.ys z)
          (by
            intro t' ht'
            rcases List.mem_append.1 ht' with h | h
            · exact hT1 t' h
            · simp at h; simp [h])
          (by simpa using hT2.2)
          (by rw [mergeL_length, hlen, hz]; simp [Nat.pow_succ]; omega)
          (fun h => mergeL_sorted (h.comap Elem.val) (hT2.1.1.2 h) (hzs h))
          (by simp; omega) (by simp at hf2 ⊢; omega)
        rw [show (T1 ++ t :: T2).map Ent.c = (T1 ++ [(⟨t.c, sc, []⟩ : Ent W)] ++ T2).map Ent.c by simp,
          show T1.length + 1 = (T1 ++ [(⟨t.c, sc, []⟩ : Ent W)]).length by simp]
        refine Triple.call_frame ih' (R := emp) ?_ ?_
        · rw [List.append_assoc, List.singleton_append, bag_split]
          cancel
        · intro r
          xintro T1' T2' sc' z' ⟨h1, h2, h3, h4, h5, h6, h7, h8, h9⟩
          xexists T1', T2', sc', z'
          cancel
          refine ⟨h1, h2, h3, h4, h5, h6, h7, h8, ?_⟩
          rw [rflat, List.append_assoc]
          exact ((Rearr.refl _).append (Rearr.merge hT2.1.1.2)).trans h9
    · intro hi
      apply Triple.ret
      xexists T1, t :: T2, sc, z
      cancel
      refine ⟨rfl, rfl, hT1, hT2, ?_, hz, hzs, hf1, Rearr.refl _⟩
      intro t' ht'
      simp only [List.head?_cons, Option.some.injEq] at ht'
      subst ht'; exact hT2.1.2 (by omega)

theorem sortLoop_spec {comp : Loc → Loc → M V Bool} {p : W → W → Bool} {ty : Addr} {cc sc fill : Nat} {T : List (Ent W)} {L : List (Elem W)} (hp : Asks2 e D comp p) (hty : ty ≠ 0)
    (hT : GoodFrom p fill 0 T) (hf : fill ≤ T.length) (hlen : (rflat T ++ L).length < 2 ^ T.length) :
    Triple nf (bag e Own ty T ∗ isList e Own cc sc ty [] ∗ isList e Own l s ty L ∗ D) (sortLoop comp l cc (T.map Ent.c) fill)
      (fun r => ∃ₛ T' sc', ⌜T'.map Ent.c = T.map Ent.c ∧ GoodFrom p r 0 T' ∧ r ≤ T'.length ∧
          fill ≤ r ∧ (L ≠ [] → 0 < r) ∧ Rearr p (rflat T ++ L) (rflat T')⌝ ∗
        bag e Own ty T' ∗ isList e Own cc sc' ty [] ∗ isList e Own l s ty [] ∗ D) := by
  induction L generalizing T fill sc with
  | nil =>
    rw [sortLoop]
    call (empty_spec (e := e) (Own := Own) (t := ty) (l := l) (s := s) (xs := []))
    intro r
    xsub
    rw [if_pos (by rfl)]
    apply Triple.ret
    xexists T, sc
    cancel
    refine ⟨rfl, hT, hf, Nat.le_refl _, by simp, by simpa using Rearr.refl _⟩
  | cons x L ih =>
    rw [sortLoop]
    call (empty_spec (e := e) (Own := Own) (t := ty) (l := l) (s := s) (xs := x :: L))
    intro r
    xsub
    rw [if_neg (by simp)]
    call (begin_spec (e := e) (Own := Own) (t := ty) (l := cc) (s := sc) (xs := []))
    intro r
    xsub
    call (begin_spec (e := e) (Own := Own) (t := ty) (l := l) (s := s) (xs := x :: L))
    intro r
    xsub
    call (begin_spec (e := e) (Own := Own) (t := ty) (l := l) (s := s) (xs := x :: L))
    intro r
    xsub
    rw [firstN_nil, firstN_cons, ← List.nil_append (x :: L)]
    call (nxt_spec (e := e) (Own := Own) (t := ty) (l := l) (s := s) (X := []) (Y := L) (x := x))
    intro r
    xsub
    have ht := transfer_lists (nf := nf) (e := e) (Own := Own) (l := cc) (s := sc) (t := ty) (o := l) (s2 := s) (t2 := ty) (X := []) (Y := []) (Z := []) (N := [x]) (Z' := L)
    simp only [List.nil_append, firstN_cons, List.singleton_append, firstN_nil, List.append_nil] at ht
    rw [List.nil_append]
    call ht
    intro _
    have hc := sortCarry_spec (nf := nf) (e := e) (Own := Own) (p := p) (ty := ty) (cc := cc) (sc := sc) (fill := fill) (T1 := []) (T2 := T) (z := [x]) hp hty
      (by simp) hT rfl (fun _ => List.pairwise_singleton _ _) (by simp) (by simpa using hf)
    simp only [List.nil_append, List.length_nil] at hc
    call hc
    intro r
    xintro T1 T2 sc1 z ⟨rfl, h2, h3, h4, h5, h6, h7, h8, h9⟩
    have hTl : T1.length + T2.length = T.length := by
      have := congrArg List.length h2
      simpa using this
    cases T2 with
    | nil =>
      exfalso
      have := h9.1.length_eq
      simp only [rflat, List.nil_append, List.length_append, List.length_singleton, List.length_cons, List.length_nil] at this hTl hlen
      rw [h6, show T1.length = T.length from hTl] at this
      omega
    | cons t T2 =>
      have hte := h5 t rfl
      rw [← h2, at_append, bag_split]
      step
      call (swap_spec (e := e) (Own := Own) (t := ty) (l := cc) (s := sc1) (xs := z) (l2 := t.c) (s2 := t.s) (ys := t.ys))
      intro _
      rw [hte]
      let T' : List (Ent W) := T1 ++ ⟨t.c, sc1, z⟩ :: T2
      have hTR : Rearr p (rflat T ++ [x]) (rflat T') := by
        refine h9.trans ?_
        rw [rflat, hte, List.append_nil, rflat_append, rflat_empty h3, List.append_nil, rflat]
        exact Rearr.refl _
      have hT'l : T'.length = T.length := by simp [T'] at hTl ⊢; omega
      have ih' := ih (T := T') (fill := if T1.length = fill then fill + 1 else fill) (sc := t.s)
        (by
          rw [GoodFrom.append]
          refine ⟨GoodFrom.empties h3, ⟨⟨Or.inr (by simpa using h6), h7⟩, ?_⟩, ?_⟩
          · intro h; exfalso; simp only [Nat.zero_add] at h; split at h <;> omega
          · rw [Nat.zero_add]; exact GoodFrom.mono (by split <;> omega) h4.2)
        (by rw [hT'l]; split <;> simp at hTl <;> omega)
        (by
          rw [hT'l]
          have := hTR.1.length_eq
          simp only [List.length_append, List.length_cons, List.length_nil] at this hlen ⊢
          omega)
      rw [show (T1 ++ t :: T2).map Ent.c = T'.map Ent.c by simp [T']]
      refine Triple.call_frame ih' (R := emp) ?_ ?_
      · rw [show bag e Own ty T' = _ from bag_split _ _ _]
        cancel
      · intro r
        xintro T'' sc' ⟨g1, g2, g3, g4, g5, g6⟩
        xexists T'', sc'
        cancel
        refine ⟨by rw [g1], g2, g3, ?_, ?_, ?_⟩
        · split at g4 <;> omega
        · intro _; split at g4 <;> omega
        · have : rflat T ++ x :: L = (rflat T ++ [x]) ++ L := by simp
          rw [this]
          exact (hTR.append (Rearr.refl _)).trans g6

theorem sortFinal_spec {comp : Loc → Loc → M V Bool} {p : W → W → Bool} {ty : Addr} {fill : Nat} {T1 T2 : List (Ent W)} {t : Ent W} (hp : Asks2 e D comp p) (hty : ty ≠ 0)
    (hT1 : ∀ t ∈ T1, t.ys = []) (hts : StrictWeak p → Sorted (ltE p) t.ys)
    (hT2 : GoodFrom p fill (T1.length + 1) T2) (hf1 : T1.length + 1 ≤ fill) (hf2 : fill ≤ T1.length + 1 + T2.length) :
    Triple nf (bag e Own ty (T1 ++ t :: T2) ∗ D) (sortFinal comp ((T1 ++ t :: T2).map Ent.c) fill (T1.length + 1))
      (fun _ => ∃ₛ T1' t' T2', ⌜(T1' ++ t' :: T2').map Ent.c = (T1 ++ t :: T2).map Ent.c ∧ T1'.length + 1 = fill ∧
          (∀ t ∈ T1', t.ys = []) ∧ (∀ t ∈ T2', t.ys = []) ∧ (StrictWeak p → Sorted (ltE p) t'.ys) ∧
          Rearr p (rflat T2 ++ t.ys) t'.ys⌝ ∗ bag e Own ty (T1' ++ t' :: T2') ∗ D) := by
  induction T2 generalizing T1 t with
  | nil =>
    have hf2' : fill ≤ T1.length + 1 := by simpa using hf2
    rw [sortFinal, if_neg (by omega)]
    apply Triple.ret
    xexists T1, t, []
    cancel
    exact ⟨rfl, by omega, hT1, by simp, hts, Rearr.refl _⟩
  | cons u T2 ih =>
    rw [sortFinal]
    apply Triple.ite
    · intro hi
      have e1 : at_ (V := V) ((T1 ++ t :: u :: T2).map Ent.c) (T1.length + 1) = pure u.c := by
        have := at_append (V := V) (T1 ++ [t]) T2 u
        simpa using this
      rw [e1, Nat.add_sub_cancel, at_append, bag_split, bag]
      steps
      call (mergeBy_spec (e := e) (Own := Own) (l := u.c) (s := u.s) (xs := u.ys) (o := t.c) (s2 := t.s) (ys := t.ys) (t := ty) (t2 := ty) hp (by simp [isSame, hty]))
      intro _
      have ih' := ih (T1 := T1 ++ [⟨t.c, t.s, []⟩]) (t := ⟨u.c, u.s, mergeL (ltE p) u.ys t.ys⟩)
        (by
          intro t' ht'
          rcases List.mem_append.1 ht' with h | h
          · exact hT1 t' h
          · simp at h; simp [h])
        (fun h => mergeL_sorted (h.comap Elem.val) (hT2.1.1.2 h) (hts h))
        (by simpa using hT2.2) (by simp; omega) (by simp at hf2 ⊢; omega)
      rw [show (T1 ++ t :: u :: T2).map Ent.c = (T1 ++ [(⟨t.c, t.s, []⟩ : Ent W)] ++ (⟨u.c, u.s, mergeL (ltE p) u.ys t.ys⟩ : Ent W) :: T2).map Ent.c by simp,
          show T1.length + 1 + 1 = (T1 ++ [(⟨t.c, t.s, []⟩ : Ent W)]).length + 1 by simp]
      refine Triple.call_frame ih' (R := emp) ?_ ?_
      · rw [List.append_assoc, List.singleton_append, bag_split, bag]
        cancel
      · intro r
        xintro T1' t' T2' ⟨h1, h2, h3, h4, h5, h6⟩
        xexists T1', t', T2'
        cancel
        refine ⟨h1, h2, h3, h4, h5, ?_⟩
        rw [rflat, List.append_assoc]
        exact ((Rearr.refl _).append (Rearr.merge hT2.1.1.2)).trans h6
    · intro hi
      apply Triple.ret
      xexists T1, t, u :: T2
      cancel
      have hall := GoodFrom.all_empty (by omega) hT2
      refine ⟨rfl, by omega, hT1, hall, hts, ?_⟩
      rw [rflat_empty hall]
      exact Rearr.refl _

theorem listCreate_spec {P : HProp V} {Q : β → HProp V} {k : Addr → M V β} (hi : Complete i) (ht : t ≠ 0) (hfail : ¬ nf → Triple nf (info t i ∗ P) (k 0) Q)
    (hok : ∀ l s, l ≠ 0 → Triple nf (isList e Own l s t [] ∗ info t i ∗ P) (k l) Q) : Triple nf (info t i ∗ P) (listCreate t >>= k) Q := by
  unfold listCreate
  rw [if_neg ht, bind_assoc]
  refine validate_cps hi ?_
  exact create_spec (e := e) (Own := Own) ht hfail hok

theorem createCounters_spec {k : Nat} {P : HProp V} {Q : β → HProp V} {kk : List Addr × Bool → M V β} (hi : Complete i) (ht : t ≠ 0)
    (hfail : ∀ T n, ¬ nf → Triple nf (info t i ∗ bag e Own t T ∗ P) (kk (T.map Ent.c ++ List.replicate n 0, false)) Q)
    (hok : ∀ T, T.length = k → (∀ u ∈ T, u.ys = []) → Triple nf (info t i ∗ bag e Own t T ∗ P) (kk (T.map Ent.c, true)) Q) :
    Triple nf (info t i ∗ P) (createCounters t k >>= kk) Q := by
  induction k generalizing P kk with
  | zero =>
    rw [createCounters, pure_bind]
    have := hok [] rfl (by simp)
    simpa [bag] using this
  | succ k ih =>
    rw [createCounters, bind_assoc]
    refine listCreate_spec (e := e) (Own := Own) hi ht (fun h => ?_) fun c s hc => ?_
    · rw [if_pos rfl, pure_bind]
      have := hfail [] (k+1) h
      simpa [bag] using this
    · rw [if_neg hc, bind_assoc]
      refine Triple.pre (P' := info t i ∗ isList e Own c s t [] ∗ P) (by cancel) ?_
      refine ih (fun T n h => ?_) fun T hT hTe => ?_
      · rw [pure_bind]
        have := hfail (⟨c, s, []⟩ :: T) n h
        refine Triple.pre ?_ this
        rw [bag]
        cancel
      · rw [pure_bind]
        have := hok (⟨c, s, []⟩ :: T) (by simp [hT]) (by
          intro u hu
          rcases List.mem_cons.1 hu with rfl | hu
          · rfl
          · exact hTe u hu)
        refine Triple.pre ?_ this
        rw [bag]
        cancel

theorem destroyCounters_spec {T : List (Ent W)} {n : Nat} (ha : Storage nf C i A Own) (hc : Calls i) (ht : t ≠ 0) :
    Triple nf (A ∗ info t i ∗ bag e Own t T) (destroyCounters C (T.map Ent.c ++ List.replicate n 0)) (fun _ => A ∗ info t i) := by
  induction T with
  | nil =>
    simp only [List.map_nil, List.nil_append, bag, sep_emp]
    induction n with
    | zero => rw [List.replicate_zero, destroyCounters]; apply Triple.ret; cancel
    | succ n ih =>
      rw [List.replicate_succ, destroyCounters, destroy, if_pos rfl, pure_bind]
      exact ih
  | cons u T ih =>
    rw [List.map_cons, List.cons_append, destroyCounters, bag]
    refine Triple.bind_frame (destroy_spec (e := e) (l := u.c) (s := u.s) (xs := u.ys) ha hc ht) (R := bag e Own t T) (by cancel) fun _ => ?_
    rw [sep_assoc]
    exact ih

theorem sortBy_spec {comp : Loc → Loc → M V Bool} {p : W → W → Bool} (ha : Storage nf C i A Own) (hi : Complete i) (ht : t ≠ 0) (hp : Asks2 e D comp p) (hlen : xs.length < 2 ^ 64) :
    Triple nf (A ∗ info t i ∗ isList e Own l s t xs ∗ D) (sortBy C l (some comp))
      (fun _ => hex fun s' => ∃ₛ ys, ⌜Rearr p xs ys ∧ ((StrictWeak p → Sorted (ltE p) ys) ∨ (¬ nf ∧ ys = xs))⌝ ∗ A ∗ info t i ∗ isList e Own l s' t ys ∗ D) := by
  have hc : Calls i := ⟨hi.2.1, hi.2.2.1, hi.2.2.2.1⟩
  unfold sortBy
  call (empty_spec (e := e) (Own := Own) (l := l) (s := s) (t := t) (xs := xs))
  intro r
  xsub
  apply Triple.ite
  · intro he
    have : xs = [] := by simpa using he
    subst this
    apply Triple.ret
    xexists s, []
    cancel
    exact ⟨Rearr.refl _, Or.inl fun _ => List.Pairwise.nil⟩
  intro he
  have hxs : xs ≠ [] := by simpa using he
  call (size_spec (e := e) (Own := Own) (l := l) (s := s) (t := t) (xs := xs))
  intro r
  xsub
  apply Triple.ite
  · intro h1
    obtain ⟨x, rfl⟩ := List.length_eq_one_iff.1 h1
    apply Triple.ret
    xexists s, [x]
    cancel
    exact ⟨Rearr.refl _, Or.inl fun _ => List.pairwise_singleton _ _⟩
  intro h1
  dsimp only
  call (ltype_spec (e := e) (Own := Own) (l := l) (s := s) (t := t) (xs := xs))
  intro r
  xsub
  refine Triple.pre (P' := info t i ∗ A ∗ isList e Own l s t xs ∗ D) (by cancel) ?_
  refine listCreate_spec (e := e) (Own := Own) hi ht (fun h => ?_) fun cc sc hcc => ?_
  · rw [if_pos rfl]
    apply Triple.ret
    xexists s, xs
    cancel
    exact ⟨Rearr.refl _, Or.inr ⟨h, rfl⟩⟩
  rw [if_neg hcc]
  call (ltype_spec (e := e) (Own := Own) (l := l) (s := s) (t := t) (xs := xs))
  intro r
  xsub
  refine Triple.pre (P' := info t i ∗ A ∗ isList e Own cc sc t [] ∗ isList e Own l s t xs ∗ D) (by cancel) ?_
  refine createCounters_spec (e := e) (Own := Own) hi ht (fun T n h => ?_) fun T hTl hTe => ?_
  · dsimp only
    rw [if_neg (by simp)]
    refine Triple.bind_frame (destroyCounters_spec (e := e) (T := T) (n := n) ha hc ht) (R := isList e Own cc sc t [] ∗ isList e Own l s t xs ∗ D) (by cancel) fun _ => ?_
    refine Triple.call_frame (destroy_spec (e := e) (l := cc) (s := sc) (xs := []) ha hc ht) (R := isList e Own l s t xs ∗ D) (by cancel) fun _ => ?_
    xexists s, xs
    cancel
    exact ⟨Rearr.refl _, Or.inr ⟨h, rfl⟩⟩
  dsimp only
  rw [if_pos rfl]
  have hl := sortLoop_spec (nf := nf) (e := e) (Own := Own) (p := p) (ty := t) (l := l) (s := s) (cc := cc) (sc := sc) (fill := 0) (T := T) (L := xs) hp ht
    (GoodFrom.empties hTe) (by omega) (by rw [rflat_empty hTe, hTl]; simpa using hlen)
  refine Triple.bind_frame hl (R := A ∗ info t i) (by cancel) fun fill => ?_
  xintro T' sc' ⟨h1, h2, h3, _, h5, h6⟩
  rw [rflat_empty hTe, List.nil_append] at h6
  have hfill := h5 hxs
  cases T' with
  | nil => exfalso; simp at h3; omega
  | cons u0 T' =>
    rw [← h1]
    have hf := sortFinal_spec (nf := nf) (e := e) (Own := Own) (p := p) (ty := t) (T1 := []) (t := u0) (T2 := T') (fill := fill) hp ht
      (by simp) h2.1.1.2 (by simpa using h2.2) (by simp; omega) (by simp at h3 ⊢; omega)
    simp only [List.nil_append, List.length_nil, Nat.zero_add] at hf
    refine Triple.bind_frame hf (R := A ∗ info t i ∗ isList e Own cc sc' t [] ∗ isList e Own l s t []) (by cancel) fun _ => ?_
    xintro T1 u T2 ⟨g1, g2, g3, g4, g5, g6⟩
    rw [← g1, show fill - 1 = T1.length by omega, at_append, bag_split, pure_bind]
    call (swap_spec (e := e) (Own := Own) (t := t) (l := l) (s := s) (xs := []) (l2 := u.c) (s2 := u.s) (ys := u.ys))
    intro _
    have hd := destroyCounters_spec (nf := nf) (e := e) (t := t) (T := T1 ++ ⟨u.c, s, []⟩ :: T2) (n := 0) ha hc ht
    simp only [List.replicate_zero, List.append_nil, bag_split] at hd
    rw [show (T1 ++ u :: T2).map Ent.c = (T1 ++ (⟨u.c, s, []⟩ : Ent W) :: T2).map Ent.c by simp]
    refine Triple.bind_frame hd (R := isList e Own cc sc' t [] ∗ isList e Own l u.s t u.ys ∗ D) (by cancel) fun _ => ?_
    refine Triple.call_frame (destroy_spec (e := e) (l := cc) (s := sc') (xs := []) ha hc ht) (R := isList e Own l u.s t u.ys ∗ D) (by cancel) fun _ => ?_
    xexists u.s, u.ys
    cancel
    exact ⟨h6.trans g6, Or.inl g5⟩

theorem sort_spec {Q : Nat → Loc → Loc → M V Bool} {p : W → W → Bool} (ha : Storage nf C i A Own) (hi : Complete i) (ht : t ≠ 0) (hq : i.less ≠ 0) (hp : Asks2 e D (Q i.less) p) (hlen : xs.length < 2 ^ 64) :
    Triple nf (A ∗ info t i ∗ isList e Own l s t xs ∗ D) (sort C Q l)
      (fun _ => hex fun s' => ∃ₛ ys, ⌜Rearr p xs ys ∧ ((StrictWeak p → Sorted (ltE p) ys) ∨ (¬ nf ∧ ys = xs))⌝ ∗ A ∗ info t i ∗ isList e Own l s' t ys ∗ D) := by
  unfold sort
  call (empty_spec (e := e) (Own := Own) (l := l) (s := s) (t := t) (xs := xs))
  intro r
  xsub
  apply Triple.ite
  · intro he
    have : xs = [] := by simpa using he
    subst this
    apply Triple.ret
    xexists s, []
    cancel
    exact ⟨Rearr.refl _, Or.inl fun _ => List.Pairwise.nil⟩
  intro he
  call (size_spec (e := e) (Own := Own) (l := l) (s := s) (t := t) (xs := xs))
  intro r
  xsub
  apply Triple.ite
  · intro h1
    obtain ⟨x, rfl⟩ := List.length_eq_one_iff.1 h1
    apply Triple.ret
    xexists s, [x]
    cancel
    exact ⟨Rearr.refl _, Or.inl fun _ => List.pairwise_singleton _ _⟩
  intro h1
  call (ltype_spec (e := e) (Own := Own) (l := l) (s := s) (t := t) (xs := xs))
  intro r
  xsub
  refine Triple.pre (P' := isList e Own l s t xs ∗ A ∗ info t i ∗ D) (by cancel) ?_
  have hr : ReadsN (isList e Own l s t xs ∗ A ∗ info t i ∗ D) (t, 8) i.less := ReadsN.of_ent (by unfold info; cancel)
  refine ldN_reads hr ?_
  rw [if_neg hq]
  exact Triple.pre (by cancel) (sortBy_spec ha hi ht hp hlen)

theorem merge_spec {Q : Nat → Loc → Loc → M V Bool} {p : W → W → Bool} (ht : t ≠ 0) (hq : i.less ≠ 0) (hp : Asks2 e D (Q i.less) p) :
    Triple nf (info t i ∗ isList e Own l s t xs ∗ isList e Own o s2 t ys ∗ D) (merge Q l o)
      (fun _ => info t i ∗ isList e Own l s t (mergeL (ltE p) xs ys) ∗ isList e Own o s2 t [] ∗ D) := by
  refine list_facts (e := e) (Own := Own) (l := l) (s := s) (t := t) (xs := xs) (info t i ∗ isList e Own o s2 t ys ∗ D) (by cancel) fun hl _ _ => ?_
  unfold merge
  rw [if_neg hl]
  refine Triple.pre (P' := isList e Own l s t xs ∗ info t i ∗ isList e Own o s2 t ys ∗ D) (by cancel) ?_
  refine ldN_reads list_type ?_
  have hr : ReadsN (isList e Own l s t xs ∗ info t i ∗ isList e Own o s2 t ys ∗ D) (t, 8) i.less := ReadsN.of_ent (by unfold info; cancel)
  refine ldN_reads hr ?_
  rw [if_neg hq]
  exact Triple.call_frame (mergeBy_spec (e := e) (Own := Own) (l := l) (s := s) (t := t) (xs := xs) (o := o) (s2 := s2) (t2 := t) (ys := ys) hp (by simp [isSame, ht])) (R := info t i) (by cancel) fun _ => by cancel


end CC.Info.L
