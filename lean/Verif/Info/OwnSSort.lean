import Verif.Info.OwnSRemove
import Verif.SList.Sort
/-!
# Forward lists of elements with callbacks and storage of their own: merging and sorting

The functions relink nodes and ask the client's comparison, here an arbitrary program on the locations of two elements.
-/
namespace CC.Info.S
open CC.SList (nxt valp ltype begin_ end_ beforeBegin empty transfer at_ single spliceGuard)
variable {V : Type}

/-- loop of `c_slist_merge_by`, c_forward_list.c:499-506; returns the final `node`; `comp` is the client's function -/
def mergeLoop (comp : Loc → Loc → M V Bool) (node last otherNode otherLast : Addr) : M V Addr := do
  let x ← nxt node
  if x ≠ last then do
    let y ← nxt otherNode
    if y ≠ otherLast then do
      let y ← nxt otherNode
      let by_ ← valp y
      let x ← nxt node
      let bx ← valp x
      let r ← comp (by_, 1) (bx, 1)
      if r then do
        let y ← nxt otherNode
        let yn ← nxt y
        transfer node otherNode yn
        mergeLoop comp node last otherNode otherLast
      else do
        let node ← nxt node
        mergeLoop comp node last otherNode otherLast
    else pure node
  else pure node
partial_fixpoint

/-- `c_slist_merge_by`, c_forward_list.c:491-511 (a NULL `comp` is `none`; the model tests it first, the test has no effect) -/
def mergeBy (l other : Addr) (comp : Option (Loc → Loc → M V Bool)) : M V Unit := do
  match comp with
  | none => pure ()
  | some comp => do
    let g ← spliceGuard l other
    if g then pure () else do
    let node ← beforeBegin l
    let last ← end_ l
    let otherNode ← beforeBegin other
    let otherLast ← end_ other
    let node ← mergeLoop comp node last otherNode otherLast
    let y ← nxt otherNode
    if y ≠ otherLast then transfer node otherNode otherLast
    else pure ()

/-- `c_slist_merge`, c_forward_list.c:485-489; `Q` gives the client's functions by their addresses -/
def merge (Q : Nat → Loc → Loc → M V Bool) (l other : Addr) : M V Unit :=
  if l = 0 then pure () else do
  let t ← ltype l
  let f ← ldN (t, 8)
  mergeBy l other (if f = 0 then none else some (Q f))

/-- inner loop of `c_slist_sort_by`, c_forward_list.c:593-596; returns the final `i` -/
def sortCarry (comp : Loc → Loc → M V Bool) (carry : Addr) (cs : List Addr) (fill i : Nat) : M V Nat :=
  if i < fill then do
    let c ← at_ cs i
    let e ← empty c
    if e then pure i else do
    mergeBy c carry (some comp)
    SList.swap carry c
    sortCarry comp carry cs fill (i+1)
  else pure i
partial_fixpoint

/-- main loop of `c_slist_sort_by`, c_forward_list.c:590-599; returns the final `fill` -/
def sortLoop (comp : Loc → Loc → M V Bool) (l carry : Addr) (cs : List Addr) (fill : Nat) : M V Nat := do
  let e ← empty l
  if e then pure fill else do
  let b ← beforeBegin carry
  let f ← beforeBegin l
  let f' ← begin_ l
  let n ← nxt f'
  transfer b f n
  let i ← sortCarry comp carry cs fill 0
  let c ← at_ cs i
  SList.swap carry c
  sortLoop comp l carry cs (if i = fill then fill + 1 else fill)
partial_fixpoint

/-- final merges of `c_slist_sort_by`, c_forward_list.c:601-603 -/
def sortFinal (comp : Loc → Loc → M V Bool) (cs : List Addr) (fill i : Nat) : M V Unit :=
  if i < fill then do
    let c ← at_ cs i
    let c' ← at_ cs (i - 1)
    mergeBy c c' (some comp)
    sortFinal comp cs fill (i+1)
  else pure ()
partial_fixpoint

/-- creation of the counters of `c_slist_sort_by`, c_forward_list.c:583-587; stops at the first failure -/
def createCounters (t : Addr) : Nat → M V (List Addr × Bool)
  | 0 => pure ([], true)
  | k+1 => do
    let c ← slistCreate t
    if c = 0 then pure (List.replicate (k+1) 0, false) else do
    let (cs, ok) ← createCounters t k
    pure (c :: cs, ok)

/-- destruction of the counters, c_forward_list.c:607-609 -/
def destroyCounters (C : Funs V) : List Addr → M V Unit
  | [] => pure ()
  | c :: cs => do
    destroy C c
    destroyCounters C cs

/-- `c_slist_sort_by`, c_forward_list.c:576-611 -/
def sortBy (C : Funs V) (l : Addr) (comp : Option (Loc → Loc → M V Bool)) : M V Unit := do
  let e ← empty l
  if e then pure () else do
  let o ← single l
  if o then pure () else do
  match comp with
  | none => pure ()
  | some comp => do
    let t ← ltype l
    let carry ← slistCreate t
    if carry = 0 then pure () else do
    let t ← ltype l
    let (cs, ok) ← createCounters t 64
    if ok then do
      let fill ← sortLoop comp l carry cs 0
      sortFinal comp cs fill 1
      let c ← at_ cs (fill - 1)
      SList.swap l c
      destroyCounters C cs
      destroy C carry
    else do
      destroyCounters C cs
      destroy C carry

/-- `c_slist_sort`, c_forward_list.c:570-574 -/
def sort (C : Funs V) (Q : Nat → Loc → Loc → M V Bool) (l : Addr) : M V Unit :=
  if l = 0 then pure () else do
  let t ← ltype l
  let f ← ldN (t, 8)
  sortBy C l (if f = 0 then none else some (Q f))

end CC.Info.S

namespace CC.Info.S
open CC.Tac
open CC.SList (hdr nxt valp setNxt setValp lanc lnode ltype begin_ end_ beforeBegin empty transfer at_ spliceGuard Ent rflat rflat_append rflat_empty Good GoodFrom mergeS mergeS_cons mergeS_nil_left mergeS_nil_right)
open CC.CList (Elem nodes vals firstN lastN firstN_nil firstN_cons lastN_nil lastN_append_cons lastN_cons ltE Rearr)
variable {V W α β : Type} {nf : Prop} {C : Funs V} {i : Table} {t t2 : Addr} {A D : HProp V} {Own : Addr → HProp V}
variable {e : ElemSpec nf (ops C i) W} {l a s o a2 s2 : Addr} {xs ys : List (Elem W)} {R : HProp V}

theorem ltype_spec : Triple nf (isL e Own l a s t xs) (ltype l) (fun r => ⌜r = t⌝ ∗ isL e Own l a s t xs) := by
  unfold isL hdr
  steps
  apply Triple.ret
  cancel

theorem nxt_spec {X Y : List (Elem W)} : Triple nf (isL e Own l a s t (X ++ Y)) (nxt (lastN X a)) (fun r => ⌜r = firstN Y s⌝ ∗ isL e Own l a s t (X ++ Y)) := by
  rw [isL, path_split]
  steps
  apply Triple.ret
  cancel

theorem nxt_spec' {X Y : List (Elem W)} {x : Elem W} : Triple nf (isL e Own l a s t (X ++ x :: Y)) (nxt x.node) (fun r => ⌜r = firstN Y s⌝ ∗ isL e Own l a s t (X ++ x :: Y)) := by
  rw [isL, path_split_cons]
  steps
  apply Triple.ret
  cancel

theorem valp_spec {X Y : List (Elem W)} {x : Elem W} : Triple nf (isL e Own l a s t (X ++ x :: Y)) (valp x.node) (fun r => ⌜r = x.box⌝ ∗ isL e Own l a s t (X ++ x :: Y)) := by
  rw [list_elem]
  steps
  apply Triple.ret
  cancel

theorem swap_spec : Triple nf (isL e Own l a s t xs ∗ isL e Own o a2 s2 t ys) (SList.swap l o) (fun _ => isL e Own l a2 s2 t ys ∗ isL e Own o a s t xs) := by
  refine list_facts (l := l) (xs := xs) (isL e Own o a2 s2 t ys) (ent_refl _) fun f => ?_
  refine list_facts (l := o) (xs := ys) (isL e Own l a s t xs) (by cancel) fun f2 => ?_
  unfold SList.swap
  rw [if_neg (by simp [f.l0, f2.l0])]
  unfold isL hdr
  steps
  apply Triple.ret
  cancel

/-! ### two lists at once -/

theorem isL_blk {X Y : List (Elem W)} : ∃ R, isL e Own l a s t (X ++ Y) = (blk (lastN X a) 2 ∗ R) := by
  rcases List.eq_nil_or_concat X with rfl | ⟨X, x, rfl⟩
  · refine ⟨(blk l 3 ∗ fld l 1 a ∗ fld l 2 s ∗ fld l 3 t ∗ fld a 2 0 ∗ blk s 2 ∗ fld s 1 0 ∗ fld s 2 0) ∗ SList.path a (nodes ([] ++ Y) ++ [s]) ∗ elts e Own ([] ++ Y), ?_⟩
    unfold isL hdr; rw [lastN_nil]; ac_rfl
  · refine ⟨hdr l a s t ∗ SList.path a (nodes (X ++ x :: Y) ++ [s]) ∗ elts e Own X ∗ (fld x.node 2 x.box ∗ Own x.box ∗ cell e (x.box, 1) x.val) ∗ elts e Own Y, ?_⟩
    rw [List.concat_eq_append, lastN_append_cons, lastN_nil, List.append_assoc, List.singleton_append]
    unfold isL; rw [elts_append, elts, elt]; ac_rfl

theorem two_lists_ne {X Y Z Z' : List (Elem W)} {m : M V α} {Q : α → HProp V} {P R : HProp V}
    (hP : P ⊢ₛ isL e Own l a s t (X ++ Y) ∗ isL e Own o a2 s2 t2 (Z ++ Z') ∗ R)
    (h : lastN X a ≠ lastN Z a2 → Triple nf P m Q) : Triple nf P m Q := by
  refine Triple.fact (fun h hp => ?_) h
  have hh := hP h hp
  obtain ⟨R1, h1⟩ := isL_blk (e := e) (Own := Own) (l := l) (a := a) (s := s) (t := t) (X := X) (Y := Y)
  obtain ⟨R2, h2⟩ := isL_blk (e := e) (Own := Own) (l := o) (a := a2) (s := s2) (t := t2) (X := Z) (Y := Z')
  rw [h1, h2] at hh
  exact CList.blk_ne (a := lastN X a) (b := lastN Z a2) (n := 2) (m := 2) (R := R1 ∗ R2 ∗ R) (h := h) (by ac_rfl) hh

/-- the nodes of a list are distinct from each other -/
theorem nodes_two {X Y Z : List (Elem W)} {x y : Elem W} {h : Heap V} (hh : (isL e Own l a s t (X ++ x :: Y ++ y :: Z) ∗ R) h) : x.node ≠ y.node := by
  rw [isL, List.append_assoc, List.cons_append, elts_append, elts, elt, elts_append, elts, elt] at hh
  exact CList.blk_ne (a := x.node) (b := y.node) (n := 2) (m := 2) (R := hdr l a s t ∗ SList.path a (nodes (X ++ x :: (Y ++ y :: Z)) ++ [s]) ∗ elts e Own X ∗ (fld x.node 2 x.box ∗ Own x.box ∗ cell e (x.box, 1) x.val) ∗
    elts e Own Y ∗ (fld y.node 2 y.box ∗ Own y.box ∗ cell e (y.box, 1) y.val) ∗ elts e Own Z ∗ R) rfl ((show _ ⊢ₛ _ by cancel) _ hh)

theorem mid_ne {X Y Z : List (Elem W)} {h : Heap V} (hh : (isL e Own l a s t (X ++ Y ++ Z) ∗ R) h) : ∀ y ∈ Y, y.node ≠ firstN Z s := by
  intro y hy
  cases Z with
  | nil => exact (facts hh).ns y (by simp [hy])
  | cons z Z =>
    obtain ⟨Y1, Y2, rfl⟩ := List.append_of_mem hy
    rw [firstN_cons]
    exact nodes_two (e := e) (Own := Own) (X := X ++ Y1) (Y := Y2) (Z := Z) (x := y) (y := z) (by simpa [List.append_assoc] using hh)

theorem last_ne_first {X Y Z : List (Elem W)} {h : Heap V} (hh : (isL e Own l a s t (X ++ Y ++ Z) ∗ R) h) : lastN X a ≠ firstN Z s := by
  cases Z with
  | nil =>
    have f := facts hh
    rw [List.append_assoc] at f
    exact f.lastN_ne.1
  | cons z Z =>
    rcases List.eq_nil_or_concat X with rfl | ⟨X, x, rfl⟩
    · exact ((facts hh).na z (by simp)).symm
    · rw [List.concat_eq_append, lastN_append_cons, lastN_nil, firstN_cons]
      exact nodes_two (e := e) (Own := Own) (X := X) (Y := Y) (Z := Z) (x := x) (y := z) (by simpa [List.append_assoc] using hh)

/-- walking from `p` to the last node before `last` -/
theorem findPrev_spec {p last : Addr} {N : List (Elem W)} (hN : ∀ x ∈ N, x.node ≠ last) :
    Triple (V := V) nf (SList.path p (nodes N ++ [last])) (CC.SList.findPrev p last) (fun r => ⌜r = lastN N p⌝ ∗ SList.path p (nodes N ++ [last])) := by
  induction N generalizing p with
  | nil =>
    rw [CC.SList.findPrev]
    simp only [List.map_nil, List.nil_append, SList.path]
    steps
    rw [if_neg (by simp)]
    apply Triple.ret
    cancel
  | cons x N ih =>
    rw [CC.SList.findPrev]
    simp only [List.map_cons, List.cons_append, SList.path]
    steps
    rw [if_pos (hN x (by simp))]
    call (ih (p := x.node) (fun y hy => hN y (by simp [hy])))
    intro r
    xsub
    cancel
    rw [lastN_cons]

/-- the chain `m, N` between `first` and `last` is moved behind `pos` -/
theorem transfer_spec {pos px first last : Addr} {m : Elem W} {N : List (Elem W)} (h1 : pos ≠ first) (h2 : first ≠ last) (hN : ∀ x ∈ m :: N, x.node ≠ last) :
    Triple (V := V) nf (fld pos 1 px ∗ fld first 1 m.node ∗ SList.path m.node (nodes N) ∗ fld (lastN N m.node) 1 last) (transfer pos first last)
      (fun _ => fld pos 1 m.node ∗ SList.path m.node (nodes N) ∗ fld (lastN N m.node) 1 px ∗ fld first 1 last) := by
  unfold transfer
  rw [if_pos ⟨h1, h2⟩]
  steps
  rw [if_pos (hN m (by simp))]
  steps
  refine Triple.bind_frame (findPrev_spec (nf := nf) (p := m.node) (last := last) (N := N) (fun x hx => hN x (by simp [hx]))) (R := fld pos 1 px ∗ fld first 1 m.node) ?_ ?_
  · rw [path_snoc]; cancel
  intro r
  xsub
  rw [path_snoc]
  steps
  apply Triple.ret
  cancel

/-- moving a segment from one list to another -/
theorem transfer_lists {X Y Z N Z' : List (Elem W)} :
    Triple nf (isL e Own l a s t (X ++ Y) ∗ isL e Own o a2 s2 t2 (Z ++ N ++ Z')) (transfer (lastN X a) (lastN Z a2) (firstN Z' s2))
      (fun _ => isL e Own l a s t (X ++ N ++ Y) ∗ isL e Own o a2 s2 t2 (Z ++ Z')) := by
  cases N with
  | nil =>
    simp only [List.append_nil]
    rw [show isL e Own o a2 s2 t2 (Z ++ Z') = (hdr o a2 s2 t2 ∗ (SList.path a2 (nodes Z) ∗ fld (lastN Z a2) 1 (firstN Z' s2) ∗ pathTail Z' s2) ∗ elts e Own (Z ++ Z')) by rw [isL, path_split]]
    call CC.SList.transfer_empty
    intro _
    cancel
  | cons m N =>
    refine two_lists_ne (e := e) (Own := Own) (X := X) (Y := Y) (Z := Z) (Z' := m :: N ++ Z') (R := emp) (l := l) (a := a) (s := s) (t := t) (o := o) (a2 := a2) (s2 := s2) (t2 := t2)
      (by rw [← List.append_assoc]; cancel) fun h1 => ?_
    refine Triple.fact (p := lastN Z a2 ≠ firstN Z' s2 ∧ ∀ y ∈ m :: N, y.node ≠ firstN Z' s2) (fun h hp => ?_) fun ⟨h2, h3⟩ => ?_
    · have hp' := (show _ ⊢ₛ isL e Own o a2 s2 t2 (Z ++ m :: N ++ Z') ∗ isL e Own l a s t (X ++ Y) by cancel) _ hp
      exact ⟨last_ne_first hp', mid_ne hp'⟩
    have e1 : isL e Own o a2 s2 t2 (Z ++ m :: N ++ Z') = (hdr o a2 s2 t2 ∗ (SList.path a2 (nodes Z) ∗ fld (lastN Z a2) 1 m.node ∗
        (SList.path m.node (nodes N) ∗ fld (lastN N m.node) 1 (firstN Z' s2)) ∗ pathTail Z' s2) ∗ elts e Own Z ∗ (elt e Own m ∗ elts e Own N) ∗ elts e Own Z') := by
      rw [isL, List.append_assoc, List.cons_append, path_split, elts_append, elts, elts_append, pathTail, firstN_cons, path_split]
      ac_rfl
    have e2 : isL e Own o a2 s2 t2 (Z ++ Z') = (hdr o a2 s2 t2 ∗ (SList.path a2 (nodes Z) ∗ fld (lastN Z a2) 1 (firstN Z' s2) ∗ pathTail Z' s2) ∗ elts e Own Z ∗ elts e Own Z') := by
      rw [isL, path_split, elts_append]
    have e3 : isL e Own l a s t (X ++ Y) = (hdr l a s t ∗ (SList.path a (nodes X) ∗ fld (lastN X a) 1 (firstN Y s) ∗ pathTail Y s) ∗ elts e Own X ∗ elts e Own Y) := by
      rw [isL, path_split, elts_append]
    have e4 : isL e Own l a s t (X ++ m :: N ++ Y) = (hdr l a s t ∗ (SList.path a (nodes X) ∗ fld (lastN X a) 1 m.node ∗
        (SList.path m.node (nodes N) ∗ fld (lastN N m.node) 1 (firstN Y s)) ∗ pathTail Y s) ∗ elts e Own X ∗ (elt e Own m ∗ elts e Own N) ∗ elts e Own Y) := by
      rw [isL, List.append_assoc, List.cons_append, path_split, elts_append, elts, elts_append, pathTail, firstN_cons, path_split]
      ac_rfl
    rw [e1, e2, e3, e4]
    call (transfer_spec (nf := nf) (m := m) (N := N) (px := firstN Y s) h1 h2 h3)
    intro _
    cancel

/-! ### merging -/

theorem mergeLoop_spec {comp : Loc → Loc → M V Bool} {p : W → W → Bool} {X B Z : List (Elem W)} (hp : Asks2 e D comp p) :
    Triple nf (isL e Own l a s t (X ++ B) ∗ isL e Own o a2 s2 t2 Z ∗ D) (mergeLoop comp (lastN X a) s a2 s2)
      (fun r => ∃ₛ N B' Z', ⌜mergeS (ltE p) B Z = N ++ mergeS (ltE p) B' Z' ∧ (B' = [] ∨ Z' = []) ∧ r = lastN (X ++ N) a⌝ ∗
        isL e Own l a s t (X ++ N ++ B') ∗ isL e Own o a2 s2 t2 Z' ∗ D) := by
  induction hn : B.length + 2 * Z.length using Nat.strongRecOn generalizing X B Z with
  | _ n ih =>
  cases B with
  | nil =>
    rw [mergeLoop]
    call (nxt_spec (e := e) (Own := Own) (l := l) (a := a) (s := s) (t := t) (X := X) (Y := []))
    intro r
    xsub
    rw [if_neg (by simp)]
    apply Triple.ret
    xexists [], [], Z
    simp only [List.append_nil, List.nil_append]
    cancel
    exact ⟨trivial, by simp, trivial⟩
  | cons b B =>
    have hnb := nxt_spec (nf := nf) (e := e) (Own := Own) (l := l) (a := a) (s := s) (t := t) (X := X) (Y := b :: B)
    simp only [firstN_cons] at hnb
    cases Z with
    | nil =>
      refine list_facts (l := l) (a := a) (s := s) (t := t) (xs := X ++ b :: B) (isL e Own o a2 s2 t2 [] ∗ D) (ent_refl _) fun f => ?_
      rw [mergeLoop]
      call hnb
      intro r
      xsub
      rw [if_pos (f.ns b (List.mem_append_right _ List.mem_cons_self))]
      have hn := nxt_spec (nf := nf) (e := e) (Own := Own) (l := o) (a := a2) (s := s2) (t := t2) (X := []) (Y := [])
      simp only [List.nil_append, lastN_nil] at hn
      call hn
      intro r
      xsub
      rw [if_neg (by simp)]
      apply Triple.ret
      xexists [], b :: B, []
      simp only [List.append_nil, List.nil_append]
      cancel
      exact ⟨trivial, by simp, trivial⟩
    | cons c Z =>
      refine list_facts (l := l) (a := a) (s := s) (t := t) (xs := X ++ b :: B) (isL e Own o a2 s2 t2 (c :: Z) ∗ D) (ent_refl _) fun f => ?_
      refine list_facts (l := o) (a := a2) (s := s2) (t := t2) (xs := c :: Z) (isL e Own l a s t (X ++ b :: B) ∗ D) (by cancel) fun f2 => ?_
      have hnx := nxt_spec (nf := nf) (e := e) (Own := Own) (l := o) (a := a2) (s := s2) (t := t2) (X := []) (Y := c :: Z)
      simp only [List.nil_append, lastN_nil, firstN_cons] at hnx
      have hvx := valp_spec (nf := nf) (e := e) (Own := Own) (l := o) (a := a2) (s := s2) (t := t2) (X := []) (Y := Z) (x := c)
      have hnx' := nxt_spec' (nf := nf) (e := e) (Own := Own) (l := o) (a := a2) (s := s2) (t := t2) (X := []) (Y := Z) (x := c)
      simp only [List.nil_append] at hvx hnx'
      rw [mergeLoop]
      call hnb
      intro r
      xsub
      rw [if_pos (f.ns b (List.mem_append_right _ List.mem_cons_self))]
      call hnx
      intro r
      xsub
      rw [if_pos (f2.ns c List.mem_cons_self)]
      call hnx
      intro r
      xsub
      call hvx
      intro r
      xsub
      call hnb
      intro r
      xsub
      call (valp_spec (e := e) (Own := Own) (l := l) (a := a) (s := s) (t := t) (X := X) (Y := B) (x := b))
      intro r
      xsub
      refine Triple.pre (P' := (D ∗ cell e (c.box, 1) c.val ∗ cell e (b.box, 1) b.val) ∗
        (hdr o a2 s2 t2 ∗ SList.path a2 (nodes ([] ++ c :: Z) ++ [s2]) ∗ elts e Own [] ∗ (blk c.node 2 ∗ fld c.node 2 c.box ∗ Own c.box) ∗ elts e Own Z) ∗
        (hdr l a s t ∗ SList.path a (nodes (X ++ b :: B) ++ [s]) ∗ elts e Own X ∗ (blk b.node 2 ∗ fld b.node 2 b.box ∗ Own b.box) ∗ elts e Own B))
        (by rw [← List.nil_append (c :: Z), list_elem, list_elem]; cancel) ?_
      refine Triple.bind_frame (hp (c.box, 1) (b.box, 1) c.val b.val) (ent_refl _) fun r => ?_
      xsub
      refine Triple.pre (P' := isL e Own l a s t (X ++ b :: B) ∗ isL e Own o a2 s2 t2 ([] ++ c :: Z) ∗ D) (by rw [list_elem, list_elem]; cancel) ?_
      rw [List.nil_append, mergeS_cons, show ltE p c b = p c.val b.val from rfl]
      split
      · call hnx
        intro r
        xsub
        call hnx'
        intro r
        xsub
        have ht := transfer_lists (nf := nf) (e := e) (Own := Own) (l := l) (a := a) (s := s) (t := t) (o := o) (a2 := a2) (s2 := s2) (t2 := t2) (X := X) (Y := b :: B) (Z := []) (N := [c]) (Z' := Z)
        simp only [List.nil_append, lastN_nil, List.append_assoc, List.singleton_append] at ht
        call ht
        intro _
        exact (ih _ (by simp at hn ⊢; omega) (X := X) (B := c :: b :: B) (Z := Z) rfl).conseq (by cancel) fun _ => ent_refl _
      · call hnb
        intro r
        xsub
        have ih := ih _ (by simp at hn ⊢; omega) (X := X ++ [b]) (B := B) (Z := c :: Z) rfl
        simp only [lastN_append_cons, lastN_nil, List.append_assoc, List.singleton_append, List.cons_append, List.nil_append] at ih
        call ih
        intro r
        xintro N B' Z' ⟨h1, h2, h3⟩
        xexists b :: N, B', Z'
        simp only [List.append_assoc, List.singleton_append, List.cons_append]
        cancel
        exact ⟨by rw [h1], h2, by rw [h3, lastN_append_cons]⟩

theorem spliceGuard_spec :
    Triple nf (isL e Own l a s t xs ∗ isL e Own o a2 s2 t2 ys) (spliceGuard l o)
      (fun r => ⌜r = (ys.isEmpty || !isSame t t2)⌝ ∗ isL e Own l a s t xs ∗ isL e Own o a2 s2 t2 ys) := by
  refine list_facts (l := l) (xs := xs) (isL e Own o a2 s2 t2 ys) (ent_refl _) fun f => ?_
  unfold spliceGuard
  rw [if_neg f.l0]
  call (empty_spec (e := e) (Own := Own) (l := o) (a := a2) (s := s2) (t := t2) (xs := ys))
  intro r
  xsub
  cases ys with
  | nil => simp; apply Triple.ret; cancel
  | cons y ys =>
    rw [if_neg (by simp)]
    call (ltype_spec (e := e) (Own := Own) (l := l) (a := a) (s := s) (t := t) (xs := xs))
    intro r
    xsub
    call (ltype_spec (e := e) (Own := Own) (l := o) (a := a2) (s := s2) (t := t2) (xs := y :: ys))
    intro r
    xsub
    apply Triple.ret
    cancel

theorem mergeBy_spec {comp : Loc → Loc → M V Bool} {p : W → W → Bool} (hp : Asks2 e D comp p) (ht : isSame t t2 = true) :
    Triple nf (isL e Own l a s t xs ∗ isL e Own o a2 s2 t2 ys ∗ D) (mergeBy l o (some comp))
      (fun _ => isL e Own l a s t (mergeS (ltE p) xs ys) ∗ isL e Own o a2 s2 t2 [] ∗ D) := by
  unfold mergeBy
  dsimp only
  call (spliceGuard_spec (e := e) (Own := Own) (l := l) (a := a) (s := s) (t := t) (xs := xs) (o := o) (a2 := a2) (s2 := s2) (t2 := t2) (ys := ys))
  intro r
  xsub
  apply Triple.ite
  · intro h
    have : ys = [] := by simpa [ht] using h
    subst this
    apply Triple.ret
    rw [mergeS_nil_right]
    cancel
  · intro _
    call (beforeBegin_spec (e := e) (Own := Own) (l := l) (a := a) (s := s) (t := t) (xs := xs))
    intro r
    xsub
    call (end_spec (e := e) (Own := Own) (l := l) (a := a) (s := s) (t := t) (xs := xs))
    intro r
    xsub
    call (beforeBegin_spec (e := e) (Own := Own) (l := o) (a := a2) (s := s2) (t := t2) (xs := ys))
    intro r
    xsub
    call (end_spec (e := e) (Own := Own) (l := o) (a := a2) (s := s2) (t := t2) (xs := ys))
    intro r
    xsub
    have := mergeLoop_spec (nf := nf) (e := e) (Own := Own) (l := l) (a := a) (s := s) (t := t) (o := o) (a2 := a2) (s2 := s2) (t2 := t2) (X := []) (B := xs) (Z := ys) hp
    simp only [List.nil_append, lastN_nil] at this
    call this
    intro r
    xintro N B' Z' ⟨h1, h2, rfl⟩
    rw [h1]
    have hnx := nxt_spec (nf := nf) (e := e) (Own := Own) (l := o) (a := a2) (s := s2) (t := t2) (X := []) (Y := Z')
    simp only [List.nil_append, lastN_nil] at hnx
    call hnx
    intro r
    xsub
    refine list_facts (l := o) (a := a2) (s := s2) (t := t2) (xs := Z') (isL e Own l a s t (N ++ B') ∗ D) (by cancel) fun f2 => ?_
    cases Z' with
    | nil =>
      rw [if_neg (by simp), mergeS_nil_right]
      apply Triple.ret
      cancel
    | cons c Z' =>
      rw [if_pos (by rw [firstN_cons]; exact f2.ns c List.mem_cons_self)]
      obtain rfl : B' = [] := by simpa using h2
      rw [mergeS_nil_left, List.append_nil]
      have ht := transfer_lists (nf := nf) (e := e) (Own := Own) (l := l) (a := a) (s := s) (t := t) (o := o) (a2 := a2) (s2 := s2) (t2 := t2) (X := N) (Y := []) (Z := []) (N := c :: Z') (Z' := [])
      simp only [List.nil_append, firstN_nil, lastN_nil, List.append_nil] at ht
      call ht
      intro _
      cancel

theorem merge_spec {Q : Nat → Loc → Loc → M V Bool} {p : W → W → Bool} (ht : t ≠ 0) (hq : i.less ≠ 0) (hp : Asks2 e D (Q i.less) p) :
    Triple nf (info t i ∗ isL e Own l a s t xs ∗ isL e Own o a2 s2 t ys ∗ D) (merge Q l o)
      (fun _ => info t i ∗ isL e Own l a s t (mergeS (ltE p) xs ys) ∗ isL e Own o a2 s2 t [] ∗ D) := by
  refine list_facts (l := l) (a := a) (s := s) (t := t) (xs := xs) (info t i ∗ isL e Own o a2 s2 t ys ∗ D) (by cancel) fun f => ?_
  unfold merge
  rw [if_neg f.l0]
  refine Triple.pre (P' := isL e Own l a s t xs ∗ info t i ∗ isL e Own o a2 s2 t ys ∗ D) (by cancel) ?_
  refine ldN_reads type_rd ?_
  have hr : ReadsN (isL e Own l a s t xs ∗ info t i ∗ isL e Own o a2 s2 t ys ∗ D) (t, 8) i.less := ReadsN.of_ent (by unfold info; cancel)
  refine ldN_reads hr ?_
  rw [if_neg hq]
  exact Triple.call_frame (mergeBy_spec (e := e) (Own := Own) (l := l) (a := a) (s := s) (t := t) (xs := xs) (o := o) (a2 := a2) (s2 := s2) (t2 := t) (ys := ys) hp (by simp [isSame, ht])) (R := info t i) (by cancel) fun _ => by cancel

/-! ### sorting -/

section
variable (e : ElemSpec nf (ops C i) W) (Own : Addr → HProp V)
/-- the counters in memory -/
def bag (t : Addr) : List (Ent W) → HProp V
  | [] => emp
  | u :: T => isL e Own u.c u.a u.s t u.ys ∗ bag t T
end

theorem bag_append (T1 T2 : List (Ent W)) : bag e Own t (T1 ++ T2) = (bag e Own t T1 ∗ bag e Own t T2) := by
  induction T1 with
  | nil => simp [bag]
  | cons u T ih => simp only [List.cons_append, bag, ih, sep_assoc]

theorem bag_split (T1 T2 : List (Ent W)) (u : Ent W) : bag e Own t (T1 ++ u :: T2) = (bag e Own t T1 ∗ isL e Own u.c u.a u.s t u.ys ∗ bag e Own t T2) := by
  rw [bag_append, bag]

theorem at_append (T1 T2 : List (Ent W)) (u : Ent W) : at_ (V := V) ((T1 ++ u :: T2).map Ent.c) T1.length = pure u.c := by
  simp [at_]

theorem sortCarry_spec {comp : Loc → Loc → M V Bool} {p : W → W → Bool} {ty : Addr} {cc ac sc fill : Nat} {T1 T2 : List (Ent W)} {z : List (Elem W)} (hp : Asks2 e D comp p) (hty : ty ≠ 0)
    (hT1 : ∀ t ∈ T1, t.ys = []) (hT2 : GoodFrom p fill T1.length T2) (hz : z.length = 2 ^ T1.length)
    (hzs : StrictWeak p → Sorted (ltE p) z) (hf1 : T1.length ≤ fill) (hf2 : fill ≤ T1.length + T2.length) :
    Triple nf (bag e Own ty (T1 ++ T2) ∗ isL e Own cc ac sc ty z ∗ D) (sortCarry comp cc ((T1 ++ T2).map Ent.c) fill T1.length)
      (fun r => ∃ₛ T1' T2' ac' sc' z', ⌜(r = T1'.length ∧ (T1' ++ T2').map Ent.c = (T1 ++ T2).map Ent.c ∧
          (∀ t ∈ T1', t.ys = []) ∧ GoodFrom p fill T1'.length T2' ∧ (∀ t, T2'.head? = some t → t.ys = []) ∧
          z'.length = 2 ^ T1'.length ∧ (StrictWeak p → Sorted (ltE p) z') ∧ T1'.length ≤ fill ∧
          Rearr p (rflat T2 ++ z) (rflat T2' ++ z'))⌝ ∗
        bag e Own ty (T1' ++ T2') ∗ isL e Own cc ac' sc' ty z' ∗ D) := by
  induction T2 generalizing T1 ac sc z with
  | nil =>
    rw [sortCarry, if_neg (by simp at hf2; omega)]
    apply Triple.ret
    xexists T1, [], ac, sc, z
    cancel
    refine ⟨rfl, rfl, hT1, trivial, by simp, hz, hzs, hf1, Rearr.refl _⟩
  | cons t T2 ih =>
    rw [sortCarry]
    apply Triple.ite
    · intro hi
      rw [at_append, bag_split]
      step
      call (empty_spec (e := e) (Own := Own) (t := ty) (l := t.c) (a := t.a) (s := t.s) (xs := t.ys))
      intro r
      xsub
      apply Triple.ite
      · intro he
        have hte : t.ys = [] := by simpa using he
        apply Triple.ret
        xexists T1, t :: T2, ac, sc, z
        rw [bag_split]
        cancel
        refine ⟨rfl, rfl, hT1, hT2, ?_, hz, hzs, hf1, Rearr.refl _⟩
        intro t' ht'
        simp only [List.head?_cons, Option.some.injEq] at ht'
        subst ht'; exact hte
      · intro he
        call (mergeBy_spec (e := e) (Own := Own) (l := t.c) (a := t.a) (s := t.s) (xs := t.ys) (o := cc) (a2 := ac) (s2 := sc) (ys := z) (t := ty) (t2 := ty) hp (by simp [isSame, hty]))
        intro _
        call (swap_spec (e := e) (Own := Own) (t := ty) (l := cc) (a := ac) (s := sc) (xs := []) (o := t.c) (a2 := t.a) (s2 := t.s) (ys := mergeS (ltE p) t.ys z))
        intro _
        have hlen : t.ys.length = 2 ^ T1.length := by
          rcases hT2.1.1.1 with h | h
          · rw [h] at he; simp at he
          · exact h
        have ih' := ih (T1 := T1 ++ [⟨t.c, ac, sc, []⟩]) (ac := t.a) (sc := t.s) (z := mergeS (ltE p) t.ys z)
          (by
            intro t' ht'
            rcases List.mem_append.1 ht' with h | h
            · exact hT1 t' h
            · simp at h; simp [h])
          (by simpa using hT2.2)
          (by rw [CC.SList.mergeS_length, hlen, hz]; simp [Nat.pow_succ]; omega)
          (CC.SList.mergeS_sorted hT2.1.1.2 hzs)
          (by simp; omega) (by simp at hf2 ⊢; omega)
        rw [show (T1 ++ t :: T2).map Ent.c = (T1 ++ [(⟨t.c, ac, sc, []⟩ : Ent W)] ++ T2).map Ent.c by simp,
          show T1.length + 1 = (T1 ++ [(⟨t.c, ac, sc, []⟩ : Ent W)]).length by simp]
        refine Triple.call_frame ih' (R := emp) ?_ ?_
        · rw [List.append_assoc, List.singleton_append, bag_split]
          cancel
        · intro r
          xintro T1' T2' ac' sc' z' ⟨h1, h2, h3, h4, h5, h6, h7, h8, h9⟩
          xexists T1', T2', ac', sc', z'
          cancel
          refine ⟨h1, h2, h3, h4, h5, h6, h7, h8, ?_⟩
          rw [rflat, List.append_assoc]
          exact ((Rearr.refl _).append (CC.SList.rearr_merge hT2.1.1.2 hzs)).trans h9
    · intro hi
      apply Triple.ret
      xexists T1, t :: T2, ac, sc, z
      cancel
      refine ⟨rfl, rfl, hT1, hT2, ?_, hz, hzs, hf1, Rearr.refl _⟩
      intro t' ht'
      simp only [List.head?_cons, Option.some.injEq] at ht'
      subst ht'; exact hT2.1.2 (by omega)

theorem sortLoop_spec {comp : Loc → Loc → M V Bool} {p : W → W → Bool} {ty : Addr} {cc ac sc fill : Nat} {T : List (Ent W)} {L : List (Elem W)} (hp : Asks2 e D comp p) (hty : ty ≠ 0)
    (hT : GoodFrom p fill 0 T) (hf : fill ≤ T.length) (hlen : (rflat T ++ L).length < 2 ^ T.length) :
    Triple nf (bag e Own ty T ∗ isL e Own cc ac sc ty [] ∗ isL e Own l a s ty L ∗ D) (sortLoop comp l cc (T.map Ent.c) fill)
      (fun r => ∃ₛ T' ac' sc', ⌜T'.map Ent.c = T.map Ent.c ∧ GoodFrom p r 0 T' ∧ r ≤ T'.length ∧
          fill ≤ r ∧ (L ≠ [] → 0 < r) ∧ Rearr p (rflat T ++ L) (rflat T')⌝ ∗
        bag e Own ty T' ∗ isL e Own cc ac' sc' ty [] ∗ isL e Own l a s ty [] ∗ D) := by
  induction L generalizing T fill ac sc with
  | nil =>
    rw [sortLoop]
    call (empty_spec (e := e) (Own := Own) (t := ty) (l := l) (a := a) (s := s) (xs := []))
    intro r
    xsub
    rw [if_pos (by rfl)]
    apply Triple.ret
    xexists T, ac, sc
    cancel
    refine ⟨rfl, hT, hf, Nat.le_refl _, by simp, by simpa using Rearr.refl _⟩
  | cons x L ih =>
    rw [sortLoop]
    call (empty_spec (e := e) (Own := Own) (t := ty) (l := l) (a := a) (s := s) (xs := x :: L))
    intro r
    xsub
    rw [if_neg (by simp)]
    call (beforeBegin_spec (e := e) (Own := Own) (t := ty) (l := cc) (a := ac) (s := sc) (xs := []))
    intro r
    xsub
    call (beforeBegin_spec (e := e) (Own := Own) (t := ty) (l := l) (a := a) (s := s) (xs := x :: L))
    intro r
    xsub
    call (begin_spec (e := e) (Own := Own) (t := ty) (l := l) (a := a) (s := s) (xs := x :: L))
    intro r
    xsub
    rw [firstN_cons, ← List.nil_append (x :: L)]
    call (nxt_spec' (e := e) (Own := Own) (t := ty) (l := l) (a := a) (s := s) (X := []) (Y := L) (x := x))
    intro r
    xsub
    have ht := transfer_lists (nf := nf) (e := e) (Own := Own) (l := cc) (a := ac) (s := sc) (t := ty) (o := l) (a2 := a) (s2 := s) (t2 := ty) (X := []) (Y := []) (Z := []) (N := [x]) (Z' := L)
    simp only [List.nil_append, firstN_cons, List.singleton_append, lastN_nil, List.append_nil] at ht
    rw [List.nil_append]
    call ht
    intro _
    have hc := sortCarry_spec (nf := nf) (e := e) (Own := Own) (p := p) (ty := ty) (cc := cc) (ac := ac) (sc := sc) (fill := fill) (T1 := []) (T2 := T) (z := [x]) hp hty
      (by simp) hT rfl (fun _ => List.pairwise_singleton _ _) (by simp) (by simpa using hf)
    simp only [List.nil_append, List.length_nil] at hc
    call hc
    intro r
    xintro T1 T2 ac1 sc1 z ⟨rfl, h2, h3, h4, h5, h6, h7, h8, h9⟩
    have hTl : T1.length + T2.length = T.length := by
      have := congrArg List.length h2
      simpa using this
    cases T2 with
    | nil =>
      exfalso
      have := h9.1.length_eq
      simp only [rflat, List.nil_append, List.length_append, List.length_singleton, List.length_cons, List.length_nil] at this hTl hlen
      rw [h6, show T1.length = T.length from hTl] at this
      omega
    | cons t T2 =>
      have hte := h5 t rfl
      rw [← h2, at_append, bag_split]
      step
      call (swap_spec (e := e) (Own := Own) (t := ty) (l := cc) (a := ac1) (s := sc1) (xs := z) (o := t.c) (a2 := t.a) (s2 := t.s) (ys := t.ys))
      intro _
      rw [hte]
      let T' : List (Ent W) := T1 ++ ⟨t.c, ac1, sc1, z⟩ :: T2
      have hTR : Rearr p (rflat T ++ [x]) (rflat T') := by
        refine h9.trans ?_
        rw [rflat, hte, List.append_nil, rflat_append, rflat_empty h3, List.append_nil, rflat]
        exact Rearr.refl _
      have hT'l : T'.length = T.length := by simp [T'] at hTl ⊢; omega
      have ih' := ih (T := T') (fill := if T1.length = fill then fill + 1 else fill) (ac := t.a) (sc := t.s)
        (by
          rw [GoodFrom.append]
          refine ⟨GoodFrom.empties h3, ⟨⟨Or.inr (by simpa using h6), h7⟩, ?_⟩, ?_⟩
          · intro h; exfalso; simp only [Nat.zero_add] at h; split at h <;> omega
          · rw [Nat.zero_add]; exact GoodFrom.mono (by split <;> omega) h4.2)
        (by rw [hT'l]; split <;> simp at hTl <;> omega)
        (by
          rw [hT'l]
          have := hTR.1.length_eq
          simp only [List.length_append, List.length_cons, List.length_nil] at this hlen ⊢
          omega)
      rw [show (T1 ++ t :: T2).map Ent.c = T'.map Ent.c by simp [T']]
      refine Triple.call_frame ih' (R := emp) ?_ ?_
      · rw [show bag e Own ty T' = _ from bag_split _ _ _]
        cancel
      · intro r
        xintro T'' ac' sc' ⟨g1, g2, g3, g4, g5, g6⟩
        xexists T'', ac', sc'
        cancel
        refine ⟨by rw [g1], g2, g3, ?_, ?_, ?_⟩
        · split at g4 <;> omega
        · intro _; split at g4 <;> omega
        · have : rflat T ++ x :: L = (rflat T ++ [x]) ++ L := by simp
          rw [this]
          exact (hTR.append (Rearr.refl _)).trans g6

theorem sortFinal_spec {comp : Loc → Loc → M V Bool} {p : W → W → Bool} {ty : Addr} {fill : Nat} {T1 T2 : List (Ent W)} {t : Ent W} (hp : Asks2 e D comp p) (hty : ty ≠ 0)
    (hT1 : ∀ t ∈ T1, t.ys = []) (hts : StrictWeak p → Sorted (ltE p) t.ys)
    (hT2 : GoodFrom p fill (T1.length + 1) T2) (hf1 : T1.length + 1 ≤ fill) (hf2 : fill ≤ T1.length + 1 + T2.length) :
    Triple nf (bag e Own ty (T1 ++ t :: T2) ∗ D) (sortFinal comp ((T1 ++ t :: T2).map Ent.c) fill (T1.length + 1))
      (fun _ => ∃ₛ T1' t' T2', ⌜(T1' ++ t' :: T2').map Ent.c = (T1 ++ t :: T2).map Ent.c ∧ T1'.length + 1 = fill ∧
          (∀ t ∈ T1', t.ys = []) ∧ (∀ t ∈ T2', t.ys = []) ∧ (StrictWeak p → Sorted (ltE p) t'.ys) ∧
          Rearr p (rflat T2 ++ t.ys) t'.ys⌝ ∗ bag e Own ty (T1' ++ t' :: T2') ∗ D) := by
  induction T2 generalizing T1 t with
  | nil =>
    have hf2' : fill ≤ T1.length + 1 := by simpa using hf2
    rw [sortFinal, if_neg (by omega)]
    apply Triple.ret
    xexists T1, t, []
    cancel
    exact ⟨rfl, by omega, hT1, by simp, hts, Rearr.refl _⟩
  | cons u T2 ih =>
    rw [sortFinal]
    apply Triple.ite
    · intro hi
      have e1 : at_ (V := V) ((T1 ++ t :: u :: T2).map Ent.c) (T1.length + 1) = pure u.c := by
        have := at_append (V := V) (T1 ++ [t]) T2 u
        simpa using this
      rw [e1, Nat.add_sub_cancel, at_append, bag_split, bag]
      steps
      call (mergeBy_spec (e := e) (Own := Own) (l := u.c) (a := u.a) (s := u.s) (xs := u.ys) (o := t.c) (a2 := t.a) (s2 := t.s) (ys := t.ys) (t := ty) (t2 := ty) hp (by simp [isSame, hty]))
      intro _
      have ih' := ih (T1 := T1 ++ [⟨t.c, t.a, t.s, []⟩]) (t := ⟨u.c, u.a, u.s, mergeS (ltE p) u.ys t.ys⟩)
        (by
          intro t' ht'
          rcases List.mem_append.1 ht' with h | h
          · exact hT1 t' h
          · simp at h; simp [h])
        (CC.SList.mergeS_sorted hT2.1.1.2 hts)
        (by simpa using hT2.2) (by simp; omega) (by simp at hf2 ⊢; omega)
      rw [show (T1 ++ t :: u :: T2).map Ent.c = (T1 ++ [(⟨t.c, t.a, t.s, []⟩ : Ent W)] ++ (⟨u.c, u.a, u.s, mergeS (ltE p) u.ys t.ys⟩ : Ent W) :: T2).map Ent.c by simp,
          show T1.length + 1 + 1 = (T1 ++ [(⟨t.c, t.a, t.s, []⟩ : Ent W)]).length + 1 by simp]
      refine Triple.call_frame ih' (R := emp) ?_ ?_
      · rw [List.append_assoc, List.singleton_append, bag_split, bag]
        cancel
      · intro r
        xintro T1' t' T2' ⟨h1, h2, h3, h4, h5, h6⟩
        xexists T1', t', T2'
        cancel
        refine ⟨h1, h2, h3, h4, h5, ?_⟩
        rw [rflat, List.append_assoc]
        exact ((Rearr.refl _).append (CC.SList.rearr_merge hT2.1.1.2 hts)).trans h6
    · intro hi
      apply Triple.ret
      xexists T1, t, u :: T2
      cancel
      have hall := GoodFrom.all_empty (by omega) hT2
      refine ⟨rfl, by omega, hT1, hall, hts, ?_⟩
      rw [rflat_empty hall]
      exact Rearr.refl _

theorem slistCreate_spec {P : HProp V} {Q : β → HProp V} {k : Addr → M V β} (hi : Complete i) (ht : t ≠ 0) (hfail : ¬ nf → Triple nf (info t i ∗ P) (k 0) Q)
    (hok : ∀ l a s, l ≠ 0 → Triple nf (isL e Own l a s t [] ∗ info t i ∗ P) (k l) Q) : Triple nf (info t i ∗ P) (slistCreate t >>= k) Q := by
  unfold slistCreate
  rw [if_neg ht, bind_assoc]
  refine validate_cps hi ?_
  exact create_spec (e := e) (Own := Own) ht hfail hok

theorem createCounters_spec {k : Nat} {P : HProp V} {Q : β → HProp V} {kk : List Addr × Bool → M V β} (hi : Complete i) (ht : t ≠ 0)
    (hfail : ∀ T n, ¬ nf → Triple nf (info t i ∗ bag e Own t T ∗ P) (kk (T.map Ent.c ++ List.replicate n 0, false)) Q)
    (hok : ∀ T, T.length = k → (∀ u ∈ T, u.ys = []) → Triple nf (info t i ∗ bag e Own t T ∗ P) (kk (T.map Ent.c, true)) Q) :
    Triple nf (info t i ∗ P) (createCounters t k >>= kk) Q := by
  induction k generalizing P kk with
  | zero =>
    rw [createCounters, pure_bind]
    have := hok [] rfl (by simp)
    simpa [bag] using this
  | succ k ih =>
    rw [createCounters, bind_assoc]
    refine slistCreate_spec (e := e) (Own := Own) hi ht (fun h => ?_) fun c a s hc => ?_
    · rw [if_pos rfl, pure_bind]
      have := hfail [] (k+1) h
      simpa [bag] using this
    · rw [if_neg hc, bind_assoc]
      refine Triple.pre (P' := info t i ∗ isL e Own c a s t [] ∗ P) (by cancel) ?_
      refine ih (fun T n h => ?_) fun T hT hTe => ?_
      · rw [pure_bind]
        have := hfail (⟨c, a, s, []⟩ :: T) n h
        refine Triple.pre ?_ this
        rw [bag]
        cancel
      · rw [pure_bind]
        have := hok (⟨c, a, s, []⟩ :: T) (by simp [hT]) (by
          intro u hu
          rcases List.mem_cons.1 hu with rfl | hu
          · rfl
          · exact hTe u hu)
        refine Triple.pre ?_ this
        rw [bag]
        cancel

theorem destroyCounters_spec {T : List (Ent W)} {n : Nat} (ha : Storage nf C i A Own) (hc : Calls i) (ht : t ≠ 0) :
    Triple nf (A ∗ info t i ∗ bag e Own t T) (destroyCounters C (T.map Ent.c ++ List.replicate n 0)) (fun _ => A ∗ info t i) := by
  induction T with
  | nil =>
    simp only [List.map_nil, List.nil_append, bag, sep_emp]
    induction n with
    | zero => rw [List.replicate_zero, destroyCounters]; apply Triple.ret; cancel
    | succ n ih =>
      rw [List.replicate_succ, destroyCounters, destroy, if_pos rfl, pure_bind]
      exact ih
  | cons u T ih =>
    rw [List.map_cons, List.cons_append, destroyCounters, bag]
    refine Triple.bind_frame (destroy_spec (R := emp) (e := e) (l := u.c) (a := u.a) (s := u.s) (xs := u.ys) ha hc ht) (R := bag e Own t T) (by cancel) fun _ => ?_
    exact Triple.pre (by cancel) ih

theorem sortBy_spec {comp : Loc → Loc → M V Bool} {p : W → W → Bool} (ha : Storage nf C i A Own) (hi : Complete i) (ht : t ≠ 0) (hp : Asks2 e D comp p) (hlen : xs.length < 2 ^ 64) :
    Triple nf (A ∗ info t i ∗ isL e Own l a s t xs ∗ D) (sortBy C l (some comp))
      (fun _ => hex fun a' => hex fun s' => ∃ₛ ys, ⌜Rearr p xs ys ∧ ((StrictWeak p → Sorted (ltE p) ys) ∨ (¬ nf ∧ ys = xs))⌝ ∗ A ∗ info t i ∗ isL e Own l a' s' t ys ∗ D) := by
  have hc : Calls i := ⟨hi.2.1, hi.2.2.1, hi.2.2.2.1⟩
  unfold sortBy
  call (empty_spec (e := e) (Own := Own) (l := l) (a := a) (s := s) (t := t) (xs := xs))
  intro r
  xsub
  apply Triple.ite
  · intro he
    have : xs = [] := by simpa using he
    subst this
    apply Triple.ret
    xexists a, s, []
    cancel
    exact ⟨Rearr.refl _, Or.inl fun _ => List.Pairwise.nil⟩
  intro he
  have hxs : xs ≠ [] := by simpa using he
  obtain ⟨x0, xs0, hx0⟩ := List.exists_cons_of_ne_nil hxs
  rw [hx0]
  refine Triple.pre (P' := isL e Own l a s t (x0 :: xs0) ∗ A ∗ info t i ∗ D) (by cancel) ?_
  refine single_spec ?_
  rw [← hx0]
  refine Triple.pre (P' := A ∗ info t i ∗ isL e Own l a s t xs ∗ D) (by cancel) ?_
  apply Triple.ite
  · intro h1
    obtain ⟨x, rfl⟩ : ∃ x, xs = [x] := ⟨x0, by rw [hx0, show xs0 = [] by simpa using h1]⟩
    apply Triple.ret
    xexists a, s, [x]
    cancel
    exact ⟨Rearr.refl _, Or.inl fun _ => List.pairwise_singleton _ _⟩
  intro h1
  dsimp only
  call (ltype_spec (e := e) (Own := Own) (l := l) (a := a) (s := s) (t := t) (xs := xs))
  intro r
  xsub
  refine Triple.pre (P' := info t i ∗ A ∗ isL e Own l a s t xs ∗ D) (by cancel) ?_
  refine slistCreate_spec (e := e) (Own := Own) hi ht (fun h => ?_) fun cc ac sc hcc => ?_
  · rw [if_pos rfl]
    apply Triple.ret
    xexists a, s, xs
    cancel
    exact ⟨Rearr.refl _, Or.inr ⟨h, rfl⟩⟩
  rw [if_neg hcc]
  call (ltype_spec (e := e) (Own := Own) (l := l) (a := a) (s := s) (t := t) (xs := xs))
  intro r
  xsub
  refine Triple.pre (P' := info t i ∗ A ∗ isL e Own cc ac sc t [] ∗ isL e Own l a s t xs ∗ D) (by cancel) ?_
  refine createCounters_spec (e := e) (Own := Own) hi ht (fun T n h => ?_) fun T hTl hTe => ?_
  · dsimp only
    rw [if_neg (by simp)]
    refine Triple.bind_frame (destroyCounters_spec (e := e) (T := T) (n := n) ha hc ht) (R := isL e Own cc ac sc t [] ∗ isL e Own l a s t xs ∗ D) (by cancel) fun _ => ?_
    refine Triple.call_frame (destroy_spec (R := emp) (e := e) (l := cc) (a := ac) (s := sc) (xs := []) ha hc ht) (R := isL e Own l a s t xs ∗ D) (by cancel) fun _ => ?_
    xexists a, s, xs
    cancel
    exact ⟨Rearr.refl _, Or.inr ⟨h, rfl⟩⟩
  dsimp only
  rw [if_pos rfl]
  have hl := sortLoop_spec (nf := nf) (e := e) (Own := Own) (p := p) (ty := t) (l := l) (a := a) (s := s) (cc := cc) (ac := ac) (sc := sc) (fill := 0) (T := T) (L := xs) hp ht
    (GoodFrom.empties hTe) (by omega) (by rw [rflat_empty hTe, hTl]; simpa using hlen)
  refine Triple.bind_frame hl (R := A ∗ info t i) (by cancel) fun fill => ?_
  xintro T' ac' sc' ⟨h1, h2, h3, _, h5, h6⟩
  rw [rflat_empty hTe, List.nil_append] at h6
  have hfill := h5 hxs
  cases T' with
  | nil => exfalso; simp at h3; omega
  | cons u0 T' =>
    rw [← h1]
    have hf := sortFinal_spec (nf := nf) (e := e) (Own := Own) (p := p) (ty := t) (T1 := []) (t := u0) (T2 := T') (fill := fill) hp ht
      (by simp) h2.1.1.2 (by simpa using h2.2) (by simp; omega) (by simp at h3 ⊢; omega)
    simp only [List.nil_append, List.length_nil, Nat.zero_add] at hf
    refine Triple.bind_frame hf (R := A ∗ info t i ∗ isL e Own cc ac' sc' t [] ∗ isL e Own l a s t []) (by cancel) fun _ => ?_
    xintro T1 u T2 ⟨g1, g2, g3, g4, g5, g6⟩
    rw [← g1, show fill - 1 = T1.length by omega, at_append, bag_split, pure_bind]
    call (swap_spec (e := e) (Own := Own) (t := t) (l := l) (a := a) (s := s) (xs := []) (o := u.c) (a2 := u.a) (s2 := u.s) (ys := u.ys))
    intro _
    have hd := destroyCounters_spec (nf := nf) (e := e) (t := t) (T := T1 ++ ⟨u.c, a, s, []⟩ :: T2) (n := 0) ha hc ht
    simp only [List.replicate_zero, List.append_nil, bag_split] at hd
    rw [show (T1 ++ u :: T2).map Ent.c = (T1 ++ (⟨u.c, a, s, []⟩ : Ent W) :: T2).map Ent.c by simp]
    refine Triple.bind_frame hd (R := isL e Own cc ac' sc' t [] ∗ isL e Own l u.a u.s t u.ys ∗ D) (by cancel) fun _ => ?_
    refine Triple.call_frame (destroy_spec (R := emp) (e := e) (l := cc) (a := ac') (s := sc') (xs := []) ha hc ht) (R := isL e Own l u.a u.s t u.ys ∗ D) (by cancel) fun _ => ?_
    xexists u.a, u.s, u.ys
    cancel
    exact ⟨h6.trans g6, Or.inl g5⟩

theorem sort_spec {Q : Nat → Loc → Loc → M V Bool} {p : W → W → Bool} (ha : Storage nf C i A Own) (hi : Complete i) (ht : t ≠ 0) (hq : i.less ≠ 0) (hp : Asks2 e D (Q i.less) p) (hlen : xs.length < 2 ^ 64) :
    Triple nf (A ∗ info t i ∗ isL e Own l a s t xs ∗ D) (sort C Q l)
      (fun _ => hex fun a' => hex fun s' => ∃ₛ ys, ⌜Rearr p xs ys ∧ ((StrictWeak p → Sorted (ltE p) ys) ∨ (¬ nf ∧ ys = xs))⌝ ∗ A ∗ info t i ∗ isL e Own l a' s' t ys ∗ D) := by
  refine list_facts (l := l) (a := a) (s := s) (t := t) (xs := xs) (A ∗ info t i ∗ D) (by cancel) fun f => ?_
  unfold sort
  rw [if_neg f.l0]
  refine Triple.pre (P' := isL e Own l a s t xs ∗ A ∗ info t i ∗ D) (by cancel) ?_
  refine ldN_reads type_rd ?_
  have hr : ReadsN (isL e Own l a s t xs ∗ A ∗ info t i ∗ D) (t, 8) i.less := ReadsN.of_ent (by unfold info; cancel)
  refine ldN_reads hr ?_
  rw [if_neg hq]
  exact (sortBy_spec (e := e) (Own := Own) ha hi ht hp hlen).conseq (by cancel) fun _ => ent_refl _

end CC.Info.S
