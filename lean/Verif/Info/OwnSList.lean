import Verif.Info.OwnS
import Verif.Info.OwnSpec
import Verif.SList.Spec
import Verif.Props.CInfo
/-!
# Forward lists of elements with callbacks and storage of their own: representation and specifications
-/
namespace CC.Info.S
open CC.Tac
open CC.CList (Elem nodes vals firstN lastN firstN_nil firstN_cons lastN_nil lastN_cons lastN_append_cons firstN_append)
open CC.SList (nxt valp lanc lnode ltype beforeBegin begin_ end_ empty iterIncrement iterAdvance valOf hdr)
variable {V W α β : Type} {nf : Prop} {C : Funs V} {i : Table} {t : Addr} {A : HProp V} {Own : Addr → HProp V}

/-! ## representation -/

/-- the part of the chain of `Y` up to `s` after its first link -/
def pathTail : List (Elem W) → Addr → HProp V
  | [], _ => emp
  | x :: Y, s => SList.path x.node (nodes Y ++ [s])

theorem path_first (a : Addr) (Y : List (Elem W)) (s : Addr) : SList.path (V := V) a (nodes Y ++ [s]) = (fld a 1 (firstN Y s) ∗ pathTail Y s) := by
  cases Y <;> simp [SList.path, pathTail]

theorem path_split (a : Addr) (X Y : List (Elem W)) (s : Addr) :
    SList.path (V := V) a (nodes (X ++ Y) ++ [s]) = (SList.path a (nodes X) ∗ fld (lastN X a) 1 (firstN Y s) ∗ pathTail Y s) := by
  rw [nodes, List.map_append, List.append_assoc, SList.path_append, path_first]

theorem path_split_cons (a : Addr) (X Y : List (Elem W)) (x : Elem W) (s : Addr) :
    SList.path (V := V) a (nodes (X ++ x :: Y) ++ [s]) = (SList.path a (nodes X) ∗ fld (lastN X a) 1 x.node ∗ fld x.node 1 (firstN Y s) ∗ pathTail Y s) := by
  rw [path_split, pathTail, path_first]; rfl

theorem path_snoc (a : Addr) (Y : List (Elem W)) (t : Addr) : SList.path (V := V) a (nodes Y ++ [t]) = (SList.path a (nodes Y) ∗ fld (lastN Y a) 1 t) := by
  rw [SList.path_append]; simp [SList.path]

section
variable (e : ElemSpec nf (ops C i) W) (Own : Addr → HProp V)

/-- everything a node owns except its link: the node, the storage of its element, the element -/
def elt (x : Elem W) : HProp V := blk x.node 2 ∗ fld x.node 2 x.box ∗ Own x.box ∗ cell e (x.box, 1) x.val

def elts : List (Elem W) → HProp V
  | [] => emp
  | x :: xs => elt e Own x ∗ elts xs

/-- The fragment is exactly a forward list with header block `l`, before-begin node `a`, end node `s`, element type `t` and elements `xs`, with the storage and the resources of the elements. -/
def isL (l a s : Addr) (t : Nat) (xs : List (Elem W)) : HProp V := hdr l a s t ∗ SList.path a (nodes xs ++ [s]) ∗ elts e Own xs
end

variable {e : ElemSpec nf (ops C i) W} {l a s : Addr} {xs ys : List (Elem W)} {R P : HProp V}

theorem elts_append (xs ys : List (Elem W)) : elts e Own (xs ++ ys) = (elts e Own xs ∗ elts e Own ys) := by
  induction xs with
  | nil => simp [elts]
  | cons x xs ih => simp only [List.cons_append, elts, ih, sep_assoc]

/-- facts every list satisfies -/
structure Facts (l a s : Addr) (xs : List (Elem W)) : Prop where
  l0 : l ≠ 0
  a0 : a ≠ 0
  s0 : s ≠ 0
  as : a ≠ s
  ns : ∀ x ∈ xs, x.node ≠ s
  na : ∀ x ∈ xs, x.node ≠ a
  n0 : ∀ x ∈ xs, x.node ≠ 0

theorem nodes_ne {n : Nat} {h : Heap V} (hh : (blk s n ∗ elts e Own xs ∗ R) h) : ∀ x ∈ xs, x.node ≠ s ∧ x.node ≠ 0 := by
  intro x hx
  obtain ⟨X, Y, rfl⟩ := List.append_of_mem hx
  rw [elts_append, elts, elt] at hh
  have h1 := (show _ ⊢ₛ blk s n ∗ blk x.node 2 ∗ elts e Own X ∗ fld x.node 2 x.box ∗ Own x.box ∗ cell e (x.box, 1) x.val ∗ elts e Own Y ∗ R by cancel) _ hh
  have h2 := (show _ ⊢ₛ blk x.node 2 ∗ blk s n ∗ elts e Own X ∗ fld x.node 2 x.box ∗ Own x.box ∗ cell e (x.box, 1) x.val ∗ elts e Own Y ∗ R by cancel) _ hh
  exact ⟨(CList.blk_ne (a := s) (b := x.node) rfl h1).symm, pts_ne_zero h2⟩

theorem facts {h : Heap V} (hh : (isL e Own l a s t xs ∗ R) h) : Facts l a s xs := by
  unfold isL hdr at hh
  generalize hG : SList.path a (nodes xs ++ [s]) = G at hh
  have h1 := (show _ ⊢ₛ blk l 3 ∗ blk a 2 ∗ blk s 2 ∗ elts e Own xs ∗ fld l 1 a ∗ fld l 2 s ∗ fld l 3 t ∗ fld a 2 0 ∗ fld s 1 0 ∗ fld s 2 0 ∗ G ∗ R by cancel) _ hh
  have h2 := (show _ ⊢ₛ blk a 2 ∗ blk s 2 ∗ blk l 3 ∗ elts e Own xs ∗ fld l 1 a ∗ fld l 2 s ∗ fld l 3 t ∗ fld a 2 0 ∗ fld s 1 0 ∗ fld s 2 0 ∗ G ∗ R by cancel) _ hh
  have h3 := (show _ ⊢ₛ blk s 2 ∗ elts e Own xs ∗ blk a 2 ∗ blk l 3 ∗ fld l 1 a ∗ fld l 2 s ∗ fld l 3 t ∗ fld a 2 0 ∗ fld s 1 0 ∗ fld s 2 0 ∗ G ∗ R by cancel) _ hh
  have h4 := (show _ ⊢ₛ blk a 2 ∗ elts e Own xs ∗ blk s 2 ∗ blk l 3 ∗ fld l 1 a ∗ fld l 2 s ∗ fld l 3 t ∗ fld a 2 0 ∗ fld s 1 0 ∗ fld s 2 0 ∗ G ∗ R by cancel) _ hh
  exact ⟨pts_ne_zero h1, pts_ne_zero h2, pts_ne_zero h3, CList.blk_ne rfl h2, fun x hx => (nodes_ne h3 x hx).1, fun x hx => (nodes_ne h4 x hx).1, fun x hx => (nodes_ne h3 x hx).2⟩

theorem Facts.lastN_ne {X Y : List (Elem W)} (f : Facts l a s (X ++ Y)) : lastN X a ≠ s ∧ lastN X a ≠ 0 := by
  rcases List.eq_nil_or_concat X with rfl | ⟨X, x, rfl⟩
  · exact ⟨f.as, f.a0⟩
  · rw [List.concat_eq_append, lastN_append_cons, lastN_nil]
    exact ⟨f.ns x (by simp), f.n0 x (by simp)⟩

theorem list_facts {m : M V α} {Q : α → HProp V} (R : HProp V) (hP : P ⊢ₛ isL e Own l a s t xs ∗ R) (h : Facts l a s xs → Triple nf P m Q) : Triple nf P m Q :=
  Triple.fact (p := Facts l a s xs) (fun _ hh => facts (hP _ hh)) h

/-! ## reading -/

theorem cps {I : HProp V} {m : M V α} {r : α} {k : α → M V β} {Q : β → HProp V} (h : Triple nf I m (fun x => ⌜x = r⌝ ∗ I)) (hk : Triple nf (I ∗ P) (k r) Q) :
    Triple nf (I ∗ P) (m >>= k) Q := by
  refine Triple.bind_frame h (R := P) (ent_refl _) fun x => ?_
  rw [sep_assoc]
  refine Triple.pure_left ?_
  rintro rfl
  exact hk

theorem anc_rd : ReadsN (isL e Own l a s t xs ∗ P) (l, 1) a := ReadsN.of_ent (by rw [isL, hdr]; cancel)
theorem node_rd : ReadsN (isL e Own l a s t xs ∗ P) (l, 2) s := ReadsN.of_ent (by rw [isL, hdr]; cancel)
theorem type_rd : ReadsN (isL e Own l a s t xs ∗ P) (l, 3) t := ReadsN.of_ent (by rw [isL, hdr]; cancel)
theorem nxt_rd {X Y : List (Elem W)} : ReadsN (isL e Own l a s t (X ++ Y) ∗ P) (lastN X a, 1) (firstN Y s) := ReadsN.of_ent (by rw [isL, path_split]; cancel)
theorem nxt_rd' {X Y : List (Elem W)} {x : Elem W} : ReadsN (isL e Own l a s t (X ++ x :: Y) ∗ P) (x.node, 1) (firstN Y s) :=
  ReadsN.of_ent (by rw [isL, path_split_cons]; cancel)

theorem beforeBegin_spec : Triple nf (isL e Own l a s t xs) (beforeBegin l) (fun r => ⌜r = a⌝ ∗ isL e Own l a s t xs) := by
  refine list_facts emp (by rw [sep_emp]; exact ent_refl _) fun f => ?_
  simp only [beforeBegin, isL, hdr]
  step
  · simpa using f.l0
  steps
  apply Triple.ret
  cancel

theorem begin_spec : Triple nf (isL e Own l a s t xs) (begin_ l) (fun r => ⌜r = firstN xs s⌝ ∗ isL e Own l a s t xs) := by
  refine list_facts emp (by rw [sep_emp]; exact ent_refl _) fun f => ?_
  simp only [begin_, isL, hdr, path_first]
  step
  · simpa using f.l0
  steps
  apply Triple.ret
  cancel

theorem end_spec : Triple nf (isL e Own l a s t xs) (end_ l) (fun r => ⌜r = s⌝ ∗ isL e Own l a s t xs) := by
  refine list_facts emp (by rw [sep_emp]; exact ent_refl _) fun f => ?_
  simp only [end_, isL, hdr]
  step
  · simpa using f.l0
  steps
  apply Triple.ret
  cancel

theorem empty_spec : Triple nf (isL e Own l a s t xs) (empty l) (fun r => ⌜r = xs.isEmpty⌝ ∗ isL e Own l a s t xs) := by
  rw [← sep_emp (isL e Own l a s t xs)]
  refine list_facts emp (ent_refl _) fun f => ?_
  unfold empty
  rw [if_pos f.l0]
  refine cps begin_spec (cps end_spec ?_)
  apply Triple.ret
  cancel_core
  cases xs with
  | nil => simp
  | cons x xs => simpa using f.ns x (by simp)

/-! ## nodes -/

theorem createNode_spec {value : Loc} {w : W} {Q : β → HProp V} {k : Addr → M V β} (hs : Storage nf C i A Own) (hc : Calls i) (ht : t ≠ 0) (hl : l ≠ 0)
    (hv : (value.1 = 0 ∧ w = e.dflt) ∨ (value.1 ≠ 0 ∧ ∃ R', P = (cell e value w ∗ R')))
    (hfail : ¬ nf → Triple nf (A ∗ info t i ∗ fld l 3 t ∗ P) (k 0) Q)
    (hok : ∀ x : Elem W, x.val = w → x.node ≠ 0 → Triple nf (fld x.node 1 0 ∗ elt e Own x ∗ A ∗ info t i ∗ fld l 3 t ∗ P) (k x.node) Q) :
    Triple nf (A ∗ info t i ∗ fld l 3 t ∗ P) (createNode C l value >>= k) Q := by
  unfold createNode
  steps
  · simpa using hl
  step
  apply mallocS2
  · intro h; simp; exact hfail h
  intro n x y hn
  rw [if_neg hn]
  steps
  refine Triple.pre (P' := A ∗ info t i ∗ fld l 3 t ∗ blk n 2 ∗ fld n 1 0 ∗ fld n 2 y ∗ P) (by cancel) ?_
  simp only [bind_assoc]
  refine allocate_spec hs ht (fun h => ?_) fun b u hb => ?_
  · steps
    rw [if_pos rfl]
    steps
    call free2
    intro _
    steps
    exact Triple.pre (by cancel) (hfail h)
  · steps
    rw [if_neg hb]
    steps
    rcases hv with ⟨h0, rfl⟩ | ⟨h0, R', rfl⟩
    · rw [if_neg (by simp [h0])]
      simp only [bind_assoc]
      refine Triple.bind_frame (callCreate_spec (e := e) (t := t) (l := (b, 1)) (x := u) hc) (R := blk n 2 ∗ fld n 1 0 ∗ fld n 2 b ∗ Own b ∗ A ∗ fld l 3 t ∗ P)
        (by cancel) fun _ => ?_
      steps
      refine Triple.pre ?_ (hok ⟨n, b, _⟩ rfl hn)
      unfold elt
      cancel
    · rw [if_pos h0]
      simp only [bind_assoc]
      refine Triple.bind_frame (callCopy_spec (e := e) (t := t) (d := (b, 1)) (s := value) (y := u) (w := w) hc)
        (R := blk n 2 ∗ fld n 1 0 ∗ fld n 2 b ∗ Own b ∗ A ∗ fld l 3 t ∗ R') (by cancel) fun _ => ?_
      steps
      refine Triple.pre ?_ (hok ⟨n, b, _⟩ rfl hn)
      unfold elt
      cancel

theorem hdr_out : (isL e Own l a s t xs ∗ A ∗ info t i ∗ R) =
    (A ∗ info t i ∗ fld l 3 t ∗ (blk l 3 ∗ fld l 1 a ∗ fld l 2 s ∗ blk a 2 ∗ fld a 2 0 ∗ blk s 2 ∗ fld s 1 0 ∗ fld s 2 0) ∗ SList.path a (nodes xs ++ [s]) ∗ elts e Own xs ∗ R) := by
  unfold isL hdr; ac_rfl

/-- `value` refers to a constructed object in `P` -/
def Holds (e : ElemSpec nf (ops C i) W) (P : HProp V) (value : Loc) (w : W) : Prop := value.1 ≠ 0 ∧ ∃ R', P = (cell e value w ∗ R')

/-- `createNode` with the list at hand -/
theorem node_spec {value : Loc} {w : W} {Q : β → HProp V} {k : Addr → M V β} (ha : Storage nf C i A Own) (hc : Calls i) (ht : t ≠ 0) (hl : l ≠ 0)
    (hv : (value.1 = 0 ∧ w = e.dflt) ∨ Holds e R value w)
    (hfail : ¬ nf → Triple nf (isL e Own l a s t xs ∗ A ∗ info t i ∗ R) (k 0) Q)
    (hok : ∀ x : Elem W, x.val = w → x.node ≠ 0 → Triple nf (fld x.node 1 0 ∗ elt e Own x ∗ isL e Own l a s t xs ∗ A ∗ info t i ∗ R) (k x.node) Q) :
    Triple nf (isL e Own l a s t xs ∗ A ∗ info t i ∗ R) (createNode C l value >>= k) Q := by
  rw [hdr_out]
  refine createNode_spec (w := w) (e := e) ha hc ht hl ?_ (fun h => ?_) fun x hx hn => ?_
  · rcases hv with hv | ⟨h0, R', rfl⟩
    · exact .inl hv
    · exact .inr ⟨h0, (blk l 3 ∗ fld l 1 a ∗ fld l 2 s ∗ blk a 2 ∗ fld a 2 0 ∗ blk s 2 ∗ fld s 1 0 ∗ fld s 2 0) ∗ SList.path a (nodes xs ++ [s]) ∗ elts e Own xs ∗ R', by ac_rfl⟩
  · rw [← hdr_out]
    exact hfail h
  · rw [← hdr_out]
    exact hok x hx hn

theorem popNode_spec {p q : Addr} {x : Elem W} (hs : Storage nf C i A Own) (hc : Calls i) (ht : t ≠ 0) (hp0 : p ≠ 0) (hps : p ≠ s) (hxs : x.node ≠ s) (hxa : x.node ≠ a) :
    Triple nf (A ∗ info t i ∗ fld l 1 a ∗ fld l 2 s ∗ fld l 3 t ∗ fld p 1 x.node ∗ fld x.node 1 q ∗ elt e Own x) (popNodeAfter C l p)
      (fun r => ⌜r = q⌝ ∗ A ∗ info t i ∗ fld l 1 a ∗ fld l 2 s ∗ fld l 3 t ∗ fld p 1 q) := by
  unfold popNodeAfter elt
  focus_atom fld l 1 a
  apply Triple.ne_zero; intro hl
  focus_atom blk x.node 2
  apply Triple.ne_zero; intro hn
  step
  · simpa using hl
  steps
  rw [if_neg (by simp [hp0, hps])]
  steps
  rw [if_neg (by simp [hn, hxs, hxa])]
  steps
  refine Triple.bind_frame (callDestroy_spec (e := e) (t := t) (l := (x.box, 1)) (w := x.val) hc)
    (R := A ∗ fld l 1 a ∗ fld l 2 s ∗ fld l 3 t ∗ fld p 1 q ∗ fld x.node 1 q ∗ blk x.node 2 ∗ fld x.node 2 x.box ∗ Own x.box) (by cancel) fun _ => ?_
  refine Triple.pre (P' := (∃ₛ y, pts (x.box, 1) y) ∗ A ∗ info t i ∗ fld l 1 a ∗ fld l 2 s ∗ fld l 3 t ∗ fld p 1 q ∗ fld x.node 1 q ∗ blk x.node 2 ∗ fld x.node 2 x.box ∗ Own x.box)
    (by cancel) ?_
  refine Triple.ex_left' fun y => ?_
  steps
  refine Triple.bind_frame (deallocate_spec (b := x.box) (x := y) hs ht)
    (R := fld l 1 a ∗ fld l 2 s ∗ fld l 3 t ∗ fld p 1 q ∗ fld x.node 1 q ∗ blk x.node 2 ∗ fld x.node 2 x.box) (by cancel) fun _ => ?_
  call free2
  intro _
  steps
  apply Triple.ret
  cancel

/-! ## the list functions -/

theorem popAfter_spec {X Y : List (Elem W)} {x : Elem W} (ha : Storage nf C i A Own) (hc : Calls i) (ht : t ≠ 0) :
    Triple nf (isL e Own l a s t (X ++ x :: Y) ∗ A ∗ info t i ∗ R) (popNodeAfter C l (lastN X a)) (fun r => ⌜r = firstN Y s⌝ ∗ isL e Own l a s t (X ++ Y) ∗ A ∗ info t i ∗ R) := by
  refine list_facts (A ∗ info t i ∗ R) (ent_refl _) fun f => ?_
  have h1 := f.lastN_ne
  simp only [isL, hdr, path_split_cons, elts_append, elts]
  refine Triple.call_frame (popNode_spec (e := e) (l := l) (s := s) (a := a) (x := x) (p := lastN X a) (q := firstN Y s) ha hc ht h1.2 h1.1 (f.ns x (by simp)) (f.na x (by simp)))
    (R := (blk l 3 ∗ blk a 2 ∗ fld a 2 0 ∗ blk s 2 ∗ fld s 1 0 ∗ fld s 2 0) ∗ SList.path a (nodes X) ∗ pathTail Y s ∗ elts e Own X ∗ elts e Own Y ∗ R) (by cancel) fun r => ?_
  xsub
  simp only [path_split]
  cancel

theorem popAfter_end {X : List (Elem W)} :
    Triple nf (isL e Own l a s t X ∗ R) (popNodeAfter C l (lastN X a)) (fun r => ⌜r = s⌝ ∗ isL e Own l a s t X ∗ R) := by
  refine list_facts R (ent_refl _) fun f => ?_
  unfold popNodeAfter
  refine Triple.cassert_spec (by simpa using f.l0) ?_
  refine ldN_reads node_rd ?_
  rw [if_neg (by have := (Facts.lastN_ne (X := X) (Y := []) (by simpa using f)); simp only [this.1, this.2, or_self, not_false_eq_true])]
  have h := nxt_rd (e := e) (Own := Own) (l := l) (a := a) (s := s) (t := t) (X := X) (Y := []) (P := R)
  rw [List.append_nil, firstN_nil] at h
  refine ldN_reads h (ldN_reads node_rd (ldN_reads anc_rd ?_))
  rw [if_pos (by simp)]
  apply Triple.ret
  cancel

theorem clearLoop_spec {X Y : List (Elem W)} (ha : Storage nf C i A Own) (hc : Calls i) (ht : t ≠ 0) :
    Triple nf (isL e Own l a s t (X ++ Y) ∗ A ∗ info t i ∗ R) (clearLoop C l (lastN X a) (firstN Y s) s) (fun _ => isL e Own l a s t X ∗ A ∗ info t i ∗ R) := by
  induction Y with
  | nil =>
    rw [clearLoop, if_neg (by simp), List.append_nil]
    apply Triple.ret
    cancel
  | cons x Y ih =>
    refine list_facts (A ∗ info t i ∗ R) (ent_refl _) fun f => ?_
    rw [clearLoop, if_pos (by simpa using f.ns x (by simp))]
    refine Triple.bind (popAfter_spec ha hc ht) fun r => ?_
    refine Triple.pure_left ?_
    rintro rfl
    exact ih

theorem clear_spec (ha : Storage nf C i A Own) (hc : Calls i) (ht : t ≠ 0) :
    Triple nf (isL e Own l a s t xs ∗ A ∗ info t i ∗ R) (clear C l) (fun _ => isL e Own l a s t [] ∗ A ∗ info t i ∗ R) := by
  unfold clear
  refine cps empty_spec ?_
  cases xs with
  | nil => simp; apply Triple.ret; cancel
  | cons x xs =>
    rw [if_neg (by simp)]
    refine cps beforeBegin_spec (cps begin_spec (cps end_spec ?_))
    exact clearLoop_spec (X := []) (Y := x :: xs) ha hc ht

theorem destroy_spec (ha : Storage nf C i A Own) (hc : Calls i) (ht : t ≠ 0) :
    Triple nf (isL e Own l a s t xs ∗ A ∗ info t i ∗ R) (destroy C l) (fun _ => A ∗ info t i ∗ R) := by
  refine list_facts (A ∗ info t i ∗ R) (ent_refl _) fun f => ?_
  unfold destroy
  rw [if_neg f.l0]
  refine Triple.bind (clear_spec ha hc ht) fun _ => ?_
  unfold isL hdr
  simp [SList.path, elts]
  steps
  call free2
  intro _
  steps
  call free2
  intro _
  steps
  call free3
  intro _
  cancel

theorem create_spec {Q : β → HProp V} {k : Addr → M V β} (ht : t ≠ 0) (hfail : ¬ nf → Triple nf P (k 0) Q)
    (hok : ∀ l a s, l ≠ 0 → Triple nf (isL e Own l a s t [] ∗ P) (k l) Q) : Triple nf P (SList.create t >>= k) Q := by
  refine SList.create_spec ht hfail fun l a s hl => ?_
  refine Triple.pre ?_ (hok l a s hl)
  simp [SList.isSList, isL, SList.path, SList.elts, elts]
  cancel

theorem insertAfter_spec {X Y : List (Elem W)} {value : Loc} {w : W} (ha : Storage nf C i A Own) (hc : Calls i) (ht : t ≠ 0) (hv : Holds e R value w) :
    Triple nf (isL e Own l a s t (X ++ Y) ∗ A ∗ info t i ∗ R) (insertAfter C l (lastN X a) value)
      (fun r => ∃ₛ N, ⌜(nf → N ≠ []) ∧ (N = [] ∨ ∃ x, N = [x] ∧ x.val = w) ∧ r = lastN (X ++ N) a⌝ ∗ isL e Own l a s t (X ++ N ++ Y) ∗ A ∗ info t i ∗ R) := by
  refine list_facts (A ∗ info t i ∗ R) (ent_refl _) fun f => ?_
  unfold insertAfter
  refine Triple.cassert_spec (by simpa using f.l0) ?_
  refine Triple.cassert_spec (by simpa using hv.1) ?_
  refine node_spec ha hc ht f.l0 (.inr hv) (fun h => ?_) fun x hx hn => ?_
  · rw [if_pos rfl]
    apply Triple.ret
    apply ent_ex_right []
    simp only [List.append_nil]
    cancel
    exact ⟨fun h' => absurd h' h, Or.inl trivial, trivial⟩
  · rw [if_neg hn]
    refine Triple.pre (P' := fld x.node 1 0 ∗ elt e Own x ∗ (hdr l a s t ∗ (SList.path a (nodes X) ∗ fld (lastN X a) 1 (firstN Y s) ∗ pathTail Y s) ∗ elts e Own (X ++ Y)) ∗ A ∗ info t i ∗ R)
      (by rw [isL, path_split]; cancel) ?_
    steps
    apply Triple.ret
    apply ent_ex_right [x]
    simp only [isL, List.append_assoc, List.singleton_append, path_split_cons, elts_append, elts]
    cancel
    exact ⟨by simp, Or.inr ⟨x, rfl, hx⟩, by rw [lastN_append_cons, lastN_nil]⟩

theorem eraseAfter_spec {X Y : List (Elem W)} {x : Elem W} (ha : Storage nf C i A Own) (hc : Calls i) (ht : t ≠ 0) :
    Triple nf (isL e Own l a s t (X ++ x :: Y) ∗ A ∗ info t i ∗ R) (eraseAfter C l (lastN X a)) (fun r => ⌜r = firstN Y s⌝ ∗ isL e Own l a s t (X ++ Y) ∗ A ∗ info t i ∗ R) := by
  refine list_facts (A ∗ info t i ∗ R) (ent_refl _) fun f => ?_
  unfold eraseAfter
  exact Triple.cassert_spec (by simpa using f.l0) (popAfter_spec ha hc ht)

theorem eraseAfter_end : Triple nf (isL e Own l a s t xs ∗ R) (eraseAfter C l (lastN xs a)) (fun r => ⌜r = s⌝ ∗ isL e Own l a s t xs ∗ R) := by
  refine list_facts R (ent_refl _) fun f => ?_
  unfold eraseAfter
  exact Triple.cassert_spec (by simpa using f.l0) popAfter_end

theorem pushFront_spec {value : Loc} {w : W} (ha : Storage nf C i A Own) (hc : Calls i) (ht : t ≠ 0) (hv : Holds e R value w) :
    Triple nf (isL e Own l a s t xs ∗ A ∗ info t i ∗ R) (pushFront C l value)
      (fun _ => ∃ₛ N, ⌜(nf → N ≠ []) ∧ (N = [] ∨ ∃ x, N = [x] ∧ x.val = w)⌝ ∗ isL e Own l a s t (N ++ xs) ∗ A ∗ info t i ∗ R) := by
  refine list_facts (A ∗ info t i ∗ R) (ent_refl _) fun f => ?_
  unfold pushFront
  rw [if_neg (by simp [f.l0, hv.1])]
  refine node_spec ha hc ht f.l0 (.inr hv) (fun h => ?_) fun x hx hn => ?_
  · rw [if_pos rfl]
    apply Triple.ret
    apply ent_ex_right []
    simp only [List.nil_append]
    cancel
    exact ⟨fun h' => absurd h' h, Or.inl trivial⟩
  · rw [if_neg hn]
    refine Triple.pre (P' := fld x.node 1 0 ∗ elt e Own x ∗ ((blk l 3 ∗ fld l 1 a ∗ fld l 2 s ∗ fld l 3 t ∗ blk a 2 ∗ fld a 2 0 ∗ blk s 2 ∗ fld s 1 0 ∗ fld s 2 0) ∗
      (fld a 1 (firstN xs s) ∗ pathTail xs s) ∗ elts e Own xs) ∗ A ∗ info t i ∗ R)
      (by rw [isL, hdr, path_first]; cancel) ?_
    steps
    apply Triple.ret
    apply ent_ex_right [x]
    simp only [isL, hdr, List.singleton_append, List.map_cons, List.cons_append, SList.path, path_first, elts]
    cancel
    exact ⟨by simp, Or.inr ⟨x, rfl, hx⟩⟩

theorem popFront_spec (ha : Storage nf C i A Own) (hc : Calls i) (ht : t ≠ 0) :
    Triple nf (isL e Own l a s t xs ∗ A ∗ info t i ∗ R) (popFront C l) (fun _ => isL e Own l a s t xs.tail ∗ A ∗ info t i ∗ R) := by
  unfold popFront
  refine cps empty_spec ?_
  cases xs with
  | nil => simp; apply Triple.ret; cancel
  | cons x xs =>
    rw [if_neg (by simp)]
    refine ldN_reads anc_rd ?_
    refine Triple.bind (popAfter_spec (X := []) ha hc ht) fun r => ?_
    refine Triple.pure_left fun _ => ?_
    apply Triple.ret
    rw [List.tail_cons, List.nil_append]
    cancel

theorem resizeSkip_spec {X Y : List (Elem W)} {c : Nat} {Q : β → HProp V} {k : Addr × Addr × Nat → M V β}
    (hk : Triple nf (isL e Own l a s t (X ++ Y) ∗ P) (k (lastN (X ++ Y.take c) a, firstN (Y.drop c) s, c - Y.length)) Q) :
    Triple nf (isL e Own l a s t (X ++ Y) ∗ P) (SList.resizeSkip l (lastN X a) (firstN Y s) c >>= k) Q := by
  refine cps ?_ hk
  clear hk
  rw [← sep_emp (isL e Own l a s t (X ++ Y))]
  induction Y generalizing c X with
  | nil =>
    rw [SList.resizeSkip]
    refine ldN_reads node_rd ?_
    rw [if_neg (by simp)]
    apply Triple.ret
    cancel_core
    simp
  | cons x Y ih =>
    refine list_facts emp (ent_refl _) fun f => ?_
    rw [SList.resizeSkip]
    refine ldN_reads node_rd ?_
    cases c with
    | zero =>
      rw [if_neg (by simp)]
      apply Triple.ret
      cancel_core
      simp
    | succ c =>
      rw [if_pos ⟨by simpa using f.ns x (by simp), by omega⟩, firstN_cons]
      refine ldN_reads nxt_rd' ?_
      have ih' := ih (X := X ++ [x]) (c := c)
      simp only [List.append_assoc, List.singleton_append, lastN_append_cons, lastN_nil] at ih'
      rw [Nat.add_sub_cancel, List.take_succ_cons, lastN_append_cons, List.drop_succ_cons, List.length_cons, Nat.add_sub_add_right]
      exact ih'

theorem resizeGrow_spec {c : Nat} {value : Loc} {w : W} (ha : Storage nf C i A Own) (hc : Calls i) (ht : t ≠ 0) (hv : (value.1 = 0 ∧ w = e.dflt) ∨ Holds e R value w) :
    Triple nf (isL e Own l a s t xs ∗ A ∗ info t i ∗ R) (resizeGrow C l value (lastN xs a) c)
      (fun _ => ∃ₛ N, ⌜(∃ k, k ≤ c ∧ vals N = List.replicate k w) ∧ (nf → N.length = c)⌝ ∗ isL e Own l a s t (xs ++ N) ∗ A ∗ info t i ∗ R) := by
  induction c generalizing xs with
  | zero =>
    rw [resizeGrow]
    apply Triple.ret
    apply ent_ex_right []
    rw [List.append_nil]
    cancel
    exact ⟨⟨0, by simp⟩, by simp⟩
  | succ c ih =>
    refine list_facts (A ∗ info t i ∗ R) (ent_refl _) fun f => ?_
    rw [resizeGrow]
    refine node_spec ha hc ht f.l0 hv (fun h => ?_) fun x hx hn => ?_
    · rw [if_pos rfl]
      apply Triple.ret
      apply ent_ex_right []
      rw [List.append_nil]
      cancel
      exact ⟨⟨0, by simp⟩, fun h' => absurd h' h⟩
    · rw [if_neg hn, isL, hdr, path_snoc]
      steps
      have ih' := ih (xs := xs ++ [x])
      rw [lastN_append_cons, lastN_nil] at ih'
      refine Triple.conseq ih' ?_ fun _ => ?_
      · simp only [isL, hdr, path_split_cons, elts_append, elts, firstN_nil, pathTail]
        cancel
      · xintro N ⟨⟨k, hk, hN⟩, hnf⟩
        apply ent_ex_right (x :: N)
        rw [List.append_assoc]
        cancel
        exact ⟨⟨k+1, by omega, by simp [hN, hx, List.replicate_succ]⟩, fun h => by simp [hnf h]⟩

theorem resizeShrink_spec {X Y : List (Elem W)} (ha : Storage nf C i A Own) (hc : Calls i) (ht : t ≠ 0) :
    Triple nf (isL e Own l a s t (X ++ Y) ∗ A ∗ info t i ∗ R) (resizeShrink C l (lastN X a) (firstN Y s)) (fun _ => isL e Own l a s t X ∗ A ∗ info t i ∗ R) := by
  induction Y with
  | nil =>
    rw [resizeShrink]
    refine ldN_reads node_rd ?_
    rw [if_neg (by simp), List.append_nil]
    apply Triple.ret
    cancel
  | cons x Y ih =>
    refine list_facts (A ∗ info t i ∗ R) (ent_refl _) fun f => ?_
    rw [resizeShrink]
    refine ldN_reads node_rd ?_
    rw [if_pos (by simpa using f.ns x (by simp))]
    refine Triple.bind (popAfter_spec ha hc ht) fun r => ?_
    refine Triple.pure_left ?_
    rintro rfl
    exact ih

theorem resizeWithValue_spec {c : Nat} {value : Loc} {w : W} (ha : Storage nf C i A Own) (hc : Calls i) (ht : t ≠ 0) (hv : (value.1 = 0 ∧ w = e.dflt) ∨ Holds e R value w) :
    Triple nf (isL e Own l a s t xs ∗ A ∗ info t i ∗ R) (resizeWithValue C l c value)
      (fun _ => ∃ₛ N, ⌜(∃ k, k ≤ c - xs.length ∧ vals N = List.replicate k w) ∧ (nf → N.length = c - xs.length)⌝ ∗ isL e Own l a s t (xs.take c ++ N) ∗ A ∗ info t i ∗ R) := by
  refine list_facts (A ∗ info t i ∗ R) (ent_refl _) fun f => ?_
  unfold resizeWithValue
  rw [if_neg f.l0]
  refine ldN_reads anc_rd ?_
  refine ldN_reads (nxt_rd (X := []) (Y := xs)) ?_
  refine resizeSkip_spec (X := []) (Y := xs) ?_
  rw [List.nil_append, List.nil_append]
  by_cases hle : c ≤ xs.length
  · have h0 : c - xs.length = 0 := by omega
    simp only [h0]
    rw [if_neg (by omega)]
    have hs := resizeShrink_spec (e := e) (l := l) (a := a) (s := s) (t := t) (R := R) (X := xs.take c) (Y := xs.drop c) ha hc ht
    rw [List.take_append_drop] at hs
    refine Triple.post hs fun _ => ?_
    apply ent_ex_right []
    rw [List.append_nil]
    cancel
    exact ⟨⟨0, by simp⟩, by simp⟩
  · dsimp only
    rw [if_pos (by omega), List.take_of_length_le (by omega)]
    exact resizeGrow_spec ha hc ht hv

theorem eraseAfterLoop_spec {X Y Z : List (Elem W)} (ha : Storage nf C i A Own) (hc : Calls i) (ht : t ≠ 0) :
    Triple nf (isL e Own l a s t (X ++ Y ++ Z) ∗ A ∗ info t i ∗ R) (eraseAfterLoop C l (lastN X a) (firstN (Y ++ Z) s) (firstN Z s))
      (fun _ => isL e Own l a s t (X ++ Z) ∗ A ∗ info t i ∗ R) := by
  induction Y with
  | nil =>
    rw [eraseAfterLoop, List.nil_append, if_neg (by simp), List.append_nil]
    apply Triple.ret
    cancel
  | cons x Y ih =>
    refine list_facts (A ∗ info t i ∗ R) (ent_refl _) fun f => ?_
    refine Triple.fact (p := x.node ≠ firstN Z s) (fun h hh => ?_) fun hne => ?_
    · cases Z with
      | nil => exact f.ns x (by simp)
      | cons z Z =>
        rw [isL] at hh
        rw [List.append_assoc, elts_append, List.cons_append, elts, elts_append, elts, elt, elt] at hh
        rw [firstN_cons]
        generalize SList.path a _ = G at hh
        exact CList.blk_ne (a := x.node) (b := z.node) (n := 2) (m := 2) rfl ((show _ ⊢ₛ blk x.node 2 ∗ blk z.node 2 ∗ fld x.node 2 x.box ∗ Own x.box ∗ cell e (x.box, 1) x.val ∗
          fld z.node 2 z.box ∗ Own z.box ∗ cell e (z.box, 1) z.val ∗ elts e Own X ∗ elts e Own Y ∗ elts e Own Z ∗ hdr l a s t ∗ G ∗ A ∗ info t i ∗ R by cancel) _ hh)
    rw [eraseAfterLoop, List.cons_append, firstN_cons, if_pos hne]
    have h := eraseAfter_spec (e := e) (Own := Own) (l := l) (a := a) (s := s) (t := t) (R := R) (X := X) (Y := Y ++ Z) (x := x) ha hc ht
    rw [List.append_assoc X, List.cons_append]
    refine Triple.bind h fun r => ?_
    refine Triple.pure_left ?_
    rintro rfl
    rw [← List.append_assoc]
    exact ih

theorem eraseAfterRange_spec {X Y Z : List (Elem W)} (ha : Storage nf C i A Own) (hc : Calls i) (ht : t ≠ 0) :
    Triple nf (isL e Own l a s t (X ++ Y ++ Z) ∗ A ∗ info t i ∗ R) (eraseAfterRange C l (lastN X a) (firstN Z s))
      (fun r => ⌜r = firstN Z s⌝ ∗ isL e Own l a s t (X ++ Z) ∗ A ∗ info t i ∗ R) := by
  unfold eraseAfterRange SList.iterIncrement
  have h := nxt_rd (e := e) (Own := Own) (l := l) (a := a) (s := s) (t := t) (X := X) (Y := Y ++ Z) (P := A ∗ info t i ∗ R)
  rw [← List.append_assoc] at h
  refine ldN_reads h ?_
  refine Triple.bind (eraseAfterLoop_spec ha hc ht) fun _ => ?_
  apply Triple.ret
  cancel

theorem advance_spec {X Y : List (Elem W)} {k : Nat} {Q : β → HProp V} {K : Addr → M V β} (hk : X.length = k) (h : Triple nf (isL e Own l a s t (X ++ Y) ∗ P) (K (lastN X a)) Q) :
    Triple nf (isL e Own l a s t (X ++ Y) ∗ P) ((do let b ← beforeBegin l; iterAdvance b k) >>= K) Q := by
  subst hk
  rw [bind_assoc]
  refine cps beforeBegin_spec ?_
  have key : ∀ (N : List (Elem W)) (Z : List (Elem W)), X = Z ++ N → Triple nf (isL e Own l a s t (X ++ Y) ∗ P) (iterAdvance (lastN Z a) N.length >>= K) Q := by
    intro N
    induction N with
    | nil =>
      intro Z hZ
      rw [List.append_nil] at hZ
      subst hZ
      simp only [List.length_nil, iterAdvance, pure_bind]
      exact h
    | cons x N ih =>
      intro Z hZ
      simp only [List.length_cons, iterAdvance, bind_assoc]
      have h1 := nxt_rd (e := e) (Own := Own) (l := l) (a := a) (s := s) (t := t) (X := Z) (Y := x :: N ++ Y) (P := P)
      rw [← List.append_assoc, ← hZ, List.cons_append, firstN_cons] at h1
      refine ldN_reads h1 ?_
      have := ih (Z ++ [x]) (by simp [hZ])
      rw [lastN_append_cons, lastN_nil] at this
      exact this
  exact key X [] rfl

/-! ## copying -/

section
variable {o a2 s2 : Addr}

theorem box_rd {X Y : List (Elem W)} {x : Elem W} : ReadsN (isL e Own l a s t (X ++ x :: Y) ∗ P) (x.node, 2) x.box :=
  ReadsN.of_ent (by rw [isL, elts_append, elts, elt]; cancel)

theorem box_ne {X Y : List (Elem W)} {x : Elem W} {h : Heap V} (hh : (isL e Own l a s t (X ++ x :: Y) ∗ P) h) : x.box ≠ 0 := by
  rw [isL, elts_append, elts, elt] at hh
  generalize SList.path a _ = G at hh
  have hh := (show _ ⊢ₛ cell e (x.box, 1) x.val ∗ hdr l a s t ∗ G ∗ elts e Own X ∗ (blk x.node 2 ∗ fld x.node 2 x.box ∗ Own x.box) ∗ elts e Own Y ∗ P by cancel) _ hh
  rw [cell] at hh
  simp only [sep_assoc, hex_sep] at hh
  obtain ⟨u, hh⟩ := hh
  exact pts_ne_zero hh

theorem copyLoop_spec {X Y : List (Elem W)} (ha : Storage nf C i A Own) (hc : Calls i) (ht : t ≠ 0) :
    Triple nf (isL e Own o a2 s2 t (X ++ Y) ∗ isL e Own l a s t xs ∗ A ∗ info t i ∗ R) (copyLoop C l (lastN xs a) o (firstN Y s2))
      (fun _ => ∃ₛ N, ⌜(vals N).Sublist (vals Y) ∧ (nf → vals N = vals Y)⌝ ∗ isL e Own o a2 s2 t (X ++ Y) ∗ isL e Own l a s t (xs ++ N) ∗ A ∗ info t i ∗ R) := by
  induction Y generalizing xs X with
  | nil =>
    rw [copyLoop]
    refine cps end_spec ?_
    rw [firstN_nil, if_neg (by simp)]
    apply Triple.ret
    apply ent_ex_right []
    simp only [List.append_nil]
    cancel
    simp
  | cons x Y ih =>
    refine list_facts (l := o) (isL e Own l a s t xs ∗ A ∗ info t i ∗ R) (ent_refl _) fun f => ?_
    rw [copyLoop]
    refine cps end_spec ?_
    rw [if_pos (by rw [firstN_cons]; exact f.ns x (by simp)), firstN_cons]
    unfold SList.valOf
    rw [bind_assoc]
    refine ldN_reads box_rd ?_
    rw [pure_bind]
    refine Triple.fact (p := x.box ≠ 0) (fun h hh => box_ne hh) fun hb => ?_
    have hins := insertAfter_spec (e := e) (Own := Own) (l := l) (a := a) (s := s) (t := t) (X := xs) (Y := []) (value := (x.box, 1)) (w := x.val)
      (R := isL e Own o a2 s2 t (X ++ x :: Y) ∗ R) ha hc ht ⟨hb, _, by
        rw [show isL e Own o a2 s2 t (X ++ x :: Y) = (cell e (x.box, 1) x.val ∗ hdr o a2 s2 t ∗ SList.path a2 (nodes (X ++ x :: Y) ++ [s2]) ∗ elts e Own X ∗
          (blk x.node 2 ∗ fld x.node 2 x.box ∗ Own x.box) ∗ elts e Own Y) by rw [isL, elts_append, elts, elt]; ac_rfl, sep_assoc]⟩
    rw [List.append_nil] at hins
    refine Triple.bind (Triple.pre (by cancel) hins) fun r => ?_
    refine Triple.ex_left fun N => Triple.pure_left fun hN => ?_
    rw [List.append_nil]
    refine Triple.pre (P' := isL e Own o a2 s2 t (X ++ x :: Y) ∗ isL e Own l a s t (xs ++ N) ∗ A ∗ info t i ∗ R) (by cancel) ?_
    refine ldN_reads nxt_rd' ?_
    have ih' := ih (xs := xs ++ N) (X := X ++ [x])
    simp only [List.append_assoc, List.singleton_append] at ih'
    rw [hN.2.2]
    refine Triple.post ih' fun _ => ?_
    xintro N' ⟨h1, h2⟩
    apply ent_ex_right (N ++ N')
    cancel
    obtain ⟨hN1, hN2, _⟩ := hN
    constructor
    · rcases hN2 with rfl | ⟨e', rfl, he'⟩
      · simpa using h1.cons _
      · simpa [he'] using h1
    · intro hnf
      rcases hN2 with rfl | ⟨e', rfl, he'⟩
      · exact absurd rfl (hN1 hnf)
      · simpa [he'] using h2 hnf

theorem copy_spec (ha : Storage nf C i A Own) (hi : Complete i) (ht : t ≠ 0) :
    Triple nf (isL e Own o a2 s2 t ys ∗ A ∗ info t i ∗ R) (copy C o)
      (fun r => isL e Own o a2 s2 t ys ∗ A ∗ info t i ∗ R ∗ ∃ₛ N, ⌜(r = 0 → ¬ nf) ∧ (vals N).Sublist (vals ys) ∧ (nf → vals N = vals ys)⌝ ∗
        if r = 0 then ⌜N = []⌝ else hex fun p : Addr × Addr => isL e Own r p.1 p.2 t N) := by
  have hc : Calls i := ⟨hi.2.1, hi.2.2.1, hi.2.2.2.1⟩
  refine list_facts (l := o) (A ∗ info t i ∗ R) (ent_refl _) fun f => ?_
  unfold copy
  rw [if_neg f.l0]
  refine ldN_reads type_rd ?_
  unfold slistCreate
  rw [if_neg ht]
  simp only [bind_assoc]
  refine Triple.pre (P' := info t i ∗ isL e Own o a2 s2 t ys ∗ A ∗ R) (by cancel) (validate_cps hi ?_)
  refine create_spec (e := e) (Own := Own) ht (fun h => ?_) fun l a s hl' => ?_
  · rw [if_pos rfl]
    apply Triple.ret
    simp only [↓reduceIte]
    refine ent_trans (Q := (isL e Own o a2 s2 t ys ∗ A ∗ info t i ∗ R) ∗ emp) (by cancel) ?_
    simp only [sep_assoc]
    refine ent_cancel (ent_cancel (ent_cancel (ent_cancel ?_)))
    apply ent_ex_right []
    refine ent_pure_right ⟨fun _ => h, by simp, fun hn => absurd hn h⟩ ?_
    rw [← sep_emp (⌜_⌝)]
    exact ent_pure_right rfl (ent_refl _)
  · rw [if_neg hl']
    refine cps beforeBegin_spec ?_
    refine Triple.pre (P' := isL e Own o a2 s2 t ys ∗ isL e Own l a s t [] ∗ A ∗ info t i ∗ R) (by cancel) ?_
    refine cps begin_spec ?_
    refine Triple.bind (copyLoop_spec (xs := []) (X := []) ha hc ht) fun _ => ?_
    refine Triple.ex_left fun N => Triple.pure_left fun hN => ?_
    apply Triple.ret
    simp only [if_neg hl']
    refine ent_trans (Q := isL e Own o a2 s2 t ys ∗ A ∗ info t i ∗ R ∗ isL e Own l a s t N) (by rw [List.nil_append, List.nil_append]; cancel) ?_
    refine ent_cancel (ent_cancel (ent_cancel (ent_cancel ?_)))
    apply ent_ex_right N
    refine ent_pure_right ⟨fun h => absurd h hl', hN.1, hN.2⟩ ?_
    exact ent_ex_right (a, s) (ent_refl _)

/-- assigning from a list of another type, whose elements and allocator are different -/
theorem assign_other {i₁ : Table} {t₁ : Addr} {A₁ : HProp V} {Own₁ : Addr → HProp V} {W₁ : Type} {e₁ : ElemSpec nf (ops C i₁) W₁} {zs : List (Elem W₁)}
    (ha₁ : Storage nf C i₁ A₁ Own₁) (hc₁ : Calls i₁) (ht₁ : t₁ ≠ 0) (ha : Storage nf C i A Own) (hc : Calls i) (ht : t ≠ 0) :
    Triple nf (isL e₁ Own₁ l a s t₁ zs ∗ A₁ ∗ info t₁ i₁ ∗ isL e Own o a2 s2 t ys ∗ A ∗ info t i ∗ R) (assign C l o)
      (fun r => ∃ₛ N, ⌜r = l ∧ (vals N).Sublist (vals ys) ∧ (nf → vals N = vals ys)⌝ ∗ isL e Own l a s t N ∗ A₁ ∗ info t₁ i₁ ∗ isL e Own o a2 s2 t ys ∗ A ∗ info t i ∗ R) := by
  refine list_facts (e := e) (Own := Own) (l := o) (a := a2) (s := s2) (t := t) (xs := ys) (isL e₁ Own₁ l a s t₁ zs ∗ A₁ ∗ info t₁ i₁ ∗ A ∗ info t i ∗ R) (by cancel) fun fo => ?_
  refine list_facts (l := l) (A₁ ∗ info t₁ i₁ ∗ isL e Own o a2 s2 t ys ∗ A ∗ info t i ∗ R) (ent_refl _) fun f => ?_
  refine Triple.fact (p := l ≠ o) (fun h hh => ?_) fun hlo => ?_
  · rw [isL, isL, hdr, hdr] at hh
    exact CList.blk_ne (a := l) (b := o) (n := 3) (m := 3) rfl ((show _ ⊢ₛ _ by cancel) _ hh)
  unfold assign
  rw [if_neg (by simp [f.l0, fo.l0]), if_pos hlo]
  refine Triple.bind (clear_spec ha₁ hc₁ ht₁) fun _ => ?_
  refine Triple.pre (P' := isL e Own o a2 s2 t ys ∗ A ∗ info t i ∗ isL e₁ Own₁ l a s t₁ [] ∗ A₁ ∗ info t₁ i₁ ∗ R) (by cancel) ?_
  refine ldN_reads type_rd ?_
  refine Triple.pre (P' := fld l 3 t₁ ∗ (blk l 3 ∗ fld l 1 a ∗ fld l 2 s ∗ blk a 2 ∗ fld a 2 0 ∗ blk s 2 ∗ fld s 1 0 ∗ fld s 2 0) ∗ SList.path a (nodes ([] : List (Elem W)) ++ [s]) ∗
    isL e Own o a2 s2 t ys ∗ A ∗ info t i ∗ A₁ ∗ info t₁ i₁ ∗ R)
    (by rw [show isL e₁ Own₁ l a s t₁ [] = (hdr l a s t₁ ∗ SList.path a (nodes ([] : List (Elem W)) ++ [s]) ∗ emp) from rfl, hdr]; cancel) ?_
  step
  refine Triple.pre (P' := isL e Own l a s t [] ∗ isL e Own o a2 s2 t ys ∗ A ∗ info t i ∗ A₁ ∗ info t₁ i₁ ∗ R)
    (by rw [show isL e Own l a s t [] = (hdr l a s t ∗ SList.path a (nodes ([] : List (Elem W)) ++ [s]) ∗ emp) from rfl, hdr]; cancel) ?_
  refine cps beforeBegin_spec ?_
  refine Triple.pre (P' := isL e Own o a2 s2 t ys ∗ isL e Own l a s t [] ∗ A ∗ info t i ∗ A₁ ∗ info t₁ i₁ ∗ R) (by cancel) ?_
  refine cps begin_spec ?_
  refine Triple.bind (copyLoop_spec (xs := []) (X := []) ha hc ht) fun _ => ?_
  refine Triple.ex_left fun N => Triple.pure_left fun hN => ?_
  apply Triple.ret
  apply ent_ex_right N
  rw [List.nil_append, List.nil_append]
  cancel

theorem assign_spec (ha : Storage nf C i A Own) (hc : Calls i) (ht : t ≠ 0) :
    Triple nf (isL e Own l a s t xs ∗ isL e Own o a2 s2 t ys ∗ A ∗ info t i ∗ R) (assign C l o)
      (fun r => ∃ₛ N, ⌜r = l ∧ (vals N).Sublist (vals ys) ∧ (nf → vals N = vals ys)⌝ ∗ isL e Own l a s t N ∗ isL e Own o a2 s2 t ys ∗ A ∗ info t i ∗ R) := by
  refine list_facts (e := e) (Own := Own) (l := o) (a := a2) (s := s2) (t := t) (xs := ys) (isL e Own l a s t xs ∗ A ∗ info t i ∗ R) (by cancel) fun fo => ?_
  refine list_facts (l := l) (isL e Own o a2 s2 t ys ∗ A ∗ info t i ∗ R) (ent_refl _) fun f => ?_
  refine Triple.fact (p := l ≠ o) (fun h hh => ?_) fun hlo => ?_
  · unfold isL hdr at hh
    exact CList.blk_ne (a := l) (b := o) (n := 3) (m := 3) rfl ((show _ ⊢ₛ _ by cancel) _ hh)
  unfold assign
  rw [if_neg (by simp [f.l0, fo.l0]), if_pos hlo]
  refine Triple.bind (Triple.pre (by cancel) (clear_spec (l := l) (a := a) (s := s) (xs := xs) (R := isL e Own o a2 s2 t ys ∗ R) ha hc ht)) fun _ => ?_
  refine Triple.pre (P' := isL e Own o a2 s2 t ys ∗ A ∗ info t i ∗ isL e Own l a s t [] ∗ R) (by cancel) ?_
  refine ldN_reads type_rd ?_
  refine Triple.pre (P' := fld l 3 t ∗ (blk l 3 ∗ fld l 1 a ∗ fld l 2 s ∗ blk a 2 ∗ fld a 2 0 ∗ blk s 2 ∗ fld s 1 0 ∗ fld s 2 0) ∗ SList.path a (nodes ([] : List (Elem W)) ++ [s]) ∗
    isL e Own o a2 s2 t ys ∗ A ∗ info t i ∗ R)
    (by rw [show isL e Own l a s t [] = (hdr l a s t ∗ SList.path a (nodes ([] : List (Elem W)) ++ [s]) ∗ emp) from rfl, hdr]; cancel) ?_
  step
  refine Triple.pre (P' := isL e Own l a s t [] ∗ isL e Own o a2 s2 t ys ∗ A ∗ info t i ∗ R)
    (by rw [show isL e Own l a s t [] = (hdr l a s t ∗ SList.path a (nodes ([] : List (Elem W)) ++ [s]) ∗ emp) from rfl, hdr]; cancel) ?_
  refine cps beforeBegin_spec ?_
  refine Triple.pre (P' := isL e Own o a2 s2 t ys ∗ isL e Own l a s t [] ∗ A ∗ info t i ∗ R) (by cancel) ?_
  refine cps begin_spec ?_
  refine Triple.bind (copyLoop_spec (xs := []) (X := []) ha hc ht) fun _ => ?_
  refine Triple.ex_left fun N => Triple.pure_left fun hN => ?_
  apply Triple.ret
  apply ent_ex_right N
  rw [List.nil_append, List.nil_append]
  cancel
end

end CC.Info.S
