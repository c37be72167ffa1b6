import Verif.Info.OwnSpec
/-!
# Lists of elements with callbacks and storage of their own: the list functions
-/
namespace CC.Info.L
open CC.Tac
open CC.CList (link path hdr Elem prv nxt valp setPrv setNxt setValp lnode ltype begin_ end_ empty linkBack resizeSkip)
variable {V W α β : Type} {nf : Prop} {C : Funs V} {i : Table} {t : Addr} {A : HProp V} {Own : Addr → HProp V}

abbrev nodes (xs : List (Elem W)) : List Addr := xs.map Elem.node
abbrev vals (xs : List (Elem W)) : List W := xs.map Elem.val
abbrev lastN (X : List (Elem W)) (a : Addr) : Addr := (nodes X).getLastD a
def firstN (Y : List (Elem W)) (s : Addr) : Addr := (nodes Y).headD s

@[simp] theorem firstN_nil (s : Addr) : firstN ([] : List (Elem W)) s = s := rfl
@[simp] theorem firstN_cons (e : Elem W) (Y) (s : Addr) : firstN (e :: Y) s = e.node := rfl
@[simp] theorem lastN_nil (s : Addr) : lastN ([] : List (Elem W)) s = s := rfl
@[simp] theorem lastN_append_cons (X Y : List (Elem W)) (e : Elem W) (s : Addr) : lastN (X ++ e :: Y) s = lastN Y e.node := by
  simp [lastN, List.getLastD_eq_getLast?, List.getLast?_append, List.getLast?_cons]
@[simp] theorem lastN_cons (Y : List (Elem W)) (e : Elem W) (s : Addr) : lastN (e :: Y) s = lastN Y e.node := by
  simpa using lastN_append_cons [] Y e s

/-- the part of the chain of `Y` up to `s` after its first link -/
def pathTail : List (Elem W) → Addr → HProp V
  | [], _ => emp
  | e :: Y, s => path e.node (nodes Y ++ [s])

theorem path_first (a : Addr) (Y : List (Elem W)) (s : Addr) : path (V := V) a (nodes Y ++ [s]) = (link a (firstN Y s) ∗ pathTail Y s) := by
  cases Y <;> simp [path, pathTail]

theorem path_split (a : Addr) (X Y : List (Elem W)) (s : Addr) :
    path (V := V) a (nodes (X ++ Y) ++ [s]) = (path a (nodes X) ∗ link (lastN X a) (firstN Y s) ∗ pathTail Y s) := by
  rw [nodes, List.map_append, List.append_assoc, CList.path_append, path_first]

theorem path_split_cons (a : Addr) (X Y : List (Elem W)) (e : Elem W) (s : Addr) :
    path (V := V) a (nodes (X ++ e :: Y) ++ [s]) = (path a (nodes X) ∗ link (lastN X a) e.node ∗ link e.node (firstN Y s) ∗ pathTail Y s) := by
  rw [path_split, pathTail, path_first]; rfl

theorem path_snoc (a : Addr) (Y : List (Elem W)) (t : Addr) : path (V := V) a (nodes Y ++ [t]) = (path a (nodes Y) ∗ link (lastN Y a) t) := by
  rw [CList.path_append]; simp [path]

section
variable (e : ElemSpec nf (ops C i) W) (Own : Addr → HProp V)

/-- everything a node owns except its two links: the node, the storage of its element, the element -/
def elt (x : Elem W) : HProp V := blk x.node 3 ∗ fld x.node 3 x.box ∗ Own x.box ∗ cell e (x.box, 1) x.val

def elts : List (Elem W) → HProp V
  | [] => emp
  | x :: xs => elt e Own x ∗ elts xs

/-- The fragment is exactly a list with header block `l`, sentinel `s`, element type `t` and elements `xs`, with the storage and the resources of the elements. -/
def isList (l s : Addr) (t : Nat) (xs : List (Elem W)) : HProp V := hdr l s t ∗ path s (nodes xs ++ [s]) ∗ elts e Own xs
end

variable {e : ElemSpec nf (ops C i) W} {l s : Addr} {xs : List (Elem W)}

theorem elts_append (xs ys : List (Elem W)) : elts e Own (xs ++ ys) = (elts e Own xs ∗ elts e Own ys) := by
  induction xs with
  | nil => simp [elts]
  | cons x xs ih => simp only [List.cons_append, elts, ih, sep_assoc]

theorem elts_nodes_ne {n : Nat} {R : HProp V} {h : Heap V} (hh : (blk s n ∗ elts e Own xs ∗ R) h) : ∀ x ∈ xs, x.node ≠ s := by
  intro x hx
  obtain ⟨X, Y, rfl⟩ := List.append_of_mem hx
  rw [elts_append, elts, elt] at hh
  exact (CList.blk_ne (a := s) (b := x.node) (n := n) (m := 3) (R := elts e Own X ∗ fld x.node 3 x.box ∗ Own x.box ∗ cell e (x.box, 1) x.val ∗ elts e Own Y ∗ R) rfl
    ((show _ ⊢ₛ _ by cancel) _ hh)).symm

theorem list_facts {m : M V α} {Q : α → HProp V} {P : HProp V} (R : HProp V) (hP : P ⊢ₛ isList e Own l s t xs ∗ R)
    (h : l ≠ 0 → s ≠ 0 → (∀ x ∈ xs, x.node ≠ s) → Triple nf P m Q) : Triple nf P m Q := by
  refine Triple.fact (p := l ≠ 0 ∧ s ≠ 0 ∧ ∀ x ∈ xs, x.node ≠ s) (fun hp hh => ?_) fun ⟨a, b, c⟩ => h a b c
  have hh := hP _ hh
  unfold isList hdr at hh
  refine ⟨?_, ?_, ?_⟩
  · simp only [sep_assoc] at hh
    exact pts_ne_zero hh
  · have hh := (show _ ⊢ₛ blk s 3 ∗ (blk l 2 ∗ fld l 1 s ∗ fld l 2 t ∗ fld s 3 0) ∗ path s (nodes xs ++ [s]) ∗ elts e Own xs ∗ R by cancel) _ hh
    exact pts_ne_zero hh
  · have hh := (show _ ⊢ₛ blk s 3 ∗ elts e Own xs ∗ (blk l 2 ∗ fld l 1 s ∗ fld l 2 t ∗ fld s 3 0) ∗ path s (nodes xs ++ [s]) ∗ R by cancel) _ hh
    exact elts_nodes_ne hh

/-! ## nodes -/

theorem createNode_spec {value : Loc} {w : W} {P : HProp V} {Q : β → HProp V} {k : Addr → M V β} (hs : Storage nf C i A Own) (hc : Calls i) (ht : t ≠ 0) (hl : l ≠ 0)
    (hv : (value.1 = 0 ∧ w = e.dflt) ∨ (value.1 ≠ 0 ∧ ∃ R', P = (cell e value w ∗ R')))
    (hfail : ¬ nf → Triple nf (A ∗ info t i ∗ fld l 2 t ∗ P) (k 0) Q)
    (hok : ∀ x : Elem W, x.val = w → x.node ≠ 0 → Triple nf (fld x.node 1 0 ∗ fld x.node 2 0 ∗ elt e Own x ∗ A ∗ info t i ∗ fld l 2 t ∗ P) (k x.node) Q) :
    Triple nf (A ∗ info t i ∗ fld l 2 t ∗ P) (createNode C l value >>= k) Q := by
  unfold createNode
  steps
  · simpa using hl
  step
  apply mallocS3
  · intro h; simp; exact hfail h
  intro n x y z hn
  rw [if_neg hn]
  steps
  refine Triple.pre (P' := A ∗ info t i ∗ fld l 2 t ∗ blk n 3 ∗ fld n 1 0 ∗ fld n 2 0 ∗ fld n 3 z ∗ P) (by cancel) ?_
  simp only [bind_assoc]
  refine allocate_spec hs ht (fun h => ?_) fun b u hb => ?_
  · steps
    rw [if_pos rfl]
    steps
    call free3
    intro _
    steps
    exact Triple.pre (by cancel) (hfail h)
  · steps
    rw [if_neg hb]
    steps
    rcases hv with ⟨h0, rfl⟩ | ⟨h0, R', rfl⟩
    · rw [if_neg (by simp [h0])]
      simp only [bind_assoc]
      refine Triple.bind_frame (callCreate_spec (e := e) (t := t) (l := (b, 1)) (x := u) hc) (R := blk n 3 ∗ fld n 1 0 ∗ fld n 2 0 ∗ fld n 3 b ∗ Own b ∗ A ∗ fld l 2 t ∗ P)
        (by cancel) fun _ => ?_
      steps
      refine Triple.pre ?_ (hok ⟨n, b, _⟩ rfl hn)
      unfold elt
      cancel
    · rw [if_pos h0]
      simp only [bind_assoc]
      refine Triple.bind_frame (callCopy_spec (e := e) (t := t) (d := (b, 1)) (s := value) (y := u) (w := w) hc)
        (R := blk n 3 ∗ fld n 1 0 ∗ fld n 2 0 ∗ fld n 3 b ∗ Own b ∗ A ∗ fld l 2 t ∗ R') (by cancel) fun _ => ?_
      steps
      refine Triple.pre ?_ (hok ⟨n, b, _⟩ rfl hn)
      unfold elt
      cancel

theorem popNode_spec {p q : Addr} {x : Elem W} (hs : Storage nf C i A Own) (hc : Calls i) (ht : t ≠ 0) (hne : x.node ≠ s) :
    Triple nf (A ∗ info t i ∗ fld l 1 s ∗ fld l 2 t ∗ link p x.node ∗ link x.node q ∗ elt e Own x) (popNode C l x.node)
      (fun r => ⌜r = q⌝ ∗ A ∗ info t i ∗ fld l 1 s ∗ fld l 2 t ∗ link p q) := by
  unfold popNode link elt
  focus_atom fld l 1 s
  apply Triple.ne_zero; intro hl
  focus_atom blk x.node 3
  apply Triple.ne_zero; intro hn
  step
  · simpa using hl
  step
  · simpa using hn
  steps
  rw [if_neg hne]
  steps
  refine Triple.bind_frame (callDestroy_spec (e := e) (t := t) (l := (x.box, 1)) (w := x.val) hc)
    (R := A ∗ fld l 1 s ∗ fld l 2 t ∗ fld p 2 q ∗ fld q 1 p ∗ fld x.node 1 p ∗ fld x.node 2 q ∗ blk x.node 3 ∗ fld x.node 3 x.box ∗ Own x.box) (by cancel) fun _ => ?_
  refine Triple.pre (P' := (∃ₛ y, pts (x.box, 1) y) ∗ A ∗ info t i ∗ fld l 1 s ∗ fld l 2 t ∗ fld p 2 q ∗ fld q 1 p ∗ fld x.node 1 p ∗ fld x.node 2 q ∗ blk x.node 3 ∗ fld x.node 3 x.box ∗ Own x.box)
    (by cancel) ?_
  refine Triple.ex_left' fun y => ?_
  steps
  refine Triple.bind_frame (deallocate_spec (b := x.box) (x := y) hs ht)
    (R := fld l 1 s ∗ fld l 2 t ∗ fld p 2 q ∗ fld q 1 p ∗ fld x.node 1 p ∗ fld x.node 2 q ∗ blk x.node 3 ∗ fld x.node 3 x.box) (by cancel) fun _ => ?_
  call free3
  intro _
  apply Triple.ret
  cancel

/-! ## the list functions -/

theorem begin_spec : Triple nf (isList e Own l s t xs) (begin_ l) (fun r => ⌜r = firstN xs s⌝ ∗ isList e Own l s t xs) := by
  refine list_facts emp (by rw [sep_emp]; exact ent_refl _) fun hl _ _ => ?_
  simp only [begin_, isList, hdr, path_first, link]
  steps
  · simpa using hl
  steps
  apply Triple.ret
  cancel

theorem end_spec : Triple nf (isList e Own l s t xs) (end_ l) (fun r => ⌜r = s⌝ ∗ isList e Own l s t xs) := by
  refine list_facts emp (by rw [sep_emp]; exact ent_refl _) fun hl _ _ => ?_
  simp only [end_, isList, hdr]
  steps
  · simpa using hl
  steps
  apply Triple.ret
  cancel

theorem empty_spec : Triple nf (isList e Own l s t xs) (empty l) (fun r => ⌜r = xs.isEmpty⌝ ∗ isList e Own l s t xs) := by
  refine list_facts emp (by rw [sep_emp]; exact ent_refl _) fun hl _ hs => ?_
  unfold empty
  rw [if_pos hl]
  call (begin_spec (e := e) (Own := Own) (s := s) (t := t) (xs := xs))
  intro b
  xsub
  call (end_spec (e := e) (Own := Own) (s := s) (t := t) (xs := xs))
  intro b
  xsub
  apply Triple.ret
  cancel_core
  cases xs with
  | nil => simp
  | cons x xs => simpa using hs x (by simp)

/-- popping the nodes of `Y` one by one up to node `q` -/
theorem clearLoop_spec {Y : List (Elem W)} {p q : Addr} (ha : Storage nf C i A Own) (hc : Calls i) (ht : t ≠ 0) (hq : ∀ x ∈ Y, x.node ≠ q) (hs : ∀ x ∈ Y, x.node ≠ s) :
    Triple nf (A ∗ info t i ∗ fld l 1 s ∗ fld l 2 t ∗ path p (nodes Y ++ [q]) ∗ elts e Own Y) (clearLoop C l (firstN Y q) q)
      (fun _ => A ∗ info t i ∗ fld l 1 s ∗ fld l 2 t ∗ link p q) := by
  induction Y generalizing p with
  | nil => rw [clearLoop]; simp [path, elts]; apply Triple.ret; cancel
  | cons x Y ih =>
    rw [clearLoop, if_pos (by simpa using hq x (by simp))]
    simp only [List.map_cons, List.cons_append, path, path_first, firstN_cons, elts]
    refine Triple.bind_frame (popNode_spec (s := s) (l := l) (p := p) (q := firstN Y q) (x := x) (e := e) ha hc ht (hs x (by simp)))
      (R := pathTail Y q ∗ elts e Own Y) (by cancel) fun r => ?_
    xsub
    refine Triple.pre ?_ (ih (p := p) (fun x hx => hq x (by simp [hx])) (fun x hx => hs x (by simp [hx])))
    rw [path_first]
    cancel

theorem clear_spec (ha : Storage nf C i A Own) (hc : Calls i) (ht : t ≠ 0) :
    Triple nf (A ∗ info t i ∗ isList e Own l s t xs) (clear C l) (fun _ => A ∗ info t i ∗ isList e Own l s t []) := by
  refine list_facts (e := e) (Own := Own) (l := l) (s := s) (t := t) (xs := xs) (A ∗ info t i) (by cancel) fun hl _ hs => ?_
  unfold clear
  refine Triple.bind_frame (empty_spec (e := e) (Own := Own) (l := l) (s := s) (t := t) (xs := xs)) (R := A ∗ info t i) (by cancel) fun b => ?_
  xsub
  cases xs with
  | nil => simp; apply Triple.ret; cancel
  | cons x xs =>
    simp only [List.isEmpty_cons, Bool.false_eq_true, if_false]
    refine Triple.bind_frame (begin_spec (e := e) (Own := Own) (l := l) (s := s) (t := t) (xs := x :: xs)) (R := A ∗ info t i) (by cancel) fun b => ?_
    xsub
    refine Triple.bind_frame (end_spec (e := e) (Own := Own) (l := l) (s := s) (t := t) (xs := x :: xs)) (R := A ∗ info t i) (by cancel) fun b => ?_
    xsub
    unfold isList hdr
    refine Triple.call_frame (clearLoop_spec (s := s) (l := l) (p := s) (q := s) (Y := x :: xs) (e := e) ha hc ht hs hs) (R := blk l 2 ∗ blk s 3 ∗ fld s 3 0) (by cancel) fun _ => ?_
    simp [path, elts]
    cancel

theorem destroy_spec (ha : Storage nf C i A Own) (hc : Calls i) (ht : t ≠ 0) :
    Triple nf (A ∗ info t i ∗ isList e Own l s t xs) (destroy C l) (fun _ => A ∗ info t i) := by
  refine list_facts (e := e) (Own := Own) (l := l) (s := s) (t := t) (xs := xs) (A ∗ info t i) (by cancel) fun hl _ _ => ?_
  unfold destroy
  rw [if_neg hl]
  call (clear_spec (e := e) (l := l) (s := s) (xs := xs) ha hc ht)
  intro _
  unfold isList hdr
  simp [path, link, elts]
  steps
  call free3
  intro _
  steps
  call free2
  intro _
  cancel

theorem hdr_out {R : HProp V} : (A ∗ info t i ∗ isList e Own l s t xs ∗ R) =
    (A ∗ info t i ∗ fld l 2 t ∗ (blk l 2 ∗ fld l 1 s ∗ blk s 3 ∗ fld s 3 0) ∗ path s (nodes xs ++ [s]) ∗ elts e Own xs ∗ R) := by
  unfold isList hdr; ac_rfl

/-- `value` refers to a constructed object in `P` -/
def Holds (e : ElemSpec nf (ops C i) W) (P : HProp V) (value : Loc) (w : W) : Prop := value.1 ≠ 0 ∧ ∃ R', P = (cell e value w ∗ R')

/-- `createNode` with the list at hand -/
theorem node_spec {value : Loc} {w : W} {R : HProp V} {Q : β → HProp V} {k : Addr → M V β} (ha : Storage nf C i A Own) (hc : Calls i) (ht : t ≠ 0) (hl : l ≠ 0)
    (hv : (value.1 = 0 ∧ w = e.dflt) ∨ Holds e R value w)
    (hfail : ¬ nf → Triple nf (A ∗ info t i ∗ isList e Own l s t xs ∗ R) (k 0) Q)
    (hok : ∀ x : Elem W, x.val = w → x.node ≠ 0 → Triple nf (fld x.node 1 0 ∗ fld x.node 2 0 ∗ elt e Own x ∗ A ∗ info t i ∗ isList e Own l s t xs ∗ R) (k x.node) Q) :
    Triple nf (A ∗ info t i ∗ isList e Own l s t xs ∗ R) (createNode C l value >>= k) Q := by
  rw [hdr_out]
  refine createNode_spec (w := w) (e := e) ha hc ht hl ?_ (fun h => ?_) fun x hx hn => ?_
  · rcases hv with hv | ⟨h0, R', rfl⟩
    · exact .inl hv
    · exact .inr ⟨h0, (blk l 2 ∗ fld l 1 s ∗ blk s 3 ∗ fld s 3 0) ∗ path s (nodes xs ++ [s]) ∗ elts e Own xs ∗ R', by ac_rfl⟩
  · rw [← hdr_out]
    exact hfail h
  · rw [← hdr_out]
    exact hok x hx hn

theorem insert_spec {X Y : List (Elem W)} {value : Loc} {w : W} {R : HProp V} (ha : Storage nf C i A Own) (hc : Calls i) (ht : t ≠ 0) (hv : Holds e R value w) :
    Triple nf (A ∗ info t i ∗ isList e Own l s t (X ++ Y) ∗ R) (insert C l (firstN Y s) value)
      (fun r => ∃ₛ N, ⌜(nf → N ≠ []) ∧ (N = [] ∨ ∃ x, N = [x] ∧ x.val = w) ∧ r = firstN (N ++ Y) s⌝ ∗ A ∗ info t i ∗ isList e Own l s t (X ++ N ++ Y) ∗ R) := by
  refine list_facts (e := e) (Own := Own) (l := l) (s := s) (t := t) (xs := X ++ Y) (A ∗ info t i ∗ R) (by cancel) fun hl _ _ => ?_
  unfold insert
  rw [if_neg (by simp [hl, hv.1])]
  refine node_spec (w := w) (e := e) ha hc ht hl (.inr hv) (fun h => ?_) fun x hx hn => ?_
  · rw [if_pos rfl]
    apply Triple.ret
    apply ent_ex_right []
    simp
    cancel
  · rw [if_neg hn]
    refine Triple.pre (P' := fld x.node 1 0 ∗ fld x.node 2 0 ∗ elt e Own x ∗ A ∗ info t i ∗ hdr l s t ∗ path s (nodes X) ∗ fld (lastN X s) 2 (firstN Y s) ∗ fld (firstN Y s) 1 (lastN X s) ∗
      pathTail Y s ∗ elts e Own (X ++ Y) ∗ R) (by rw [isList, path_split, link]; cancel) ?_
    steps
    apply Triple.ret
    apply ent_ex_right [x]
    simp only [isList, hdr, List.append_assoc, List.singleton_append, path_split_cons, elts_append, elts, link]
    cancel
    exact ⟨by simp, Or.inr ⟨x, rfl, hx⟩, rfl⟩

theorem linkBack_spec {x : Elem W} {u v : Nat} :
    Triple nf (fld x.node 1 u ∗ fld x.node 2 v ∗ elt e Own x ∗ isList e Own l s t xs) (linkBack l x.node) (fun _ => isList e Own l s t (xs ++ [x])) := by
  unfold linkBack
  simp only [isList, hdr, path_split_cons, elts_append, elts]
  simp only [path_snoc, firstN_nil, pathTail, link]
  steps
  apply Triple.ret
  cancel

theorem pushBack_spec {value : Loc} {w : W} {R : HProp V} (ha : Storage nf C i A Own) (hc : Calls i) (ht : t ≠ 0) (hv : Holds e R value w) :
    Triple nf (A ∗ info t i ∗ isList e Own l s t xs ∗ R) (pushBack C l value)
      (fun _ => ∃ₛ N, ⌜(nf → N ≠ []) ∧ (N = [] ∨ ∃ x, N = [x] ∧ x.val = w)⌝ ∗ A ∗ info t i ∗ isList e Own l s t (xs ++ N) ∗ R) := by
  refine list_facts (e := e) (Own := Own) (l := l) (s := s) (t := t) (xs := xs) (A ∗ info t i ∗ R) (by cancel) fun hl _ _ => ?_
  unfold pushBack
  rw [if_neg (by simp [hl, hv.1])]
  refine node_spec (w := w) (e := e) ha hc ht hl (.inr hv) (fun h => ?_) fun x hx hn => ?_
  · rw [if_pos rfl]
    apply Triple.ret
    apply ent_ex_right []
    simp
    cancel
  · rw [if_neg hn]
    refine Triple.call_frame (linkBack_spec (x := x) (u := 0) (v := 0) (xs := xs) (s := s) (t := t) (e := e)) (R := A ∗ info t i ∗ R) (by cancel) fun _ => ?_
    apply ent_ex_right [x]
    cancel
    simpa using hx

theorem pushFront_spec {value : Loc} {w : W} {R : HProp V} (ha : Storage nf C i A Own) (hc : Calls i) (ht : t ≠ 0) (hv : Holds e R value w) :
    Triple nf (A ∗ info t i ∗ isList e Own l s t xs ∗ R) (pushFront C l value)
      (fun _ => ∃ₛ N, ⌜(nf → N ≠ []) ∧ (N = [] ∨ ∃ x, N = [x] ∧ x.val = w)⌝ ∗ A ∗ info t i ∗ isList e Own l s t (N ++ xs) ∗ R) := by
  refine list_facts (e := e) (Own := Own) (l := l) (s := s) (t := t) (xs := xs) (A ∗ info t i ∗ R) (by cancel) fun hl _ _ => ?_
  unfold pushFront
  rw [if_neg (by simp [hl, hv.1])]
  refine node_spec (w := w) (e := e) ha hc ht hl (.inr hv) (fun h => ?_) fun x hx hn => ?_
  · rw [if_pos rfl]
    apply Triple.ret
    apply ent_ex_right []
    simp
    cancel
  · rw [if_neg hn]
    refine Triple.pre (P' := fld x.node 1 0 ∗ fld x.node 2 0 ∗ elt e Own x ∗ A ∗ info t i ∗ (blk l 2 ∗ fld l 1 s ∗ fld l 2 t ∗ blk s 3 ∗ fld s 3 0) ∗ fld s 2 (firstN xs s) ∗
      fld (firstN xs s) 1 s ∗ pathTail xs s ∗ elts e Own xs ∗ R) (by rw [isList, path_first, link, hdr]; cancel) ?_
    steps
    apply Triple.ret
    apply ent_ex_right [x]
    simp only [isList, hdr, List.nil_append, List.map_cons, List.cons_append, path, path_first, elts, link]
    cancel
    simpa using hx

theorem erase_spec {X Y : List (Elem W)} {x : Elem W} (ha : Storage nf C i A Own) (hc : Calls i) (ht : t ≠ 0) :
    Triple nf (A ∗ info t i ∗ isList e Own l s t (X ++ x :: Y)) (erase C l x.node) (fun r => ⌜r = firstN Y s⌝ ∗ A ∗ info t i ∗ isList e Own l s t (X ++ Y)) := by
  refine list_facts (e := e) (Own := Own) (l := l) (s := s) (t := t) (xs := X ++ x :: Y) (A ∗ info t i) (by cancel) fun hl _ hs => ?_
  unfold erase
  rw [if_neg hl]
  simp only [isList, hdr, path_split_cons, elts_append, elts]
  refine Triple.call_frame (popNode_spec (s := s) (l := l) (p := lastN X s) (q := firstN Y s) (x := x) (e := e) ha hc ht (hs x (by simp)))
    (R := blk l 2 ∗ blk s 3 ∗ fld s 3 0 ∗ path s (nodes X) ∗ pathTail Y s ∗ elts e Own X ∗ elts e Own Y) (by cancel) fun r => ?_
  xsub
  simp only [path_split]
  cancel

theorem popBack_spec (ha : Storage nf C i A Own) (hc : Calls i) (ht : t ≠ 0) :
    Triple nf (A ∗ info t i ∗ isList e Own l s t xs) (popBack C l) (fun _ => A ∗ info t i ∗ isList e Own l s t xs.dropLast) := by
  refine list_facts (e := e) (Own := Own) (l := l) (s := s) (t := t) (xs := xs) (A ∗ info t i) (by cancel) fun hl _ hs => ?_
  unfold popBack
  refine Triple.bind_frame (empty_spec (e := e) (Own := Own) (l := l) (s := s) (t := t) (xs := xs)) (R := A ∗ info t i) (by cancel) fun b => ?_
  xsub
  rcases List.eq_nil_or_concat xs with rfl | ⟨xs, x, rfl⟩
  · simp; apply Triple.ret; cancel
  · rw [List.concat_eq_append] at hs ⊢
    rw [show (xs ++ [x]).isEmpty = false by simp, List.dropLast_concat]
    simp only [Bool.false_eq_true, if_false]
    simp only [isList, hdr, path_split_cons, elts_append, elts, firstN_nil]
    simp only [link]
    steps
    refine Triple.bind_frame (popNode_spec (s := s) (l := l) (p := lastN xs s) (q := s) (x := x) (e := e) ha hc ht (hs x (by simp)))
      (R := blk l 2 ∗ blk s 3 ∗ fld s 3 0 ∗ path s (nodes xs) ∗ elts e Own xs) (by simp only [link, pathTail]; cancel) fun r => ?_
    apply Triple.ret
    xsub
    simp only [path_snoc, link]
    cancel

theorem popFront_spec (ha : Storage nf C i A Own) (hc : Calls i) (ht : t ≠ 0) :
    Triple nf (A ∗ info t i ∗ isList e Own l s t xs) (popFront C l) (fun _ => A ∗ info t i ∗ isList e Own l s t xs.tail) := by
  refine list_facts (e := e) (Own := Own) (l := l) (s := s) (t := t) (xs := xs) (A ∗ info t i) (by cancel) fun hl _ hs => ?_
  unfold popFront
  refine Triple.bind_frame (empty_spec (e := e) (Own := Own) (l := l) (s := s) (t := t) (xs := xs)) (R := A ∗ info t i) (by cancel) fun b => ?_
  xsub
  cases xs with
  | nil => simp; apply Triple.ret; cancel
  | cons x xs =>
    simp only [List.isEmpty_cons, Bool.false_eq_true, if_false, List.tail_cons]
    simp only [isList, hdr, List.map_cons, List.cons_append, path, path_first, elts, link]
    steps
    refine Triple.bind_frame (popNode_spec (s := s) (l := l) (p := s) (q := firstN xs s) (x := x) (e := e) ha hc ht (hs x (by simp)))
      (R := blk l 2 ∗ blk s 3 ∗ fld s 3 0 ∗ pathTail xs s ∗ elts e Own xs) (by simp only [link]; cancel) fun r => ?_
    apply Triple.ret
    xsub
    simp only [link]
    cancel

theorem resizeSkip_spec {Y : List (Elem W)} {c : Nat} (hs : ∀ x ∈ Y, x.node ≠ s) :
    Triple (V := V) nf (fld l 1 s ∗ pathTail Y s) (resizeSkip l (firstN Y s) c) (fun r => ⌜r = (firstN (Y.drop c) s, c - Y.length)⌝ ∗ fld l 1 s ∗ pathTail Y s) := by
  induction Y generalizing c with
  | nil =>
    rw [resizeSkip]
    steps
    simp
    apply Triple.ret
    cancel
  | cons e Y ih =>
    rw [resizeSkip]
    steps
    cases c with
    | zero => simp; apply Triple.ret; cancel
    | succ c =>
      rw [if_pos ⟨by simpa using hs e (by simp), by omega⟩]
      simp only [pathTail, firstN_cons]
      rw [path_first]
      simp only [link]
      steps
      call (ih (c := c) (fun e he => hs e (by simp [he])))
      intro r
      xsub
      cancel_core
      simp

theorem resizeGrow_spec {c : Nat} {value : Loc} {w : W} {R : HProp V} (ha : Storage nf C i A Own) (hc : Calls i) (ht : t ≠ 0)
    (hv : (value.1 = 0 ∧ w = e.dflt) ∨ Holds e R value w) :
    Triple nf (A ∗ info t i ∗ isList e Own l s t xs ∗ R) (resizeGrow C l value c)
      (fun _ => ∃ₛ N, ⌜(∃ k, k ≤ c ∧ vals N = List.replicate k w) ∧ (nf → N.length = c)⌝ ∗ A ∗ info t i ∗ isList e Own l s t (xs ++ N) ∗ R) := by
  induction c generalizing xs with
  | zero =>
    rw [resizeGrow]
    apply Triple.ret
    apply ent_ex_right []
    rw [List.append_nil]
    cancel
    exact ⟨⟨0, by simp⟩, by simp⟩
  | succ c ih =>
    refine list_facts (e := e) (Own := Own) (l := l) (s := s) (t := t) (xs := xs) (A ∗ info t i ∗ R) (by cancel) fun hl _ _ => ?_
    rw [resizeGrow]
    refine node_spec (w := w) (e := e) ha hc ht hl hv (fun h => ?_) fun x hx hn => ?_
    · rw [if_pos rfl]
      apply Triple.ret
      apply ent_ex_right []
      rw [List.append_nil]
      cancel
      exact ⟨⟨0, by simp⟩, fun h' => absurd h' h⟩
    · rw [if_neg hn]
      refine Triple.bind_frame (linkBack_spec (x := x) (u := 0) (v := 0) (xs := xs) (s := s) (t := t) (e := e)) (R := A ∗ info t i ∗ R) (by cancel) fun _ => ?_
      refine Triple.pre (P' := A ∗ info t i ∗ isList e Own l s t (xs ++ [x]) ∗ R) (by cancel) ?_
      refine Triple.post ih fun _ => ?_
      xintro N ⟨⟨k, hk, hN⟩, hnf⟩
      apply ent_ex_right (x :: N)
      rw [List.append_assoc]
      cancel
      exact ⟨⟨k+1, by omega, by simp [hN, hx, List.replicate_succ]⟩, fun h => by simp [hnf h]⟩

theorem resizeShrink_spec {Y : List (Elem W)} {p : Addr} (ha : Storage nf C i A Own) (hc : Calls i) (ht : t ≠ 0) (hs : ∀ x ∈ Y, x.node ≠ s) :
    Triple nf (A ∗ info t i ∗ fld l 1 s ∗ fld l 2 t ∗ path p (nodes Y ++ [s]) ∗ elts e Own Y) (resizeShrink C l (firstN Y s))
      (fun _ => A ∗ info t i ∗ fld l 1 s ∗ fld l 2 t ∗ link p s) := by
  induction Y generalizing p with
  | nil =>
    rw [resizeShrink]
    focus_atom fld l 1 s
    steps
    simp [path, elts]
    apply Triple.ret; cancel
  | cons x Y ih =>
    rw [resizeShrink]
    focus_atom fld l 1 s
    steps
    rw [if_pos (by simpa using hs x (by simp))]
    simp only [List.map_cons, List.cons_append, path, path_first, firstN_cons, elts]
    refine Triple.bind_frame (popNode_spec (s := s) (l := l) (p := p) (q := firstN Y s) (x := x) (e := e) ha hc ht (hs x (by simp)))
      (R := pathTail Y s ∗ elts e Own Y) (by cancel) fun r => ?_
    xsub
    refine Triple.pre ?_ (ih (p := p) (fun x hx => hs x (by simp [hx])))
    rw [path_first]
    cancel

theorem resizeWithValue_spec {c : Nat} {value : Loc} {w : W} {R : HProp V} (ha : Storage nf C i A Own) (hc : Calls i) (ht : t ≠ 0)
    (hv : (value.1 = 0 ∧ w = e.dflt) ∨ Holds e R value w) :
    Triple nf (A ∗ info t i ∗ isList e Own l s t xs ∗ R) (resizeWithValue C l c value)
      (fun _ => ∃ₛ N, ⌜(∃ k, k ≤ c - xs.length ∧ vals N = List.replicate k w) ∧ (nf → N.length = c - xs.length)⌝ ∗ A ∗ info t i ∗ isList e Own l s t (xs.take c ++ N) ∗ R) := by
  refine list_facts (e := e) (Own := Own) (l := l) (s := s) (t := t) (xs := xs) (A ∗ info t i ∗ R) (by cancel) fun hl _ hs => ?_
  unfold resizeWithValue
  rw [if_neg hl]
  have e2 : isList e Own l s t xs = ((blk l 2 ∗ fld l 1 s ∗ fld l 2 t ∗ blk s 3 ∗ fld s 3 0) ∗ (fld s 2 (firstN xs s) ∗ fld (firstN xs s) 1 s) ∗ pathTail xs s ∗ elts e Own xs) := by
    rw [isList, path_first, hdr, link]; ac_rfl
  refine Triple.pre (P' := A ∗ info t i ∗ ((blk l 2 ∗ fld l 1 s ∗ fld l 2 t ∗ blk s 3 ∗ fld s 3 0) ∗ (fld s 2 (firstN xs s) ∗ fld (firstN xs s) 1 s) ∗ pathTail xs s ∗ elts e Own xs) ∗ R)
    (by rw [e2]; exact ent_refl _) ?_
  steps
  call (resizeSkip_spec hs)
  intro r
  xsub
  by_cases hle : c ≤ xs.length
  · have h0 : c - xs.length = 0 := by omega
    simp only [h0]
    rw [if_neg (by omega)]
    obtain ⟨X, Y, rfl, hX⟩ : ∃ X Y, xs = X ++ Y ∧ X.length = c := ⟨xs.take c, xs.drop c, (List.take_append_drop c xs).symm, by simp [hle]⟩
    subst hX
    simp only [List.drop_left', List.take_left']
    have e3 : (link s (firstN (X ++ Y) s) ∗ pathTail (X ++ Y) s : HProp V) = (path s (nodes X) ∗ path (lastN X s) (nodes Y ++ [s])) := by
      rw [← path_first, path_split, ← path_first]
    refine Triple.call_frame (resizeShrink_spec (s := s) (p := lastN X s) (Y := Y) (l := l) (e := e) ha hc ht (fun x hx => hs x (by simp [hx])))
      (R := (blk l 2 ∗ blk s 3 ∗ fld s 3 0) ∗ path s (nodes X) ∗ elts e Own X ∗ R) ?_ fun _ => ?_
    · refine ent_trans (Q := (link s (firstN (X ++ Y) s) ∗ pathTail (X ++ Y) s) ∗ A ∗ info t i ∗ blk l 2 ∗ fld l 1 s ∗ fld l 2 t ∗ blk s 3 ∗ fld s 3 0 ∗ elts e Own (X ++ Y) ∗ R)
        (by rw [link]; cancel) ?_
      rw [e3, elts_append]
      cancel
    · apply ent_ex_right []
      simp only [List.append_nil, isList, hdr, path_snoc, List.nil_append]
      cancel
      exact ⟨⟨0, by simp⟩, fun _ => by simp⟩
  · dsimp only
    rw [if_pos (show c - xs.length > 0 by omega)]
    have h1 : xs.take c = xs := List.take_of_length_le (by omega)
    rw [h1]
    refine Triple.pre ?_ (resizeGrow_spec (e := e) (xs := xs) (s := s) ha hc ht hv)
    rw [e2]
    cancel

/-- `c_list_create` on a descriptor with the required entries -/
theorem create_spec {P : HProp V} {Q : β → HProp V} {k : Addr → M V β} (ht : t ≠ 0) (hfail : ¬ nf → Triple nf P (k 0) Q)
    (hok : ∀ l s, l ≠ 0 → Triple nf (isList e Own l s t [] ∗ P) (k l) Q) : Triple nf P (CList.create t >>= k) Q := by
  refine CList.create_spec ht hfail fun l s hl => ?_
  refine Triple.pre ?_ (hok l s hl)
  simp [CList.isList, isList, path, CList.elts, elts]
  cancel

end CC.Info.L
