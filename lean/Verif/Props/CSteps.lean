import Verif.Props.CList
import Verif.Props.CSList
import Verif.Props.CVector
import Verif.Core.Cost
/-!
# C68: operations on lists that take a bounded number of steps

`TripleC nf P m Q k`: as `Triple`, and the run makes at most `k` memory accesses (loads, stores, calls of malloc and free), whatever the length of the list (generated from C01, C05, C11, C13, C14).
-/
namespace CC.CList
open CC.Tac
variable {V : Type} {E : Types V} {l s o s2 : Addr} {ty t2 : Nat} {xs ys : List (Elem V)} {R : HProp V}

theorem C68_list_push_back {value : Loc} {v : V} (hv0 : value.1 ≠ 0) (hv : Reads (isList l s ty xs ∗ R) value v) :
    TripleC True (isList l s ty xs ∗ R) (pushBack E l value)
      (fun _ => ∃ₛ e, ⌜e.val = v⌝ ∗ isList l s ty (xs ++ [e]) ∗ R) 19 := by
  refine TripleC.intro (C01_push_back hv0 hv) ?_ (Le.refl _)
  simp only [insert, erase, pushBack, pushFront, popBack, popFront, popNode, createNode, linkBack, empty, front, back, begin_, end_, swap, splice, spliceFrom, spliceRange, spliceGuard, transfer, iterIncrement, iterDecrement, iterDereference]
  cost

theorem C68_list_push_front {value : Loc} {v : V} (hv0 : value.1 ≠ 0) (hv : Reads (isList l s ty xs ∗ R) value v) :
    TripleC True (isList l s ty xs ∗ R) (pushFront E l value)
      (fun _ => ∃ₛ e, ⌜e.val = v⌝ ∗ isList l s ty (e :: xs) ∗ R) 19 := by
  refine TripleC.intro (C01_push_front hv0 hv) ?_ (Le.refl _)
  simp only [insert, erase, pushBack, pushFront, popBack, popFront, popNode, createNode, linkBack, empty, front, back, begin_, end_, swap, splice, spliceFrom, spliceRange, spliceGuard, transfer, iterIncrement, iterDecrement, iterDereference]
  cost

theorem C68_list_insert {X Y : List (Elem V)} {value : Loc} {v : V} (hv0 : value.1 ≠ 0)
    (hv : Reads (isList l s ty (X ++ Y) ∗ R) value v) :
    TripleC True (isList l s ty (X ++ Y) ∗ R) (insert E l (firstN Y s) value)
      (fun r => ∃ₛ e, ⌜e.val = v ∧ r = e.node⌝ ∗ isList l s ty (X ++ e :: Y) ∗ R) 15 := by
  refine TripleC.intro (C01_insert hv0 hv) ?_ (Le.refl _)
  simp only [insert, erase, pushBack, pushFront, popBack, popFront, popNode, createNode, linkBack, empty, front, back, begin_, end_, swap, splice, spliceFrom, spliceRange, spliceGuard, transfer, iterIncrement, iterDecrement, iterDereference]
  cost

theorem C68_list_pop_back {nf : Prop} :
    TripleC nf (isList l s ty xs) (popBack l) (fun _ => isList l s ty xs.dropLast) 18 := by
  refine TripleC.intro (C01_pop_back) ?_ (Le.refl _)
  simp only [insert, erase, pushBack, pushFront, popBack, popFront, popNode, createNode, linkBack, empty, front, back, begin_, end_, swap, splice, spliceFrom, spliceRange, spliceGuard, transfer, iterIncrement, iterDecrement, iterDereference]
  cost

theorem C68_list_pop_front {nf : Prop} :
    TripleC nf (isList l s ty xs) (popFront l) (fun _ => isList l s ty xs.tail) 18 := by
  refine TripleC.intro (C01_pop_front) ?_ (Le.refl _)
  simp only [insert, erase, pushBack, pushFront, popBack, popFront, popNode, createNode, linkBack, empty, front, back, begin_, end_, swap, splice, spliceFrom, spliceRange, spliceGuard, transfer, iterIncrement, iterDecrement, iterDereference]
  cost

theorem C68_list_erase {nf : Prop} {X Y : List (Elem V)} {e : Elem V} :
    TripleC nf (isList l s ty (X ++ e :: Y)) (erase l e.node)
      (fun r => ⌜r = firstN Y s⌝ ∗ isList l s ty (X ++ Y)) 13 := by
  refine TripleC.intro (C01_erase) ?_ (Le.refl _)
  simp only [insert, erase, pushBack, pushFront, popBack, popFront, popNode, createNode, linkBack, empty, front, back, begin_, end_, swap, splice, spliceFrom, spliceRange, spliceGuard, transfer, iterIncrement, iterDecrement, iterDereference]
  cost

theorem C68_list_empty {nf : Prop} :
    TripleC nf (isList l s ty xs) (empty l) (fun r => ⌜r = true ↔ xs = []⌝ ∗ isList l s ty xs) 3 := by
  refine TripleC.intro (C01_empty) ?_ (Le.refl _)
  simp only [insert, erase, pushBack, pushFront, popBack, popFront, popNode, createNode, linkBack, empty, front, back, begin_, end_, swap, splice, spliceFrom, spliceRange, spliceGuard, transfer, iterIncrement, iterDecrement, iterDereference]
  cost

theorem C68_list_front {nf : Prop} :
    TripleC nf (isList l s ty xs) (front l)
      (fun r => ⌜r = match xs.head? with | none => (0, 1) | some e => (e.box, 1)⌝ ∗ isList l s ty xs) 6 := by
  refine TripleC.intro (C01_front) ?_ (Le.refl _)
  simp only [insert, erase, pushBack, pushFront, popBack, popFront, popNode, createNode, linkBack, empty, front, back, begin_, end_, swap, splice, spliceFrom, spliceRange, spliceGuard, transfer, iterIncrement, iterDecrement, iterDereference]
  cost

theorem C68_list_back {nf : Prop} :
    TripleC nf (isList l s ty xs) (back l)
      (fun r => ⌜r = match xs.getLast? with | none => (0, 1) | some e => (e.box, 1)⌝ ∗ isList l s ty xs) 6 := by
  refine TripleC.intro (C01_back) ?_ (Le.refl _)
  simp only [insert, erase, pushBack, pushFront, popBack, popFront, popNode, createNode, linkBack, empty, front, back, begin_, end_, swap, splice, spliceFrom, spliceRange, spliceGuard, transfer, iterIncrement, iterDecrement, iterDereference]
  cost

theorem C68_list_splice_range {nf : Prop} {X Y Z M W : List (Elem V)} (hty : ty ≠ 0) :
    TripleC nf (isList l s ty (X ++ Y) ∗ isList o s2 ty (Z ++ M ++ W))
      (spliceRange l (firstN Y s) o (firstN M (firstN W s2)) (firstN W s2))
      (fun _ => isList l s ty (X ++ M ++ Y) ∗ isList o s2 ty (Z ++ W)) 17 := by
  refine TripleC.intro (C05_splice_range hty) ?_ (Le.refl _)
  simp only [insert, erase, pushBack, pushFront, popBack, popFront, popNode, createNode, linkBack, empty, front, back, begin_, end_, swap, splice, spliceFrom, spliceRange, spliceGuard, transfer, iterIncrement, iterDecrement, iterDereference]
  cost

theorem C68_list_splice {nf : Prop} {X Y : List (Elem V)} (hty : ty ≠ 0) :
    TripleC nf (isList l s ty (X ++ Y) ∗ isList o s2 ty ys) (splice l (firstN Y s) o)
      (fun _ => isList l s ty (X ++ ys ++ Y) ∗ isList o s2 ty []) 20 := by
  refine TripleC.intro (C05_splice hty) ?_ (Le.refl _)
  simp only [insert, erase, pushBack, pushFront, popBack, popFront, popNode, createNode, linkBack, empty, front, back, begin_, end_, swap, splice, spliceFrom, spliceRange, spliceGuard, transfer, iterIncrement, iterDecrement, iterDereference]
  cost

theorem C68_list_splice_from {nf : Prop} {X Y Z M : List (Elem V)} (hty : ty ≠ 0) :
    TripleC nf (isList l s ty (X ++ Y) ∗ isList o s2 ty (Z ++ M)) (spliceFrom l (firstN Y s) o (firstN M s2))
      (fun _ => isList l s ty (X ++ M ++ Y) ∗ isList o s2 ty Z) 18 := by
  refine TripleC.intro (C05_splice_from hty) ?_ (Le.refl _)
  simp only [insert, erase, pushBack, pushFront, popBack, popFront, popNode, createNode, linkBack, empty, front, back, begin_, end_, swap, splice, spliceFrom, spliceRange, spliceGuard, transfer, iterIncrement, iterDecrement, iterDereference]
  cost

theorem C68_list_splice_later {nf : Prop} {X M Y Z : List (Elem V)} (hty : ty ≠ 0) :
    TripleC nf (isList l s ty (X ++ M ++ Y ++ Z))
      (spliceRange l (firstN Z s) l (firstN M (firstN Y (firstN Z s))) (firstN Y (firstN Z s)))
      (fun _ => isList l s ty (X ++ Y ++ M ++ Z)) 17 := by
  refine TripleC.intro (C05_splice_later hty) ?_ (Le.refl _)
  simp only [insert, erase, pushBack, pushFront, popBack, popFront, popNode, createNode, linkBack, empty, front, back, begin_, end_, swap, splice, spliceFrom, spliceRange, spliceGuard, transfer, iterIncrement, iterDecrement, iterDereference]
  cost

theorem C68_list_splice_earlier {nf : Prop} {X Y M Z : List (Elem V)} (hY : Y ≠ []) (hty : ty ≠ 0) :
    TripleC nf (isList l s ty (X ++ Y ++ M ++ Z))
      (spliceRange l (firstN Y s) l (firstN M (firstN Z s)) (firstN Z s))
      (fun _ => isList l s ty (X ++ M ++ Y ++ Z)) 17 := by
  refine TripleC.intro (C05_splice_earlier hY hty) ?_ (Le.refl _)
  simp only [insert, erase, pushBack, pushFront, popBack, popFront, popNode, createNode, linkBack, empty, front, back, begin_, end_, swap, splice, spliceFrom, spliceRange, spliceGuard, transfer, iterIncrement, iterDecrement, iterDereference]
  cost

theorem C68_list_swap {nf : Prop} :
    TripleC nf (isList l s ty xs ∗ isList o s2 t2 ys) (swap l o)
      (fun _ => isList l s2 t2 ys ∗ isList o s ty xs) 8 := by
  refine TripleC.intro (C11_swap) ?_ (Le.refl _)
  simp only [insert, erase, pushBack, pushFront, popBack, popFront, popNode, createNode, linkBack, empty, front, back, begin_, end_, swap, splice, spliceFrom, spliceRange, spliceGuard, transfer, iterIncrement, iterDecrement, iterDereference]
  cost

/-- the hypotheses hold for lists of any length; its push_back makes at most 19 memory accesses -/
example (n : Nat) : ∃ (m m' : Mem Nat) (l s : Addr) (xs : List (Elem Nat)), vals xs = List.replicate (n + 1) 7 ∧ (∃ F, (isList l s 1 xs ∗ F) m.cells) ∧
    pushBack (fun _ => CC.Vec.intTy) l (1, 1) m = some (.ok ((), m')) ∧ m'.clk ≤ m.clk + 19 := by
  obtain ⟨m, l, s, xs, ho, hx, hm⟩ := exists_list (V := Nat) (fun _ => CC.Vec.intTy) 1 (by simp) (List.replicate (n + 1) 7) (by simp)
  obtain ⟨_, m', h1, _, h2, _⟩ := C68_list_push_back (E := fun _ => CC.Vec.intTy) (l := l) (s := s) (ty := 1) (xs := xs)
    (R := arr 1 1 ((List.replicate (n + 1) 7).map fun v => .obj (some v))) (value := (1, 1)) (v := 7) (by simp)
    (by rw [List.replicate_succ, List.map_cons, arr]; exact (Reads.pts.left).right) m emp (fun _ => ho) (by rw [sep_emp]; exact hm)
  exact ⟨m, m', l, s, xs, hx, ⟨_, hm⟩, h1, h2⟩

end CC.CList
namespace CC.SList
open CC.Tac
open CC.CList (Elem nodes vals firstN lastN firstN_nil firstN_cons lastN_nil lastN_cons lastN_append_cons firstN_append
  blk_ne ArgVal ltE vals_mergeL Rearr Inserted inserted_of)
variable {V : Type} {E : Types V} {l a s o a2 s2 : Addr} {ty t2 : Nat} {xs ys : List (Elem V)} {R : HProp V}

theorem C68_slist_push_front {value : Loc} {v : V} (hv0 : value.1 ≠ 0) (hv : Reads (isSList l a s ty xs ∗ R) value v) :
    TripleC True (isSList l a s ty xs ∗ R) (pushFront E l value)
      (fun _ => ∃ₛ e, ⌜e.val = v⌝ ∗ isSList l a s ty (e :: xs) ∗ R) 13 := by
  refine TripleC.intro (C13_push_front hv0 hv) ?_ (Le.refl _)
  simp only [insertAfter, eraseAfter, pushFront, popFront, popNodeAfter, createNode, empty, front, begin_, end_, beforeBegin, swap, iterIncrement, iterDereference]
  cost

theorem C68_slist_insert_after {X Y : List (Elem V)} {value : Loc} {v : V} (hv0 : value.1 ≠ 0)
    (hv : Reads (isSList l a s ty (X ++ Y) ∗ R) value v) :
    TripleC True (isSList l a s ty (X ++ Y) ∗ R) (insertAfter E l (lastN X a) value)
      (fun r => ∃ₛ e, ⌜e.val = v ∧ r = e.node⌝ ∗ isSList l a s ty (X ++ e :: Y) ∗ R) 11 := by
  refine TripleC.intro (C13_insert_after hv0 hv) ?_ (Le.refl _)
  simp only [insertAfter, eraseAfter, pushFront, popFront, popNodeAfter, createNode, empty, front, begin_, end_, beforeBegin, swap, iterIncrement, iterDereference]
  cost

theorem C68_slist_pop_front {nf : Prop} :
    TripleC nf (isSList l a s ty xs) (popFront l) (fun _ => isSList l a s ty xs.tail) 19 := by
  refine TripleC.intro (C13_pop_front) ?_ (Le.refl _)
  simp only [insertAfter, eraseAfter, pushFront, popFront, popNodeAfter, createNode, empty, front, begin_, end_, beforeBegin, swap, iterIncrement, iterDereference]
  cost

theorem C68_slist_erase_after {nf : Prop} {X Y : List (Elem V)} {e : Elem V} :
    TripleC nf (isSList l a s ty (X ++ e :: Y)) (eraseAfter l (lastN X a))
      (fun r => ⌜r = firstN Y s⌝ ∗ isSList l a s ty (X ++ Y)) 15 := by
  refine TripleC.intro (C13_erase_after) ?_ (Le.refl _)
  simp only [insertAfter, eraseAfter, pushFront, popFront, popNodeAfter, createNode, empty, front, begin_, end_, beforeBegin, swap, iterIncrement, iterDereference]
  cost

theorem C68_slist_empty {nf : Prop} :
    TripleC nf (isSList l a s ty xs) (empty l) (fun r => ⌜r = true ↔ xs = []⌝ ∗ isSList l a s ty xs) 3 := by
  refine TripleC.intro (C13_empty) ?_ (Le.refl _)
  simp only [insertAfter, eraseAfter, pushFront, popFront, popNodeAfter, createNode, empty, front, begin_, end_, beforeBegin, swap, iterIncrement, iterDereference]
  cost

theorem C68_slist_front {nf : Prop} :
    TripleC nf (isSList l a s ty xs) (front l)
      (fun r => ⌜r = match xs.head? with | none => (0, 1) | some e => (e.box, 1)⌝ ∗ isSList l a s ty xs) 6 := by
  refine TripleC.intro (C13_front) ?_ (Le.refl _)
  simp only [insertAfter, eraseAfter, pushFront, popFront, popNodeAfter, createNode, empty, front, begin_, end_, beforeBegin, swap, iterIncrement, iterDereference]
  cost

theorem C68_slist_swap {nf : Prop} :
    TripleC nf (isSList l a s ty xs ∗ isSList o a2 s2 t2 ys) (swap l o)
      (fun _ => isSList l a2 s2 t2 ys ∗ isSList o a s ty xs) 12 := by
  refine TripleC.intro (C14_swap) ?_ (Le.refl _)
  simp only [insertAfter, eraseAfter, pushFront, popFront, popNodeAfter, createNode, empty, front, begin_, end_, beforeBegin, swap, iterIncrement, iterDereference]
  cost

end CC.SList
