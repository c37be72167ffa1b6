import Verif.Core.Tac
import Verif.List.Model
/-!
# What it means for a heap fragment to be a `c_list`
-/
namespace CC.CList
variable {V : Type}

/-- An element of a list: the node, the block holding the value, the value. -/
structure Elem (V : Type) where
  node : Addr
  box : Addr
  val : V

/-- `a` and `b` are neighbours: `a->next == b` and `b->prev == a` -/
def link (a b : Addr) : HProp V := fld a 2 b ∗ fld b 1 a

/-- consecutive neighbours `a, x₁, x₂, ...` -/
def path : Addr → List Addr → HProp V
  | _, [] => emp
  | a, x :: xs => link a x ∗ path x xs

/-- everything an element owns except its two links -/
def elt (e : Elem V) : HProp V :=
  blk e.node 3 ∗ fld e.node 3 e.box ∗ blk e.box 1 ∗ pts (e.box, 1) (.obj (some e.val))

def elts : List (Elem V) → HProp V
  | [] => emp
  | e :: es => elt e ∗ elts es

abbrev nodes (xs : List (Elem V)) : List Addr := xs.map Elem.node
abbrev vals (xs : List (Elem V)) : List V := xs.map Elem.val

/-- header struct and sentinel node (without its links) -/
def hdr (l s : Addr) (ty : Nat) : HProp V :=
  blk l 2 ∗ fld l 1 s ∗ fld l 2 ty ∗ blk s 3 ∗ fld s 3 0

/-- The fragment is exactly a list with header block `l`, sentinel `s`, element type `ty` and elements `xs`:
a circular doubly linked chain through the sentinel. -/
def isList (l s : Addr) (ty : Nat) (xs : List (Elem V)) : HProp V :=
  hdr l s ty ∗ path s (nodes xs ++ [s]) ∗ elts xs

theorem path_append (a : Addr) (xs ys : List Addr) :
    path (V := V) a (xs ++ ys) = (path a xs ∗ path (xs.getLastD a) ys) := by
  induction xs generalizing a with
  | nil => simp [path]
  | cons x xs ih => 
    simp only [List.cons_append, path, ih, sep_assoc]
    cases xs <;> simp [path, List.getLastD]

theorem elts_append (xs ys : List (Elem V)) : elts (xs ++ ys) = (elts xs ∗ elts ys) := by
  induction xs with
  | nil => simp [elts]
  | cons x xs ih => simp only [List.cons_append, elts, ih, sep_assoc]

/-- the last node before the end of the prefix `X` of a chain starting at `a` -/
abbrev lastN (X : List (Elem V)) (a : Addr) : Addr := (nodes X).getLastD a
/-- the node after the point where `Y` starts, in a chain ending at `s` -/
def firstN (Y : List (Elem V)) (s : Addr) : Addr := (nodes Y).headD s

@[simp] theorem firstN_nil (s : Addr) : firstN ([] : List (Elem V)) s = s := rfl
@[simp] theorem firstN_cons (e : Elem V) (Y) (s : Addr) : firstN (e :: Y) s = e.node := rfl
@[simp] theorem lastN_nil (s : Addr) : lastN ([] : List (Elem V)) s = s := rfl
@[simp] theorem lastN_append_cons (X Y : List (Elem V)) (e : Elem V) (s : Addr) :
    lastN (X ++ e :: Y) s = lastN Y e.node := by
  simp [lastN, List.getLastD_eq_getLast?, List.getLast?_append, List.getLast?_cons]
@[simp] theorem lastN_cons (Y : List (Elem V)) (e : Elem V) (s : Addr) :
    lastN (e :: Y) s = lastN Y e.node := by
  simpa using lastN_append_cons [] Y e s

/-- the part of the chain of `Y` up to `s` after its first link -/
def pathTail : List (Elem V) → Addr → HProp V
  | [], _ => emp
  | e :: Y, s => path e.node (nodes Y ++ [s])

theorem path_first (a : Addr) (Y : List (Elem V)) (s : Addr) :
    path (V := V) a (nodes Y ++ [s]) = (link a (firstN Y s) ∗ pathTail Y s) := by
  cases Y <;> simp [path, pathTail]

/-- split a chain at a position -/
theorem path_split (a : Addr) (X Y : List (Elem V)) (s : Addr) :
    path (V := V) a (nodes (X ++ Y) ++ [s]) =
      (path a (nodes X) ∗ link (lastN X a) (firstN Y s) ∗ pathTail Y s) := by
  rw [nodes, List.map_append, List.append_assoc, path_append, path_first]

theorem path_split_cons (a : Addr) (X Y : List (Elem V)) (e : Elem V) (s : Addr) :
    path (V := V) a (nodes (X ++ e :: Y) ++ [s]) =
      (path a (nodes X) ∗ link (lastN X a) e.node ∗ link e.node (firstN Y s) ∗ pathTail Y s) := by
  rw [path_split, pathTail, path_first]; rfl

end CC.CList

namespace CC.CList
open CC.Tac
variable {V : Type}

theorem path_snoc (a : Addr) (Y : List (Elem V)) (t : Addr) :
    path (V := V) a (nodes Y ++ [t]) = (path a (nodes Y) ∗ link (lastN Y a) t) := by
  rw [path_append]; simp [path]

/-- split a chain into a segment up to the first node of `Z`, and the rest -/
theorem path_seg (a : Addr) (Y Z : List (Elem V)) (s : Addr) :
    path (V := V) a (nodes (Y ++ Z) ++ [s]) = (path a (nodes Y ++ [firstN Z s]) ∗ pathTail Z s) := by
  rw [path_split, path_snoc, sep_assoc]

theorem path_seg3 (a : Addr) (X Y Z : List (Elem V)) (s : Addr) :
    path (V := V) a (nodes (X ++ Y ++ Z) ++ [s]) =
      (path a (nodes X) ∗ path (lastN X a) (nodes Y ++ [firstN Z s]) ∗ pathTail Z s) := by
  rw [List.append_assoc, path_split, ← path_first, path_seg]

theorem firstN_append (Y Z : List (Elem V)) (s : Addr) : firstN (Y ++ Z) s = firstN Y (firstN Z s) := by
  cases Y <;> simp

/-- two allocated blocks are different -/
theorem blk_ne {a b : Addr} {n m : Nat} {P : HProp V} {h : Heap V} {R : HProp V}
    (e : P = (blk a n ∗ blk b m ∗ R)) (hh : P h) : a ≠ b := by
  subst e
  intro e
  have := pts_pts_ne hh
  exact this (by rw [e])

theorem elts_mem_blk {e : Elem V} {xs : List (Elem V)} (he : e ∈ xs) :
    ∃ R, elts xs = (blk e.node 3 ∗ R) := by
  obtain ⟨X, Y, rfl⟩ := List.append_of_mem he
  refine ⟨elts X ∗ fld e.node 3 e.box ∗ blk e.box 1 ∗ pts (e.box, 1) (.obj (some e.val)) ∗ elts Y, ?_⟩
  rw [elts_append, elts, elt]
  ac_rfl

theorem elts_nodes_ne {s : Addr} {n : Nat} {xs : List (Elem V)} {R : HProp V} {h : Heap V}
    (hh : (blk s n ∗ elts xs ∗ R) h) : ∀ e ∈ xs, e.node ≠ s := by
  intro e he
  obtain ⟨R', hR⟩ := elts_mem_blk he
  rw [hR] at hh
  exact (blk_ne (a := s) (b := e.node) (n := n) (m := 3) (R := R' ∗ R) rfl
    ((show _ ⊢ₛ _ by cancel) _ hh)).symm

theorem elts_nodup {xs : List (Elem V)} {R : HProp V} {h : Heap V} (hh : (elts xs ∗ R) h) :
    (nodes xs).Nodup := by
  induction xs generalizing R with
  | nil => simp
  | cons e xs ih =>
    simp only [List.map_cons, List.nodup_cons]
    constructor
    · rintro hm
      obtain ⟨e', he', h'⟩ := List.mem_map.1 hm
      rw [elts, elt] at hh
      exact elts_nodes_ne (s := e.node) (n := 3) (xs := xs) (h := h)
        (R := fld e.node 3 e.box ∗ blk e.box 1 ∗ pts (e.box, 1) (.obj (some e.val)) ∗ R)
        (by refine Eq.mp (congrFun ?_ h) hh; ac_rfl) e' he' h'
    · exact ih (R := elt e ∗ R) (by rw [sep_left_comm, ← sep_assoc]; rwa [elts, ] at hh)

/-- facts every list satisfies -/
theorem isList_facts {l s : Addr} {ty : Nat} {xs : List (Elem V)} {R : HProp V} {h : Heap V}
    (hh : (isList l s ty xs ∗ R) h) : l ≠ 0 ∧ s ≠ 0 ∧ (∀ e ∈ xs, e.node ≠ s) ∧ (nodes xs).Nodup := by
  unfold isList hdr at hh
  refine ⟨?_, ?_, ?_, ?_⟩
  · simp only [sep_assoc] at hh
    exact pts_ne_zero hh
  · have : ((blk l 2 ∗ fld l 1 s ∗ fld l 2 ty ∗ blk s 3 ∗ fld s 3 0) ∗ path s (nodes xs ++ [s]) ∗ elts xs) =
      (blk s 3 ∗ (blk l 2 ∗ fld l 1 s ∗ fld l 2 ty ∗ fld s 3 0) ∗ path s (nodes xs ++ [s]) ∗ elts xs) := by ac_rfl
    rw [this, sep_assoc] at hh
    exact pts_ne_zero hh
  · apply elts_nodes_ne (n := 3) (h := h)
      (R := (blk l 2 ∗ fld l 1 s ∗ fld l 2 ty ∗ fld s 3 0) ∗ path s (nodes xs ++ [s]) ∗ R)
    refine Eq.mp (congrFun ?_ h) hh; ac_rfl
  · apply elts_nodup (h := h)
      (R := (blk l 2 ∗ fld l 1 s ∗ fld l 2 ty ∗ blk s 3 ∗ fld s 3 0) ∗ path s (nodes xs ++ [s]) ∗ R)
    refine Eq.mp (congrFun ?_ h) hh; ac_rfl

theorem list_facts {α : Type} {nf : Prop} {m : M V α} {Q : α → HProp V} {l s : Addr} {ty : Nat} {xs : List (Elem V)}
    {P R : HProp V} (hP : P ⊢ₛ isList l s ty xs ∗ R)
    (h : l ≠ 0 → s ≠ 0 → (∀ e ∈ xs, e.node ≠ s) → (nodes xs).Nodup → Triple nf P m Q) :
    Triple nf P m Q :=
  Triple.fact (fun _ hp => isList_facts (hP _ hp)) fun ⟨a, b, c, d⟩ => h a b c d

theorem list_facts0 {α : Type} {nf : Prop} {m : M V α} {Q : α → HProp V} {l s : Addr} {ty : Nat} {xs : List (Elem V)}
    (h : l ≠ 0 → s ≠ 0 → (∀ e ∈ xs, e.node ≠ s) → (nodes xs).Nodup → Triple nf (isList l s ty xs) m Q) :
    Triple nf (isList l s ty xs) m Q :=
  list_facts (R := emp) (by rw [sep_emp]; exact ent_refl _) h

end CC.CList
