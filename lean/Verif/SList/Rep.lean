import Verif.List.Sort
import Verif.SList.Model
/-!
# What it means for a heap fragment to be a `c_slist`

Elements (`Elem`: node, storage, value) and the position helpers `firstN`, `lastN` are shared with Verif/List/Rep.lean.
-/
namespace CC.SList
open CC.Tac
open CC.CList (Elem nodes vals firstN lastN firstN_nil firstN_cons lastN_nil lastN_cons lastN_append_cons firstN_append
  blk_ne ArgVal ltE vals_mergeL Rearr)
variable {V : Type}

/-- consecutive neighbours `a → x₁ → x₂ → ...` -/
def path : Addr → List Addr → HProp V
  | _, [] => emp
  | a, x :: xs => fld a 1 x ∗ path x xs

/-- everything an element owns except its link -/
def elt (e : Elem V) : HProp V :=
  blk e.node 2 ∗ fld e.node 2 e.box ∗ blk e.box 1 ∗ pts (e.box, 1) (.obj (some e.val))

def elts : List (Elem V) → HProp V
  | [] => emp
  | e :: es => elt e ∗ elts es

/-- header struct, before-begin node (without its link) and end node -/
def hdr (l a s : Addr) (ty : Nat) : HProp V :=
  blk l 3 ∗ fld l 1 a ∗ fld l 2 s ∗ fld l 3 ty ∗ blk a 2 ∗ fld a 2 0 ∗ blk s 2 ∗ fld s 1 0 ∗ fld s 2 0

/-- The fragment is exactly a forward list with header block `l`, before-begin node `a`, end node `s`, element type `ty`
and elements `xs`: a chain from `a` through the elements to `s`. -/
def isSList (l a s : Addr) (ty : Nat) (xs : List (Elem V)) : HProp V :=
  hdr l a s ty ∗ path a (nodes xs ++ [s]) ∗ elts xs

theorem path_append (a : Addr) (xs ys : List Addr) :
    path (V := V) a (xs ++ ys) = (path a xs ∗ path (xs.getLastD a) ys) := by
  induction xs generalizing a with
  | nil => simp [path]
  | cons x xs ih => 
    simp only [List.cons_append, path, ih, sep_assoc]
    cases xs <;> simp [path, List.getLastD]

theorem elts_append (xs ys : List (Elem V)) : elts (xs ++ ys) = (elts xs ∗ elts ys) := by
  induction xs with
  | nil => simp [elts]
  | cons x xs ih => simp only [List.cons_append, elts, ih, sep_assoc]

/-- the part of the chain of `Y` up to `s` after its first link -/
def pathTail : List (Elem V) → Addr → HProp V
  | [], _ => emp
  | e :: Y, s => path e.node (nodes Y ++ [s])

theorem path_first (a : Addr) (Y : List (Elem V)) (s : Addr) :
    path (V := V) a (nodes Y ++ [s]) = (fld a 1 (firstN Y s) ∗ pathTail Y s) := by
  cases Y <;> simp [path, pathTail]

/-- split a chain at a position -/
theorem path_split (a : Addr) (X Y : List (Elem V)) (s : Addr) :
    path (V := V) a (nodes (X ++ Y) ++ [s]) =
      (path a (nodes X) ∗ fld (lastN X a) 1 (firstN Y s) ∗ pathTail Y s) := by
  rw [nodes, List.map_append, List.append_assoc, path_append, path_first]

theorem path_split_cons (a : Addr) (X Y : List (Elem V)) (e : Elem V) (s : Addr) :
    path (V := V) a (nodes (X ++ e :: Y) ++ [s]) =
      (path a (nodes X) ∗ fld (lastN X a) 1 e.node ∗ fld e.node 1 (firstN Y s) ∗ pathTail Y s) := by
  rw [path_split, pathTail, path_first]; rfl

theorem path_snoc (a : Addr) (Y : List (Elem V)) (t : Addr) :
    path (V := V) a (nodes Y ++ [t]) = (path a (nodes Y) ∗ fld (lastN Y a) 1 t) := by
  rw [path_append]; simp [path]

theorem path_seg (a : Addr) (Y Z : List (Elem V)) (s : Addr) :
    path (V := V) a (nodes (Y ++ Z) ++ [s]) = (path a (nodes Y ++ [firstN Z s]) ∗ pathTail Z s) := by
  rw [path_split, path_snoc, sep_assoc]

theorem elts_mem_blk {e : Elem V} {xs : List (Elem V)} (he : e ∈ xs) :
    ∃ R, elts xs = (blk e.node 2 ∗ R) := by
  obtain ⟨X, Y, rfl⟩ := List.append_of_mem he
  refine ⟨elts X ∗ fld e.node 2 e.box ∗ blk e.box 1 ∗ pts (e.box, 1) (.obj (some e.val)) ∗ elts Y, ?_⟩
  rw [elts_append, elts, elt]
  ac_rfl

theorem elts_nodes_ne {s : Addr} {n : Nat} {xs : List (Elem V)} {R : HProp V} {h : Heap V}
    (hh : (blk s n ∗ elts xs ∗ R) h) : ∀ e ∈ xs, e.node ≠ s := by
  intro e he
  obtain ⟨R', hR⟩ := elts_mem_blk he
  rw [hR] at hh
  exact (blk_ne (a := s) (b := e.node) (n := n) (m := 2) (R := R' ∗ R) rfl
    ((show _ ⊢ₛ _ by cancel) _ hh)).symm

theorem elts_nodes_ne0 {xs : List (Elem V)} {R : HProp V} {h : Heap V}
    (hh : (elts xs ∗ R) h) : ∀ e ∈ xs, e.node ≠ 0 := by
  intro e he
  obtain ⟨R', hR⟩ := elts_mem_blk he
  rw [hR, sep_assoc] at hh
  exact pts_ne_zero hh

theorem elts_nodup {xs : List (Elem V)} {R : HProp V} {h : Heap V} (hh : (elts xs ∗ R) h) :
    (nodes xs).Nodup := by
  induction xs generalizing R with
  | nil => simp
  | cons e xs ih =>
    simp only [List.map_cons, List.nodup_cons]
    constructor
    · rintro hm
      obtain ⟨e', he', h'⟩ := List.mem_map.1 hm
      rw [elts, elt] at hh
      exact elts_nodes_ne (s := e.node) (n := 2) (xs := xs) (h := h)
        (R := fld e.node 2 e.box ∗ blk e.box 1 ∗ pts (e.box, 1) (.obj (some e.val)) ∗ R)
        (by refine Eq.mp (congrFun ?_ h) hh; ac_rfl) e' he' h'
    · exact ih (R := elt e ∗ R) (by rw [sep_left_comm, ← sep_assoc]; rwa [elts, ] at hh)

/-- facts every list satisfies -/
structure Facts (l a s : Addr) (xs : List (Elem V)) : Prop where
  l0 : l ≠ 0
  a0 : a ≠ 0
  s0 : s ≠ 0
  as : a ≠ s
  ns : ∀ e ∈ xs, e.node ≠ s
  na : ∀ e ∈ xs, e.node ≠ a
  n0 : ∀ e ∈ xs, e.node ≠ 0
  nd : (nodes xs).Nodup

theorem isSList_facts {l a s : Addr} {ty : Nat} {xs : List (Elem V)} {R : HProp V} {h : Heap V}
    (hh : (isSList l a s ty xs ∗ R) h) : Facts l a s xs := by
  unfold isSList hdr at hh
  have h1 : (blk l 3 ∗ (blk a 2 ∗ blk s 2 ∗ elts xs ∗ (fld l 1 a ∗ fld l 2 s ∗ fld l 3 ty ∗ fld a 2 0 ∗
      fld s 1 0 ∗ fld s 2 0 ∗ path a (nodes xs ++ [s]) ∗ R))) h := by
    refine Eq.mp (congrFun ?_ h) hh; ac_rfl
  generalize hR : (fld l 1 a ∗ fld l 2 s ∗ fld l 3 ty ∗ fld a 2 0 ∗
      fld s 1 0 ∗ fld s 2 0 ∗ path a (nodes xs ++ [s]) ∗ R) = R' at h1
  have h2 : (blk a 2 ∗ blk s 2 ∗ elts xs ∗ (blk l 3 ∗ R')) h := by
    refine Eq.mp (congrFun ?_ h) h1; ac_rfl
  have h3 : (blk s 2 ∗ elts xs ∗ (blk a 2 ∗ blk l 3 ∗ R')) h := by
    refine Eq.mp (congrFun ?_ h) h1; ac_rfl
  have h4 : (blk a 2 ∗ elts xs ∗ (blk s 2 ∗ blk l 3 ∗ R')) h := by
    refine Eq.mp (congrFun ?_ h) h1; ac_rfl
  have h5 : (elts xs ∗ (blk a 2 ∗ blk s 2 ∗ blk l 3 ∗ R')) h := by
    refine Eq.mp (congrFun ?_ h) h1; ac_rfl
  exact ⟨pts_ne_zero h1, pts_ne_zero h2, pts_ne_zero h3, blk_ne rfl h2, elts_nodes_ne h3, elts_nodes_ne h4,
    elts_nodes_ne0 h5, elts_nodup h5⟩

theorem Facts.lastN_ne {l a s : Addr} {X Y : List (Elem V)} (f : Facts l a s (X ++ Y)) : lastN X a ≠ s ∧ lastN X a ≠ 0 := by
  rcases List.eq_nil_or_concat X with rfl | ⟨X, e, rfl⟩
  · exact ⟨f.as, f.a0⟩
  · rw [List.concat_eq_append, lastN_append_cons, lastN_nil]
    exact ⟨f.ns e (by simp), f.n0 e (by simp)⟩

theorem list_facts {α : Type} {nf : Prop} {m : M V α} {Q : α → HProp V} {l a s : Addr} {ty : Nat} {xs : List (Elem V)}
    {P R : HProp V} (hP : P ⊢ₛ isSList l a s ty xs ∗ R)
    (h : Facts l a s xs → Triple nf P m Q) :
    Triple nf P m Q :=
  Triple.fact (fun _ hp => isSList_facts (hP _ hp)) h

theorem list_facts0 {α : Type} {nf : Prop} {m : M V α} {Q : α → HProp V} {l a s : Addr} {ty : Nat} {xs : List (Elem V)}
    (h : Facts l a s xs → Triple nf (isSList l a s ty xs) m Q) :
    Triple nf (isSList l a s ty xs) m Q :=
  list_facts (R := emp) (by rw [sep_emp]; exact ent_refl _) h

end CC.SList
