import Verif.Algo.Base
import Verif.Props.CDeque
import Verif.Props.CSList
/-!
# The ranges of the containers

The elements of vectors, deques, lists and forward lists are ranges in the sense of Verif/Algo/Base.lean, so everything proved about ranges applies to them.
-/
namespace CC.Algo
open CC CC.Tac
variable {V : Type} {nf : Prop}

/-- consecutive slots of a block -/
def aslots (b o : Nat) : Slots := fun i => (b, o + i)

theorem arr_seg {b o i : Nat} {vs : List V} : arr b (o + i) (vs.map fun v => .obj (some v)) = seg (aslots b o) i vs := by
  induction vs generalizing i with
  | nil => rfl
  | cons v vs ih =>
    rw [List.map_cons, arr, seg_cons, Nat.add_assoc, ih]; rfl

theorem plain_cell {t : Ty V} {l : Loc} {v : V} : cell (plainSpec (nf := nf) t) l v = pts l (.obj (some v)) := by
  have h0 : cell (plainSpec (nf := nf) t) l v = ∃ₛ x, pts l x ∗ ⌜x = .obj (some v)⌝ := rfl
  rw [h0]
  apply ent_antisymm
  · xintro x h
    subst h
    exact ent_refl _
  · xexists (.obj (some v))
    cancel

theorem live_seg {t : Ty V} {b o i : Nat} {vs : List V} : live (plainSpec (nf := nf) t) b (o + i) vs = seg (aslots b o) i vs := by
  induction vs generalizing i with
  | nil => rfl
  | cons v vs ih => rw [live_cons, seg_cons, plain_cell, Nat.add_assoc, ih]; rfl

/-- a vector of plain data is a header with unused slots and a range -/
theorem isVec_seg {t : Ty V} {ty v b cap : Nat} {vs : List V} :
    Vec.isVec (nf := nf) (T := fun _ => plainOps t) (ty := ty) (plainSpec t) v b cap vs =
      ((Vec.vhdr v b vs.length cap ty ∗ ⌜vs.length ≤ cap⌝ ∗ raws b (1 + vs.length) (cap - vs.length)) ∗ seg (aslots b 1) 0 vs) := by
  rw [← live_seg (nf := nf) (t := t), Vec.isVec]
  apply ent_antisymm <;> cancel

/-- a deque of plain data is a header with unused slots and a range -/
theorem isDeq_seg {t : Ty V} {ty v b lo hi : Nat} {vs : List V} :
    Deq.isDeq (nf := nf) (T := fun _ => plainOps t) (ty := ty) (plainSpec t) v b lo hi vs =
      ((Deq.dhdr v b lo vs.length hi ty ∗ raws b 1 lo ∗ raws b (1 + lo + vs.length) hi) ∗ seg (aslots b (1 + lo)) 0 vs) := by
  rw [← live_seg (nf := nf) (t := t), Deq.isDeq]
  apply ent_antisymm <;> cancel

/-- the value cells of the elements of a linked list -/
def lslots (xs : List (CList.Elem V)) : Slots := fun i => ((xs[i]?.map CList.Elem.box).getD 0, 1)

/-- the same nodes and boxes with other values -/
def setVals (xs : List (CList.Elem V)) (vs : List V) : List (CList.Elem V) := List.zipWith (fun x v => { x with val := v }) xs vs

theorem seg_lcons {x : CList.Elem V} {xs : List (CList.Elem V)} {i : Nat} {vs : List V} : seg (lslots (x :: xs)) (i + 1) vs = seg (lslots xs) i vs := by
  induction vs generalizing i with
  | nil => rfl
  | cons v vs ih => rw [seg_cons, seg_cons, ih]; simp [lslots]

theorem setVals_self {xs : List (CList.Elem V)} : setVals xs (CList.vals xs) = xs := by
  induction xs with
  | nil => rfl
  | cons x xs ih => simp only [setVals, CList.vals, List.map_cons, List.zipWith_cons_cons, List.cons.injEq] at ih ⊢; exact ⟨trivial, ih⟩

theorem vals_setVals {xs : List (CList.Elem V)} {vs : List V} (h : vs.length = xs.length) : CList.vals (setVals xs vs) = vs := by
  induction xs generalizing vs with
  | nil => cases vs <;> simp_all [setVals]
  | cons x xs ih =>
    cases vs with
    | nil => simp at h
    | cons v vs => simp only [setVals, CList.vals, List.zipWith_cons_cons, List.map_cons, List.cons.injEq, true_and] at ih ⊢; exact ih (by simpa using h)

theorem nodes_setVals {xs : List (CList.Elem V)} {vs : List V} (h : vs.length = xs.length) : CList.nodes (setVals xs vs) = CList.nodes xs := by
  induction xs generalizing vs with
  | nil => cases vs <;> simp_all [setVals]
  | cons x xs ih =>
    cases vs with
    | nil => simp at h
    | cons v vs => simp only [setVals, CList.nodes, List.zipWith_cons_cons, List.map_cons, List.cons.injEq, true_and] at ih ⊢; exact ih (by simpa using h)

/-- what the elements of a `c_list` own besides their values -/
def frames : List (CList.Elem V) → HProp V
  | [] => emp
  | e :: es => (blk e.node 3 ∗ fld e.node 3 e.box ∗ blk e.box 1) ∗ frames es

theorem elts_seg {xs : List (CList.Elem V)} {vs : List V} (h : vs.length = xs.length) :
    CList.elts (setVals xs vs) = (frames xs ∗ seg (lslots xs) 0 vs) := by
  induction xs generalizing vs with
  | nil => cases vs <;> simp_all [setVals, CList.elts, frames, seg_nil]
  | cons x xs ih =>
    cases vs with
    | nil => simp at h
    | cons v vs =>
      have := ih (vs := vs) (by simpa using h)
      rw [setVals, List.zipWith_cons_cons, CList.elts, ← setVals, this, seg_cons, seg_lcons, frames, CList.elt]
      have h1 : lslots (x :: xs) 0 = (x.box, 1) := by simp [lslots]
      rw [h1]
      apply ent_antisymm <;> cancel

/-- a list is a chain of nodes and a range; this holds for every assignment of values to its elements -/
theorem isList_seg {l s ty : Nat} {xs : List (CList.Elem V)} {vs : List V} (h : vs.length = xs.length) :
    CList.isList l s ty (setVals xs vs) = ((CList.hdr l s ty ∗ CList.path s (CList.nodes xs ++ [s]) ∗ frames xs) ∗ seg (lslots xs) 0 vs) := by
  rw [CList.isList, elts_seg h, nodes_setVals h]
  apply ent_antisymm <;> cancel

/-- what the elements of a `c_slist` own besides their values -/
def sframes : List (CList.Elem V) → HProp V
  | [] => emp
  | e :: es => (blk e.node 2 ∗ fld e.node 2 e.box ∗ blk e.box 1) ∗ sframes es

theorem selts_seg {xs : List (CList.Elem V)} {vs : List V} (h : vs.length = xs.length) :
    SList.elts (setVals xs vs) = (sframes xs ∗ seg (lslots xs) 0 vs) := by
  induction xs generalizing vs with
  | nil => cases vs <;> simp_all [setVals, SList.elts, sframes, seg_nil]
  | cons x xs ih =>
    cases vs with
    | nil => simp at h
    | cons v vs =>
      have := ih (vs := vs) (by simpa using h)
      rw [setVals, List.zipWith_cons_cons, SList.elts, ← setVals, this, seg_cons, seg_lcons, sframes, SList.elt]
      have h1 : lslots (x :: xs) 0 = (x.box, 1) := by simp [lslots]
      rw [h1]
      apply ent_antisymm <;> cancel

/-- a forward list is a chain of nodes and a range -/
theorem isSList_seg {l a s ty : Nat} {xs : List (CList.Elem V)} {vs : List V} (h : vs.length = xs.length) :
    SList.isSList l a s ty (setVals xs vs) = ((SList.hdr l a s ty ∗ SList.path a (CList.nodes xs ++ [s]) ∗ sframes xs) ∗ seg (lslots xs) 0 vs) := by
  rw [SList.isSList, selts_seg h, nodes_setVals h]
  apply ent_antisymm <;> cancel

/-- Non-vacuity: there is a memory that consists exactly of two ranges and a value. -/
theorem exists_ranges (vs us : List V) (w : V) : ∃ (m : Mem V) (c d : Slots) (l : Loc), (∀ t, m.orc t ≠ 0) ∧
    (seg c 0 vs ∗ seg d 0 us ∗ pts l (.obj (some w))) m.cells := by
  obtain ⟨m, ho, hm⟩ := exists_array (vs ++ us ++ [w]) (fun _ => 1)
  refine ⟨m, aslots 1 1, aslots 1 (1 + vs.length), (1, 1 + vs.length + us.length), by intro t; rw [ho]; simp, ?_⟩
  have h1 := arr_seg (b := 1) (o := 1) (i := 0) (vs := vs)
  have h2 := arr_seg (b := 1) (o := 1 + vs.length) (i := 0) (vs := us)
  rw [List.map_append, List.map_append, arr_append, arr_append] at hm
  rw [← h1, ← h2]
  simp only [List.length_append, List.length_map] at hm
  have : arr (V := V) 1 (1 + (vs.length + us.length)) (List.map (fun v => .obj (some v)) [w]) = pts (1, 1 + vs.length + us.length) (.obj (some w)) := by
    rw [List.map_cons, List.map_nil, arr, arr, sep_emp, Nat.add_assoc]
  rw [this, sep_assoc] at hm
  exact hm

end CC.Algo
