import Verif.Core.Err
import Verif.List.Rep
import Verif.Tree.Fuel
import Verif.Tree.RB
/-!
# What it means for a heap fragment to be (part of) a tree of c_tree.c
-/
namespace CC.Tree
open CC CC.Tac
open CC.CList (Elem nodes vals firstN lastN)
variable {V : Type}

/-- what an element owns besides its color and its links -/
def elm (e : Elem V) : HProp V := blk e.node 5 ∗ fld e.node 5 e.box ∗ blk e.box 1 ∗ pts (e.box, 1) (.obj (some e.val))

/-- a node with its color and links -/
def nd (e : Elem V) (c p l r : Nat) : HProp V := fld e.node 1 c ∗ fld e.node 2 p ∗ fld e.node 3 l ∗ fld e.node 4 r ∗ elm e

/-- the address of the root of a subtree, NULL if it is empty -/
def rootA : T (Elem V) → Addr
  | .leaf => 0
  | .node _ _ e _ => e.node
@[simp] theorem rootA_leaf : rootA (V := V) .leaf = 0 := rfl
@[simp] theorem rootA_node {c : Color} {l r : T (Elem V)} {e : Elem V} : rootA (.node c l e r) = e.node := rfl
@[simp] theorem rootA_blacken {t : T (Elem V)} : rootA t.blacken = rootA t := by cases t <;> rfl

/-- a linked subtree whose root has parent `p` -/
def tr (p : Addr) : T (Elem V) → HProp V
  | .leaf => emp
  | .node c l e r => nd e c.code p (rootA l) (rootA r) ∗ tr e.node l ∗ tr e.node r

theorem tr_leaf {p : Addr} : tr (V := V) p .leaf = emp := rfl
theorem tr_node {p : Addr} {c : Color} {l r : T (Elem V)} {e : Elem V} :
    tr p (.node c l e r) = (nd e c.code p (rootA l) (rootA r) ∗ tr e.node l ∗ tr e.node r) := rfl

/-- the parent of the subtree a context surrounds -/
def upA (h : Addr) : Ctx (Elem V) → Addr
  | [] => h
  | f :: _ => f.elem.node
@[simp] theorem upA_nil {h : Addr} : upA (V := V) h [] = h := rfl
@[simp] theorem upA_cons {h : Addr} {f : Frame (Elem V)} {k : Ctx (Elem V)} : upA h (f :: k) = f.elem.node := rfl

/-- the linked nodes around a subtree with root `x`, in a tree with header `h` -/
def cx (h : Addr) : Addr → Ctx (Elem V) → HProp V
  | x, [] => fld h 2 x
  | x, .L c e r :: k => nd e c.code (upA h k) x (rootA r) ∗ tr e.node r ∗ cx h e.node k
  | x, .R c l e :: k => nd e c.code (upA h k) (rootA l) x ∗ tr e.node l ∗ cx h e.node k

theorem cx_nil {h x : Addr} : cx (V := V) h x [] = fld h 2 x := rfl
theorem cx_L {h x : Addr} {c : Color} {e : Elem V} {r : T (Elem V)} {k : Ctx (Elem V)} :
    cx h x (.L c e r :: k) = (nd e c.code (upA h k) x (rootA r) ∗ tr e.node r ∗ cx h e.node k) := rfl
theorem cx_R {h x : Addr} {c : Color} {e : Elem V} {l : T (Elem V)} {k : Ctx (Elem V)} :
    cx h x (.R c l e :: k) = (nd e c.code (upA h k) (rootA l) x ∗ tr e.node l ∗ cx h e.node k) := rfl

/-- the address of the root of the whole tree -/
def rootK : Addr → Ctx (Elem V) → Addr
  | x, [] => x
  | _, f :: k => rootK f.elem.node k
@[simp] theorem rootK_nil {x : Addr} : rootK (V := V) x [] = x := rfl
@[simp] theorem rootK_cons {x : Addr} {f : Frame (Elem V)} {k : Ctx (Elem V)} : rootK x (f :: k) = rootK f.elem.node k := rfl

@[simp] theorem rootA_plugF {f : Frame (Elem V)} {t : T (Elem V)} : rootA (f.plug t) = f.elem.node := by cases f <;> rfl

theorem rootA_plug {t : T (Elem V)} {k : Ctx (Elem V)} : rootA (plug t k) = rootK (rootA t) k := by
  induction k generalizing t with
  | nil => rfl
  | cons f k ih => simp [ih]

/-- move the focus one step up -/
theorem cx_up {h : Addr} {t : T (Elem V)} {f : Frame (Elem V)} {k : Ctx (Elem V)} :
    (cx h (rootA t) (f :: k) ∗ tr f.elem.node t) = (cx h f.elem.node k ∗ tr (upA h k) (f.plug t)) := by
  cases f with
  | L c e r => simp only [cx_L, Frame.elem_L, Frame.plug_L, tr_node]; ac_rfl
  | R c l e => simp only [cx_R, Frame.elem_R, Frame.plug_R, tr_node]; ac_rfl

/-- the whole tree, seen from one of its subtrees -/
theorem cx_plug {h : Addr} {t : T (Elem V)} {k : Ctx (Elem V)} :
    (cx h (rootA t) k ∗ tr (upA h k) t) = (fld h 2 (rootA (plug t k)) ∗ tr h (plug t k)) := by
  induction k generalizing t with
  | nil => rfl
  | cons f k ih =>
    rw [upA_cons, cx_up, plug_cons]
    have := ih (t := f.plug t)
    rw [rootA_plugF] at this
    exact this

/-- the part of a context that does not contain the header -/
theorem cx_split {h x : Addr} (k : Ctx (Elem V)) : ∃ R, (∀ x', cx h x' k = cx h x' k) ∧ cx h x k = (fld h 2 (rootK x k) ∗ R) := by
  induction k generalizing x with
  | nil => exact ⟨emp, fun _ => rfl, by rw [sep_emp]; rfl⟩
  | cons f k ih =>
    cases f with
    | L c e r =>
      obtain ⟨R, _, hR⟩ := ih (x := e.node)
      refine ⟨nd e c.code (upA h k) x (rootA r) ∗ tr e.node r ∗ R, fun _ => rfl, ?_⟩
      rw [cx_L, hR, rootK_cons, Frame.elem_L]; ac_rfl
    | R c l e =>
      obtain ⟨R, _, hR⟩ := ih (x := e.node)
      refine ⟨nd e c.code (upA h k) (rootA l) x ∗ tr e.node l ∗ R, fun _ => rfl, ?_⟩
      rw [cx_R, hR, rootK_cons, Frame.elem_R]; ac_rfl

theorem cx_root {h x : Addr} {k : Ctx (Elem V)} : ∃ R, cx h x k = (fld h 2 (rootK x k) ∗ R) := by
  obtain ⟨R, _, hR⟩ := cx_split (h := h) (x := x) k
  exact ⟨R, hR⟩

/-! ### different nodes have different addresses -/

theorem nd_ne {e : Elem V} {c p l r y q : Nat} {R : HProp V} {m : Heap V} (hh : (nd e c p l r ∗ fld y 2 q ∗ R) m) : e.node ≠ y := by
  have := loc_ne_of (l₁ := (e.node, 2)) (l₂ := (y, 2)) (v₁ := .num p) (v₂ := .num q)
    (R := (fld e.node 1 c ∗ fld e.node 3 l ∗ fld e.node 4 r ∗ elm e) ∗ R) hh (by unfold nd; cancel)
  intro he
  exact this (by rw [he])

theorem tr_ne {p y q : Nat} {t : T (Elem V)} {R : HProp V} {m : Heap V} (hh : (tr p t ∗ fld y 2 q ∗ R) m) : rootA t ≠ y := by
  cases t with
  | leaf =>
    rw [sep_left_comm] at hh
    exact fun h => pts_ne_zero hh h.symm
  | node c l e r =>
    rw [tr_node] at hh
    exact nd_ne (R := (tr e.node l ∗ tr e.node r) ∗ R) ((show _ ⊢ₛ _ by cancel) _ hh)

theorem cx_ne {h x y q : Nat} {k : Ctx (Elem V)} {R : HProp V} {m : Heap V} (hh : (cx h x k ∗ fld y 2 q ∗ R) m) :
    ∀ f ∈ k, f.elem.node ≠ y ∧ rootA f.sib ≠ y := by
  induction k generalizing x R with
  | nil => simp
  | cons f k ih =>
    intro g hg
    cases f with
    | L c e r =>
      rw [cx_L] at hh
      rcases List.mem_cons.1 hg with rfl | hg
      · refine ⟨nd_ne (R := (tr e.node r ∗ cx h e.node k) ∗ R) (e := e) (y := y) (q := q) ((show _ ⊢ₛ _ by cancel) _ hh), ?_⟩
        exact tr_ne (R := (nd e c.code (upA h k) x (rootA r) ∗ cx h e.node k) ∗ R) (p := e.node) (t := r) (y := y) (q := q) ((show _ ⊢ₛ _ by cancel) _ hh)
      · exact ih (x := e.node) (R := nd e c.code (upA h k) x (rootA r) ∗ tr e.node r ∗ R) ((show _ ⊢ₛ _ by cancel) _ hh) g hg
    | R c l e =>
      rw [cx_R] at hh
      rcases List.mem_cons.1 hg with rfl | hg
      · refine ⟨nd_ne (R := (tr e.node l ∗ cx h e.node k) ∗ R) (e := e) (y := y) (q := q) ((show _ ⊢ₛ _ by cancel) _ hh), ?_⟩
        exact tr_ne (R := (nd e c.code (upA h k) (rootA l) x ∗ cx h e.node k) ∗ R) (p := e.node) (t := l) (y := y) (q := q) ((show _ ⊢ₛ _ by cancel) _ hh)
      · exact ih (x := e.node) (R := nd e c.code (upA h k) (rootA l) x ∗ tr e.node l ∗ R) ((show _ ⊢ₛ _ by cancel) _ hh) g hg

theorem rootK_mem {x : Addr} {f : Frame (Elem V)} {k : Ctx (Elem V)} : ∃ g ∈ f :: k, rootK x (f :: k) = g.elem.node := by
  induction k generalizing x f with
  | nil => exact ⟨f, by simp, rfl⟩
  | cons f' k ih =>
    obtain ⟨g, hg, he⟩ := ih (x := x) (f := f')
    exact ⟨g, List.mem_cons_of_mem _ hg, by simpa using he⟩

/-- below the root, a node is not the root -/
theorem cx_root_ne {h x y q : Nat} {f : Frame (Elem V)} {k : Ctx (Elem V)} {R : HProp V} {m : Heap V} (hh : (cx h x (f :: k) ∗ fld y 2 q ∗ R) m) :
    rootK x (f :: k) ≠ y := by
  obtain ⟨g, hg, he⟩ := rootK_mem (x := x) (f := f) (k := k)
  rw [he]
  exact (cx_ne hh g hg).1

/-- addresses of a context and of a subtree are different from the header's, which is not NULL -/
theorem cx_header {h x : Nat} {k : Ctx (Elem V)} {R : HProp V} {m : Heap V} (hh : (cx h x k ∗ R) m) : h ≠ 0 ∧ ∀ f ∈ k, f.elem.node ≠ h ∧ rootA f.sib ≠ h := by
  induction k generalizing x R with
  | nil => rw [cx_nil] at hh; exact ⟨pts_ne_zero hh, by simp⟩
  | cons f k ih =>
    obtain ⟨R', hR'⟩ := cx_root (h := h) (x := f.elem.node) (k := k)
    cases f with
    | L c e r =>
      rw [cx_L] at hh
      have h1 := ih (x := e.node) (R := nd e c.code (upA h k) x (rootA r) ∗ tr e.node r ∗ R) ((show _ ⊢ₛ _ by cancel) _ hh)
      refine ⟨h1.1, fun g hg => ?_⟩
      rcases List.mem_cons.1 hg with rfl | hg
      · simp only [Frame.elem_L] at hR'
        rw [hR'] at hh
        exact ⟨nd_ne (R := tr e.node r ∗ R' ∗ R) (e := e) (y := h) (q := rootK e.node k) ((show _ ⊢ₛ _ by cancel) _ hh),
          tr_ne (R := nd e c.code (upA h k) x (rootA r) ∗ R' ∗ R) (p := e.node) (t := r) (y := h) (q := rootK e.node k) ((show _ ⊢ₛ _ by cancel) _ hh)⟩
      · exact h1.2 g hg
    | R c l e =>
      rw [cx_R] at hh
      have h1 := ih (x := e.node) (R := nd e c.code (upA h k) (rootA l) x ∗ tr e.node l ∗ R) ((show _ ⊢ₛ _ by cancel) _ hh)
      refine ⟨h1.1, fun g hg => ?_⟩
      rcases List.mem_cons.1 hg with rfl | hg
      · simp only [Frame.elem_R] at hR'
        rw [hR'] at hh
        exact ⟨nd_ne (R := tr e.node l ∗ R' ∗ R) (e := e) (y := h) (q := rootK e.node k) ((show _ ⊢ₛ _ by cancel) _ hh),
          tr_ne (R := nd e c.code (upA h k) (rootA l) x ∗ R' ∗ R) (p := e.node) (t := l) (y := h) (q := rootK e.node k) ((show _ ⊢ₛ _ by cancel) _ hh)⟩
      · exact h1.2 g hg

/-! ### the whole tree -/

/-- the constant fields of a tree -/
structure Cfg where
  kt : Nat
  vt : Nat
  mt : Nat
  kov : Nat
  cmp : Nat

/-- the constant fields of the tree struct and the header node -/
def consts (a h : Addr) (g : Cfg) : HProp V :=
  blk a 7 ∗ fld a 1 g.kt ∗ fld a 2 g.vt ∗ fld a 3 g.mt ∗ fld a 4 g.kov ∗ fld a 5 g.cmp ∗ blk h 5 ∗ fld h 1 0 ∗ fld h 5 0

/-- tree struct and header node with number of elements `n`, first and last node `lm`, `rm`, without the pointer to the root -/
def hdr (a h : Addr) (g : Cfg) (n lm rm : Nat) : HProp V := consts a h g ∗ fld a 6 h ∗ fld a 7 n ∗ fld h 3 lm ∗ fld h 4 rm

/-- The fragment is exactly a tree of shape `t`. -/
def isShape (a h : Addr) (g : Cfg) (t : T (Elem V)) : HProp V :=
  hdr a h g t.toList.length (firstN t.toList h) (lastN t.toList h) ∗ fld h 2 (rootA t) ∗ tr h t

/-- The fragment is exactly a (red-black) tree with header `h`, whose elements are `es` in order. -/
def isTree (a h : Addr) (g : Cfg) (es : List (Elem V)) : HProp V :=
  ∃ₛ t, ⌜t.toList = es ∧ t.Good ∧ g.vt ≠ 0⌝ ∗ isShape a h g t

end CC.Tree
