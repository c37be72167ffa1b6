import Verif.Tree.Rep
/-!
# Rotations and small helpers of c_tree.c
-/
namespace CC.Tree
open CC CC.Tac T
open CC.CList (Elem nodes vals firstN lastN)
variable {V : Type} {nf : Prop}

theorem root_spec {a h x : Nat} {k : Ctx (Elem V)} :
    Triple nf (fld a 6 h ∗ cx h x k) (root a) (fun r => ⌜r = rootK x k⌝ ∗ fld a 6 h ∗ cx h x k) := by
  obtain ⟨R, hR⟩ := cx_root (h := h) (x := x) (k := k)
  rw [hR]
  rw [← bind_pure (root a)]
  unfold root
  simp only [bind_assoc]
  steps
  apply Triple.ret
  cancel

theorem leftmost_spec {a h x : Nat} : Triple (V := V) nf (fld a 6 h ∗ fld h 3 x) (leftmost a) (fun r => ⌜r = x⌝ ∗ fld a 6 h ∗ fld h 3 x) := by
  rw [← bind_pure (leftmost a)]
  unfold leftmost
  simp only [bind_assoc]
  steps
  apply Triple.ret
  cancel
theorem rightmost_spec {a h x : Nat} : Triple (V := V) nf (fld a 6 h ∗ fld h 4 x) (rightmost a) (fun r => ⌜r = x⌝ ∗ fld a 6 h ∗ fld h 4 x) := by
  rw [← bind_pure (rightmost a)]
  unfold rightmost
  simp only [bind_assoc]
  steps
  apply Triple.ret
  cancel

theorem relink_spec {h x y : Nat} {k : Ctx (Elem V)} :
    Triple nf (cx h x k ∗ fld x 2 (upA h k)) (relink x y (rootK x k)) (fun _ => cx h y k ∗ fld x 2 (upA h k)) := by
  rw [← bind_pure (relink x y _)]
  refine Triple.fact (p := (∀ f ∈ k, f.elem.node ≠ x ∧ rootA f.sib ≠ x) ∧ (k ≠ [] → rootK x k ≠ x) ∧ x ≠ 0) (fun m hm => ⟨?_, ?_, ?_⟩) ?_
  · exact cx_ne (R := emp) (q := upA h k) (y := x) (h := h) (x := x) ((show _ ⊢ₛ _ by cancel) _ hm)
  · intro hk
    cases k with
    | nil => exact absurd rfl hk
    | cons f k => exact cx_root_ne (R := emp) (q := upA h (f :: k)) (y := x) (h := h) (x := x) ((show _ ⊢ₛ _ by cancel) _ hm)
  · rw [sep_comm] at hm; exact pts_ne_zero hm
  rintro ⟨h1, h2, h0⟩
  unfold relink
  cases k with
  | nil =>
    rw [rootK_nil, if_pos rfl]
    simp only [cx_nil, upA_nil, bind_assoc]
    steps
    apply Triple.ret
    cancel
  | cons f k =>
    rw [if_neg (fun h => h2 (by simp) h.symm)]
    have h3 := h1 f (by simp)
    cases f with
    | L c e r =>
      simp only [isLeft, isRight, if_neg h0, bind_assoc, pure_bind, cx_L, nd, upA_cons, Frame.elem_L]
      steps
      simp only [beq_self_eq_true, ↓reduceIte, bind_assoc]
      steps
      apply Triple.ret
      cancel
    | R c l e =>
      simp only [isLeft, isRight, if_neg h0, bind_assoc, pure_bind, cx_R, nd, upA_cons, Frame.elem_R]
      steps
      simp only [Frame.sib_R] at h3
      rw [if_neg (by simpa using h3.2)]
      simp only [bind_assoc, pure_bind]
      steps
      simp only [beq_self_eq_true, ↓reduceIte, bind_assoc]
      steps
      apply Triple.ret
      cancel

theorem rotateRight_spec {h : Nat} {k : Ctx (Elem V)} {c1 c2 : Color} {A B C : T (Elem V)} {x y : Elem V} {rt : Nat} (hrt : rt = rootK x.node k) :
    Triple nf (cx h x.node k ∗ tr (upA h k) (node c1 (node c2 A y B) x C)) (rotateRight x.node rt)
      (fun _ => cx h y.node k ∗ tr (upA h k) (node c2 A y (node c1 B x C))) := by
  subst hrt
  rw [← bind_pure (rotateRight _ _)]
  unfold rotateRight
  simp only [tr_node, rootA_node, nd]
  focus_atom fld y.node 1 c2.code
  apply Triple.ne_zero; intro hy
  focus_atom fld x.node 1 c1.code
  apply Triple.ne_zero; intro hx
  rw [if_neg hx]
  simp only [bind_assoc]
  step
  rw [if_neg hy]
  simp only [bind_assoc]
  steps
  cases B with
  | leaf =>
    simp only [rootA_leaf, tr_leaf]
    simp only [ne_eq, not_true_eq_false, ↓reduceIte, pure_bind]
    call (relink_spec (h := h) (x := x.node) (y := y.node) (k := k))
    intro _
    steps
    apply Triple.ret
    cancel
  | node cb B1 b B2 =>
    simp only [rootA_node, tr_node, nd]
    focus_atom fld b.node 1 cb.code
    apply Triple.ne_zero; intro hb
    have hb' : b.node ≠ 0 := hb
    simp only [ne_eq, hb', not_false_eq_true, ↓reduceIte, bind_assoc]
    steps
    call (relink_spec (h := h) (x := x.node) (y := y.node) (k := k))
    intro _
    steps
    apply Triple.ret
    cancel

theorem rotateLeft_spec {h : Nat} {k : Ctx (Elem V)} {c1 c2 : Color} {A B C : T (Elem V)} {x y : Elem V} {rt : Nat} (hrt : rt = rootK x.node k) :
    Triple nf (cx h x.node k ∗ tr (upA h k) (node c1 A x (node c2 B y C))) (rotateLeft x.node rt)
      (fun _ => cx h y.node k ∗ tr (upA h k) (node c2 (node c1 A x B) y C)) := by
  subst hrt
  rw [← bind_pure (rotateLeft _ _)]
  unfold rotateLeft
  simp only [tr_node, rootA_node, nd]
  focus_atom fld y.node 1 c2.code
  apply Triple.ne_zero; intro hy
  focus_atom fld x.node 1 c1.code
  apply Triple.ne_zero; intro hx
  rw [if_neg hx]
  simp only [bind_assoc]
  step
  rw [if_neg hy]
  simp only [bind_assoc]
  steps
  cases B with
  | leaf =>
    simp only [rootA_leaf, tr_leaf]
    simp only [ne_eq, not_true_eq_false, ↓reduceIte, pure_bind]
    call (relink_spec (h := h) (x := x.node) (y := y.node) (k := k))
    intro _
    steps
    apply Triple.ret
    cancel
  | node cb B1 b B2 =>
    simp only [rootA_node, tr_node, nd]
    focus_atom fld b.node 1 cb.code
    apply Triple.ne_zero; intro hb
    have hb' : b.node ≠ 0 := hb
    simp only [ne_eq, hb', not_false_eq_true, ↓reduceIte, bind_assoc]
    steps
    call (relink_spec (h := h) (x := x.node) (y := y.node) (k := k))
    intro _
    steps
    apply Triple.ret
    cancel

end CC.Tree
