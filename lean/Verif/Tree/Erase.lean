import Verif.Tree.Del
import Verif.Tree.Insert
/-!
# `__rebalance_erase`: taking a node out
-/
namespace CC.Tree
open CC CC.Tac T
open CC.CList (Elem nodes vals firstN lastN)
variable {V : Type} {nf : Prop}

/-! ### the least and the greatest node -/

/-- the way down to a place and the height of what is there do not exceed the height of the tree -/
theorem length_height_le {t : T (Elem V)} {k : Ctx (Elem V)} : k.length + t.height ≤ (plug t k).height := by
  induction k generalizing t with
  | nil => simp [plug]
  | cons f k ih =>
    cases f with
    | L c e r => have := ih (t := node c t e r); simp only [T.height, plug, Frame.plug, List.length_cons] at this ⊢; omega
    | R c l e => have := ih (t := node c l e t); simp only [T.height, plug, Frame.plug, List.length_cons] at this ⊢; omega

theorem minLoopF_spec {p N : Nat} {c : Color} {l r : T (Elem V)} {e : Elem V} (hN : (node c l e r).height ≤ N) :
    Triple nf (tr p (node c l e r)) (minLoopF N e.node) (fun x => ⌜x = firstN (l.toList ++ e :: r.toList) 0⌝ ∗ tr p (node c l e r)) := by
  induction l generalizing p c e r N with
  | leaf =>
    simp only [T.height] at hN
    obtain ⟨N, rfl⟩ : ∃ N', N = N' + 1 := ⟨N - 1, by omega⟩
    rw [minLoopF, tr_node, nd]
    step
    simp only [rootA_leaf, ne_eq, not_true_eq_false, ↓reduceIte]
    apply Triple.ret
    cancel
  | node c' l' e' r' ih _ =>
    simp only [T.height] at hN
    obtain ⟨N, rfl⟩ : ∃ N', N = N' + 1 := ⟨N - 1, by omega⟩
    rw [minLoopF, tr_node, nd]
    step
    simp only [tr_node, nd]
    focus_atom fld e'.node 1 c'.code
    apply Triple.ne_zero; intro hx
    have hx' : e'.node ≠ 0 := hx
    simp only [rootA_node, ne_eq, hx', not_false_eq_true, ↓reduceIte]
    refine Triple.pre (P' := tr e.node (node c' l' e' r') ∗ (fld e.node 1 c.code ∗ fld e.node 2 p ∗ fld e.node 3 e'.node ∗ fld e.node 4 (rootA r) ∗ elm e) ∗ tr e.node r) (by simp only [tr_node, nd]; cancel) ?_
    rw [← bind_pure (minLoopF _ _)]
    call (ih (p := e.node) (c := c') (e := e') (r := r') (N := N) (by simp only [T.height]; omega))
    intro x
    xsub
    apply Triple.ret
    rw [toList_node, firstN_any (X := l'.toList ++ e' :: r'.toList) (h' := 0) (by simp)]
    simp only [tr_node, nd]
    cancel

theorem minimumF_spec {p N : Nat} {t : T (Elem V)} (hN : t.height ≤ N) : Triple nf (tr p t) (minimumF N (rootA t)) (fun x => ⌜x = firstN t.toList 0⌝ ∗ tr p t) := by
  unfold minimumF
  cases t with
  | leaf =>
    simp only [rootA_leaf, ↓reduceIte]
    apply Triple.ret
    cancel
  | node c l e r =>
    refine Triple.fact (p := e.node ≠ 0) (fun m hm => ?_) fun hx => ?_
    · rw [tr_node, nd] at hm
      exact pts_ne_zero (l := (e.node, 1)) (v := .num c.code) (R := _) ((show _ ⊢ₛ _ by cancel) _ hm)
    simp only [rootA_node, hx, ↓reduceIte]
    exact minLoopF_spec hN

theorem maxLoopF_spec {p N : Nat} {c : Color} {l r : T (Elem V)} {e : Elem V} (hN : (node c l e r).height ≤ N) :
    Triple nf (tr p (node c l e r)) (maxLoopF N e.node) (fun x => ⌜x = lastN (l.toList ++ e :: r.toList) 0⌝ ∗ tr p (node c l e r)) := by
  induction r generalizing p c e l N with
  | leaf =>
    simp only [T.height] at hN
    obtain ⟨N, rfl⟩ : ∃ N', N = N' + 1 := ⟨N - 1, by omega⟩
    rw [maxLoopF, tr_node, nd]
    step
    simp only [rootA_leaf, ne_eq, not_true_eq_false, ↓reduceIte]
    apply Triple.ret
    simp only [rootA_leaf, toList_leaf, lastN_snoc]
    cancel
  | node c' l' e' r' _ ih =>
    simp only [T.height] at hN
    obtain ⟨N, rfl⟩ : ∃ N', N = N' + 1 := ⟨N - 1, by omega⟩
    rw [maxLoopF, tr_node, nd]
    step
    simp only [tr_node, nd]
    focus_atom fld e'.node 1 c'.code
    apply Triple.ne_zero; intro hx
    have hx' : e'.node ≠ 0 := hx
    simp only [rootA_node, ne_eq, hx', not_false_eq_true, ↓reduceIte]
    refine Triple.pre (P' := tr e.node (node c' l' e' r') ∗ (fld e.node 1 c.code ∗ fld e.node 2 p ∗ fld e.node 3 (rootA l) ∗ fld e.node 4 e'.node ∗ elm e) ∗ tr e.node l) (by simp only [tr_node, nd]; cancel) ?_
    rw [← bind_pure (maxLoopF _ _)]
    call (ih (p := e.node) (c := c') (e := e') (l := l') (N := N) (by simp only [T.height]; omega))
    intro x
    xsub
    apply Triple.ret
    have hl : lastN (l.toList ++ e :: (l'.toList ++ e' :: r'.toList)) 0 = lastN (l'.toList ++ e' :: r'.toList) 0 := by
      rw [List.append_cons l.toList, lastN_any (Y := l'.toList ++ e' :: r'.toList) (h' := 0) (by simp)]
    rw [toList_node, hl]
    simp only [tr_node, nd]
    cancel

theorem maximumF_spec {p N : Nat} {t : T (Elem V)} (hN : t.height ≤ N) : Triple nf (tr p t) (maximumF N (rootA t)) (fun x => ⌜x = lastN t.toList 0⌝ ∗ tr p t) := by
  unfold maximumF
  cases t with
  | leaf =>
    simp only [rootA_leaf, ↓reduceIte]
    apply Triple.ret
    cancel
  | node c l e r =>
    refine Triple.fact (p := e.node ≠ 0) (fun m hm => ?_) fun hx => ?_
    · rw [tr_node, nd] at hm
      exact pts_ne_zero (l := (e.node, 1)) (v := .num c.code) (R := _) ((show _ ⊢ₛ _ by cancel) _ hm)
    simp only [rootA_node, hx, ↓reduceIte]
    exact maxLoopF_spec hN

/-! ### a piece of a context -/

/-- the nodes of a piece of a context, with parent `p` above it and the root `x` of the subtree below it -/
def cxp (p : Addr) : Addr → Ctx (Elem V) → HProp V
  | _, [] => emp
  | x, .L c e r :: k => nd e c.code (upA p k) x (rootA r) ∗ tr e.node r ∗ cxp p e.node k
  | x, .R c l e :: k => nd e c.code (upA p k) (rootA l) x ∗ tr e.node l ∗ cxp p e.node k

theorem cxp_nil {p x : Addr} : cxp (V := V) p x [] = emp := rfl
theorem cxp_L {p x : Addr} {c : Color} {e : Elem V} {r : T (Elem V)} {k : Ctx (Elem V)} :
    cxp p x (.L c e r :: k) = (nd e c.code (upA p k) x (rootA r) ∗ tr e.node r ∗ cxp p e.node k) := rfl
theorem cxp_R {p x : Addr} {c : Color} {e : Elem V} {l : T (Elem V)} {k : Ctx (Elem V)} :
    cxp p x (.R c l e :: k) = (nd e c.code (upA p k) (rootA l) x ∗ tr e.node l ∗ cxp p e.node k) := rfl

theorem upA_append {h : Addr} {k1 k2 : Ctx (Elem V)} : upA h (k1 ++ k2) = upA (upA h k2) k1 := by cases k1 <;> rfl

theorem cx_append {h x : Addr} {k1 k2 : Ctx (Elem V)} : cx h x (k1 ++ k2) = (cxp (upA h k2) x k1 ∗ cx h (rootK x k1) k2) := by
  induction k1 generalizing x with
  | nil => simp [cxp_nil]
  | cons f k ih =>
    cases f with
    | L c e r => rw [List.cons_append, cx_L, ih, cxp_L, upA_append, rootK_cons, Frame.elem_L]; ac_rfl
    | R c l e => rw [List.cons_append, cx_R, ih, cxp_R, upA_append, rootK_cons, Frame.elem_R]; ac_rfl

theorem tr_plug {p : Addr} {k : Ctx (Elem V)} {t : T (Elem V)} : tr p (plug t k) = (cxp p (rootA t) k ∗ tr (upA p k) t) := by
  induction k generalizing t with
  | nil => simp [cxp_nil]
  | cons f k ih =>
    rw [plug_cons, ih, rootA_plugF]
    cases f with
    | L c e r => simp only [Frame.plug_L, Frame.elem_L, tr_node, cxp_L, upA_cons]; ac_rfl
    | R c l e => simp only [Frame.plug_R, Frame.elem_R, tr_node, cxp_R, upA_cons]; ac_rfl

theorem cxp_parent {x : Addr} {f : Frame (Elem V)} {k : Ctx (Elem V)} : ∃ R, ∀ p, cxp p x (f :: k) = (fld (rootK x (f :: k)) 2 p ∗ R) := by
  induction k generalizing x f with
  | nil =>
    cases f with
    | L c e r =>
      exact ⟨(fld e.node 1 c.code ∗ fld e.node 3 x ∗ fld e.node 4 (rootA r) ∗ elm e) ∗ tr e.node r, fun p => by
        simp only [cxp_L, cxp_nil, nd, upA_nil, rootK_cons, rootK_nil, Frame.elem_L, sep_emp]; ac_rfl⟩
    | R c l e =>
      exact ⟨(fld e.node 1 c.code ∗ fld e.node 3 (rootA l) ∗ fld e.node 4 x ∗ elm e) ∗ tr e.node l, fun p => by
        simp only [cxp_R, cxp_nil, nd, upA_nil, rootK_cons, rootK_nil, Frame.elem_R, sep_emp]; ac_rfl⟩
  | cons f' k ih =>
    obtain ⟨R, hR⟩ := ih (x := f.elem.node) (f := f')
    cases f with
    | L c e r =>
      refine ⟨nd e c.code f'.elem.node x (rootA r) ∗ tr e.node r ∗ R, fun p => ?_⟩
      rw [cxp_L, upA_cons]
      have := hR p
      rw [Frame.elem_L] at this
      rw [this]
      simp only [rootK_cons]
      ac_rfl
    | R c l e =>
      refine ⟨nd e c.code f'.elem.node (rootA l) x ∗ tr e.node l ∗ R, fun p => ?_⟩
      rw [cxp_R, upA_cons]
      have := hR p
      rw [Frame.elem_R] at this
      rw [this]
      simp only [rootK_cons]
      ac_rfl

/-! ### unlinking -/

theorem replaceChild_spec {a h x y : Nat} {k : Ctx (Elem V)} :
    Triple nf (fld a 6 h ∗ cx h x k ∗ fld x 2 (upA h k)) (replaceChild a x y) (fun _ => fld a 6 h ∗ cx h y k ∗ fld x 2 (upA h k)) := by
  refine Triple.fact (p := (∀ f ∈ k, f.elem.node ≠ x ∧ rootA f.sib ≠ x) ∧ (k ≠ [] → rootK x k ≠ x) ∧ x ≠ 0) (fun m hm => ⟨?_, ?_, ?_⟩) ?_
  · exact cx_ne (R := fld a 6 h) (q := upA h k) (y := x) (h := h) (x := x) ((show _ ⊢ₛ _ by cancel) _ hm)
  · intro hk
    cases k with
    | nil => exact absurd rfl hk
    | cons f k => exact cx_root_ne (R := fld a 6 h) (q := upA h (f :: k)) (y := x) (h := h) (x := x) ((show _ ⊢ₛ _ by cancel) _ hm)
  · exact pts_ne_zero (l := (x, 2)) (v := .num (upA h k)) (R := _) ((show _ ⊢ₛ _ by cancel) _ hm)
  rintro ⟨h1, h2, h0⟩
  unfold replaceChild
  call (root_spec (a := a) (h := h) (x := x) (k := k))
  intro rt
  xsub
  cases k with
  | nil =>
    simp only [rootK_nil, ↓reduceIte, setRoot, cx_nil, upA_nil]
    steps
    apply Triple.ret
    cancel
  | cons f k =>
    rw [if_neg (h2 (by simp))]
    have h3 := h1 f (by simp)
    cases f with
    | L c e r =>
      simp only [cx_L, nd, upA_cons, Frame.elem_L]
      call (isLeft_spec (x := x) (p := e.node) (l := x))
      intro b
      xsub
      step
      simp only [beq_self_eq_true, ↓reduceIte]
      steps
      apply Triple.ret
      cancel
    | R c l e =>
      simp only [cx_R, nd, upA_cons, Frame.elem_R]
      call (isLeft_spec (x := x) (p := e.node) (l := rootA l))
      intro b
      xsub
      step
      simp only [Frame.sib_R] at h3
      simp only [beq_iff_eq, h3.2, ↓reduceIte]
      steps
      apply Triple.ret
      cancel

/-- `fixLeftmost` and `fixRightmost` keep the ends right when `e`, with the single child `t` (or none), goes -/
theorem fixLeftmostF_spec {a h f N : Nat} {X Y : List (Elem V)} {t : T (Elem V)} {e : Elem V} {p : Nat} (hN : t.height ≤ N) (hn : (nodes (X ++ e :: Y)).Nodup)
    (h1 : X = [] → t ≠ leaf → Y ≠ [] ∧ firstN t.toList 0 = firstN Y h) (h2 : X = [] → t = leaf → firstN Y h = p) :
    Triple nf (fld a 6 h ∗ fld h 3 (firstN (X ++ e :: Y) h) ∗ fld e.node 2 p ∗ tr f t) (fixLeftmostF N a e.node (rootA t))
      (fun _ => fld a 6 h ∗ fld h 3 (firstN (X ++ Y) h) ∗ fld e.node 2 p ∗ tr f t) := by
  unfold fixLeftmostF
  call (leftmost_spec (a := a) (h := h))
  intro x
  xsub
  have hi := firstN_eq_iff (h := h) hn
  by_cases hX : X = []
  · have h3 := hi.2 hX
    simp only [← h3, ↓reduceIte, setLeftmost]
    subst hX
    cases t with
    | leaf =>
      simp only [rootA_leaf, ne_eq, not_true_eq_false, ↓reduceIte, List.nil_append, h2 rfl rfl]
      steps
      apply Triple.ret
      cancel
    | node tc tl te tr' =>
      refine Triple.fact (p := te.node ≠ 0) (fun m hm => ?_) fun hx => ?_
      · rw [tr_node, nd] at hm
        exact pts_ne_zero (l := (te.node, 1)) (v := .num tc.code) (R := _) ((show _ ⊢ₛ _ by cancel) _ hm)
      have hm := minimumF_spec (nf := nf) (p := f) (t := node tc tl te tr') hN
      simp only [rootA_node] at hm
      simp only [rootA_node, ne_eq, hx, not_false_eq_true, ↓reduceIte, List.nil_append]
      call hm
      intro x
      xsub
      rw [(h1 rfl (by simp)).2]
      steps
      apply Triple.ret
      cancel
  · have h3 := mt hi.1 hX
    have h3 : ¬ firstN (X ++ e :: Y) h = e.node := fun h => h3 h.symm
    simp only [h3, ↓reduceIte]
    apply Triple.ret
    rw [firstN_any (h' := h) hX, firstN_any (h' := h) hX]
    cancel

theorem fixRightmostF_spec {a h f N : Nat} {X Y : List (Elem V)} {t : T (Elem V)} {e : Elem V} {p : Nat} (hN : t.height ≤ N) (hn : (nodes (X ++ e :: Y)).Nodup)
    (h1 : Y = [] → t ≠ leaf → X ≠ [] ∧ lastN t.toList 0 = lastN X h) (h2 : Y = [] → t = leaf → lastN X h = p) :
    Triple nf (fld a 6 h ∗ fld h 4 (lastN (X ++ e :: Y) h) ∗ fld e.node 2 p ∗ tr f t) (fixRightmostF N a e.node (rootA t))
      (fun _ => fld a 6 h ∗ fld h 4 (lastN (X ++ Y) h) ∗ fld e.node 2 p ∗ tr f t) := by
  unfold fixRightmostF
  call (rightmost_spec (a := a) (h := h))
  intro x
  xsub
  have hi := lastN_eq_iff (h := h) hn
  by_cases hX : Y = []
  · have h3 := hi.2 hX
    simp only [← h3, ↓reduceIte, setRightmost]
    subst hX
    cases t with
    | leaf =>
      simp only [rootA_leaf, ne_eq, not_true_eq_false, ↓reduceIte, List.append_nil, h2 rfl rfl]
      steps
      apply Triple.ret
      cancel
    | node tc tl te tr' =>
      refine Triple.fact (p := te.node ≠ 0) (fun m hm => ?_) fun hx => ?_
      · rw [tr_node, nd] at hm
        exact pts_ne_zero (l := (te.node, 1)) (v := .num tc.code) (R := _) ((show _ ⊢ₛ _ by cancel) _ hm)
      have hm := maximumF_spec (nf := nf) (p := f) (t := node tc tl te tr') hN
      simp only [rootA_node] at hm
      simp only [rootA_node, ne_eq, hx, not_false_eq_true, ↓reduceIte, List.append_nil]
      call hm
      intro x
      xsub
      rw [(h1 rfl (by simp)).2]
      steps
      apply Triple.ret
      cancel
  · have h3 := mt hi.1 hX
    have h3 : ¬ lastN (X ++ e :: Y) h = e.node := fun h => h3 h.symm
    simp only [h3, ↓reduceIte]
    apply Triple.ret
    rw [List.append_cons, lastN_any (h' := h) hX, lastN_any (h' := h) hX]
    cancel

/-- the parent of a missing leftmost (rightmost) subtree is the next (previous) element -/
theorem firstN_after {h : Nat} {k : Ctx (Elem V)} (hb : before k = []) : firstN (after k) h = upA h k := by
  match k with
  | [] => rfl
  | .L c e r :: k => simp [CList.firstN_cons]
  | .R c l e :: k => simp at hb
theorem lastN_before {h : Nat} {k : Ctx (Elem V)} (hb : after k = []) : lastN (before k) h = upA h k := by
  match k with
  | [] => rfl
  | .L c e r :: k => simp at hb
  | .R c l e :: k => rw [before_R, ← List.append_assoc, lastN_snoc]; rfl

theorem adopt_spec {p q : Nat} {t : T (Elem V)} : Triple nf (tr p t) (adopt (rootA t) q) (fun _ => tr q t) := by
  unfold adopt
  cases t with
  | leaf =>
    simp only [rootA_leaf, ne_eq, not_true_eq_false, ↓reduceIte]
    apply Triple.ret
    exact ent_refl _
  | node c l e r =>
    rw [tr_node, nd]
    focus_atom fld e.node 1 c.code
    apply Triple.ne_zero; intro hx
    have hx' : e.node ≠ 0 := hx
    simp only [rootA_node, ne_eq, hx', not_false_eq_true, ↓reduceIte]
    steps
    apply Triple.ret
    rw [tr_node, nd]
    cancel

/-- taking out a node with at most one child -/
theorem unlinkSelfF_spec {a h N : Nat} {k : Ctx (Elem V)} {l r t : T (Elem V)} {e : Elem V} {X Y : List (Elem V)} (hN : t.height ≤ N)
    (ht : (l = leaf ∧ t = r) ∨ (r = leaf ∧ t = l)) (hX : X = before k ++ l.toList) (hY : Y = r.toList ++ after k) (hn : (nodes (X ++ e :: Y)).Nodup) :
    Triple nf (fld a 6 h ∗ fld h 3 (firstN (X ++ e :: Y) h) ∗ fld h 4 (lastN (X ++ e :: Y) h) ∗ cx h e.node k ∗ fld e.node 2 (upA h k) ∗ tr e.node t) (unlinkSelfF N a e.node (rootA t))
      (fun rp => ⌜rp = upA h k⌝ ∗ fld a 6 h ∗ fld h 3 (firstN (X ++ Y) h) ∗ fld h 4 (lastN (X ++ Y) h) ∗ cx h (rootA t) k ∗ tr (upA h k) t ∗ fld e.node 2 (upA h k)) := by
  unfold unlinkSelfF
  call (replaceChild_spec (a := a) (h := h) (x := e.node) (y := rootA t) (k := k))
  intro _
  call (fixLeftmostF_spec (a := a) (h := h) (f := e.node) (t := t) (p := upA h k) (N := N) hN hn ?_ ?_)
  rotate_left
  · intro h0 hl
    subst hX hY
    obtain ⟨h3, h4⟩ := List.append_eq_nil_iff.1 h0
    rcases ht with ⟨_, rfl⟩ | ⟨_, rfl⟩
    · cases t with
      | leaf => exact absurd rfl hl
      | node tc tl te tr' => exact ⟨by simp, by rw [firstN_any (h' := 0) (by simp)]⟩
    · cases t with
      | leaf => exact absurd rfl hl
      | node tc tl te tr' => simp at h4
  · intro h0 hl
    subst hX hY
    obtain ⟨h3, h4⟩ := List.append_eq_nil_iff.1 h0
    have : r = leaf := by rcases ht with ⟨_, h⟩ | ⟨h, _⟩; rw [← h, hl]; exact h
    subst this
    exact firstN_after h3
  intro _
  call (fixRightmostF_spec (a := a) (h := h) (f := e.node) (t := t) (p := upA h k) (N := N) hN hn ?_ ?_)
  rotate_left
  · intro h0 hl
    subst hX hY
    obtain ⟨h4, h3⟩ := List.append_eq_nil_iff.1 h0
    rcases ht with ⟨_, rfl⟩ | ⟨_, rfl⟩
    · cases t with
      | leaf => exact absurd rfl hl
      | node tc tl te tr' => simp at h4
    · cases t with
      | leaf => exact absurd rfl hl
      | node tc tl te tr' => exact ⟨by simp, by rw [lastN_any (Y := (node tc tl te tr').toList) (h' := 0) (by simp)]⟩
  · intro h0 hl
    subst hX hY
    obtain ⟨h4, h3⟩ := List.append_eq_nil_iff.1 h0
    have : l = leaf := by rcases ht with ⟨h, _⟩ | ⟨_, h⟩; exact h; rw [← h, hl]
    subst this
    simp only [toList_leaf, List.append_nil]
    exact lastN_before h3
  intro _
  step
  call (adopt_spec (p := e.node) (q := upA h k) (t := t))
  intro _
  steps
  apply Triple.ret
  cancel

theorem detachSucc_spec {l mr : T (Elem V)} {e m : Elem V} {kr : Ctx (Elem V)} {x0 : Nat} (hkr : ∀ f ∈ kr, ∃ c e r, f = .L c e r) (hl : l ≠ leaf) :
    Triple nf (fld e.node 3 (rootA l) ∗ fld e.node 4 (rootK m.node kr) ∗ tr e.node l ∗ cxp e.node m.node kr ∗ fld m.node 2 (upA e.node kr) ∗ fld m.node 3 x0 ∗ fld m.node 4 (rootA mr) ∗ tr m.node mr)
      (detachSucc e.node m.node (rootA mr))
      (fun rp => ⌜rp = upA m.node kr⌝ ∗ fld e.node 3 (rootA l) ∗ fld e.node 4 (rootK m.node kr) ∗ tr m.node l ∗ cxp m.node (rootA mr) kr ∗ fld m.node 2 (upA e.node kr) ∗ fld m.node 3 (rootA l) ∗
        fld m.node 4 (rootK (rootA mr) kr) ∗ tr (upA m.node kr) mr) := by
  unfold detachSucc
  obtain ⟨lc, ll, le, lr, rfl⟩ : ∃ lc ll le lr, l = node lc ll le lr := by
    cases l with
    | leaf => exact absurd rfl hl
    | node lc ll le lr => exact ⟨_, _, _, _, rfl⟩
  simp only [tr_node, nd, rootA_node]
  steps
  cases kr with
  | nil =>
    simp only [rootK_nil, ne_eq, not_true_eq_false, ↓reduceIte, cxp_nil, upA_nil]
    apply Triple.ret
    cancel
  | cons f kr =>
    obtain ⟨c1, e1, r1, rfl⟩ := hkr f (by simp)
    obtain ⟨R, hR⟩ := cxp_parent (x := m.node) (f := .L c1 e1 r1) (k := kr)
    refine Triple.fact (p := m.node ≠ rootK m.node (.L c1 e1 r1 :: kr)) (fun hp hm => ?_) fun hne => ?_
    · rw [hR] at hm
      intro he
      refine loc_ne_of hm (l₁ := (m.node, 2)) (l₂ := (rootK m.node (.L c1 e1 r1 :: kr), 2)) (v₁ := .num (upA e.node (.L c1 e1 r1 :: kr))) (v₂ := .num e.node) (R := _) (by cancel) ?_
      rw [← he]
    simp only [ne_eq, hne, not_false_eq_true, ↓reduceIte]
    rw [hR]
    steps
    refine Triple.pre (P' := cxp m.node m.node (.L c1 e1 r1 :: kr) ∗ (fld e.node 3 le.node ∗ fld e.node 4 (rootK m.node (.L c1 e1 r1 :: kr)) ∗ fld m.node 2 (upA e.node (.L c1 e1 r1 :: kr)) ∗ fld m.node 3 le.node ∗
      fld m.node 4 (rootK m.node (.L c1 e1 r1 :: kr)) ∗ tr m.node mr ∗ fld le.node 1 lc.code ∗ fld le.node 2 m.node ∗ fld le.node 3 (rootA ll) ∗ fld le.node 4 (rootA lr) ∗ elm le ∗ tr le.node ll ∗ tr le.node lr)) (by rw [hR]; cancel) ?_
    simp only [cxp_L, nd, upA_cons, Frame.elem_L]
    steps
    call (adopt_spec (p := m.node) (q := e1.node) (t := mr))
    intro _
    steps
    apply Triple.ret
    simp only [rootK_cons, Frame.elem_L]
    cancel

/-- the part of the tree around the subtree that moves up when the successor of a node takes its place -/
theorem succ_post {h : Nat} {k kr : Ctx (Elem V)} {l mr : T (Elem V)} {c : Color} {m : Elem V} :
    (cx h m.node k ∗ nd m c.code (upA h k) (rootA l) (rootK (rootA mr) kr) ∗ tr m.node l ∗ cxp m.node (rootA mr) kr ∗ tr (upA m.node kr) mr) =
      (cx h (rootA mr) (kr ++ .R c l m :: k) ∗ tr (upA h (kr ++ .R c l m :: k)) mr) := by
  rw [cx_append, upA_append, cx_R, upA_cons, Frame.elem_R]
  ac_rfl

theorem unlinkSucc_spec {a h : Nat} {k kr : Ctx (Elem V)} {l mr : T (Elem V)} {c cm : Color} {e m : Elem V} (hkr : ∀ f ∈ kr, ∃ c e r, f = .L c e r) (hl : l ≠ leaf) :
    Triple nf (fld a 6 h ∗ cx h e.node k ∗ tr (upA h k) (node c l e (plug (node cm leaf m mr) kr))) (unlinkSucc a e.node m.node (rootA mr))
      (fun rp => ⌜rp = upA h (kr ++ .R c l m :: k)⌝ ∗ fld a 6 h ∗ cx h (rootA mr) (kr ++ .R c l m :: k) ∗ tr (upA h (kr ++ .R c l m :: k)) mr ∗
        nd e cm.code (upA h k) (rootA l) (rootK m.node kr)) := by
  unfold unlinkSucc
  rw [tr_node, tr_plug, rootA_plug, rootA_node, tr_node, tr_leaf, nd]
  call (replaceChild_spec (a := a) (h := h) (x := e.node) (y := m.node) (k := k))
  intro _
  simp only [nd]
  call (detachSucc_spec (l := l) (mr := mr) (e := e) (m := m) (kr := kr) (x0 := rootA leaf) hkr hl)
  intro rp
  xintro hrp
  steps
  apply Triple.ret
  have hs := succ_post (h := h) (k := k) (kr := kr) (l := l) (mr := mr) (c := c) (m := m)
  have hu : rp = upA h (kr ++ .R c l m :: k) := by rw [hrp, upA_append, upA_cons, Frame.elem_R]
  refine ent_trans (Q := ⌜rp = upA h (kr ++ .R c l m :: k)⌝ ∗ fld a 6 h ∗ (cx h (rootA mr) (kr ++ .R c l m :: k) ∗ tr (upA h (kr ++ .R c l m :: k)) mr) ∗
        nd e cm.code (upA h k) (rootA l) (rootK m.node kr)) ?_ (by simp only [nd]; cancel)
  rw [← hs]
  refine ent_pure_right hu ?_
  simp only [nd]
  cancel

theorem chooseEraseF_self {c p N : Nat} {l r t : T (Elem V)} {e : Elem V} (ht : (l = leaf ∧ t = r) ∨ (r = leaf ∧ t = l)) :
    Triple nf (nd e c p (rootA l) (rootA r) ∗ tr e.node l ∗ tr e.node r) (chooseEraseF N e.node)
      (fun x => ⌜x = (e.node, rootA t)⌝ ∗ nd e c p (rootA l) (rootA r) ∗ tr e.node l ∗ tr e.node r) := by
  unfold chooseEraseF
  simp only [nd]
  call (hasLeft_spec (x := e.node) (l := rootA l))
  intro b
  xsub
  by_cases hl : l = leaf
  · subst hl
    have : t = r := by rcases ht with ⟨_, h⟩ | ⟨h, h'⟩; exact h; rw [h, h']
    subst this
    simp only [rootA_leaf, bne_self_eq_false, Bool.not_false, ↓reduceIte]
    steps
    apply Triple.ret
    cancel
  · obtain ⟨rfl, rfl⟩ : r = leaf ∧ t = l := by rcases ht with ⟨h, _⟩ | h; exact absurd h hl; exact h
    cases t with
    | leaf => exact absurd rfl hl
    | node tc tl te tr' =>
      rw [tr_node, nd]
      focus_atom fld te.node 1 tc.code
      apply Triple.ne_zero; intro hx
      have hx' : te.node ≠ 0 := hx
      simp only [rootA_node, Bool.not_eq_true', bne_eq_false_iff_eq, hx', ↓reduceIte]
      call (hasRight_spec (x := e.node) (l := rootA leaf))
      intro b
      xsub
      simp only [rootA_leaf, bne_self_eq_false, Bool.not_false, ↓reduceIte]
      steps
      · simpa using hx'
      apply Triple.ret
      cancel

theorem chooseEraseF_succ {c p N : Nat} {l mr : T (Elem V)} {e m : Elem V} {cm : Color} {kr : Ctx (Elem V)} (hl : l ≠ leaf) (hkr : ∀ f ∈ kr, ∃ c e r, f = .L c e r)
    (hN : (plug (node cm leaf m mr) kr).height ≤ N) :
    Triple nf (nd e c p (rootA l) (rootA (plug (node cm leaf m mr) kr)) ∗ tr e.node l ∗ tr e.node (plug (node cm leaf m mr) kr)) (chooseEraseF N e.node)
      (fun x => ⌜x = (m.node, rootA mr)⌝ ∗ nd e c p (rootA l) (rootA (plug (node cm leaf m mr) kr)) ∗ tr e.node l ∗ tr e.node (plug (node cm leaf m mr) kr)) := by
  unfold chooseEraseF
  have hne : plug (node cm leaf m mr) kr ≠ leaf := by
    intro h
    have := toList_plug (t := node cm leaf m mr) (k := kr)
    rw [h] at this
    simp at this
  have hbk : before kr = [] := by
    clear hne hN
    induction kr with
    | nil => rfl
    | cons f kr ih =>
      obtain ⟨c1, e1, r1, rfl⟩ := hkr f (by simp)
      rw [before_L]
      exact ih fun f hf => hkr f (by simp [hf])
  have hfirst : firstN (plug (node cm leaf m mr) kr).toList 0 = m.node := by rw [toList_plug, hbk]; rfl
  have ht2 := tr_plug (p := e.node) (k := kr) (t := node cm leaf m mr)
  generalize plug (node cm leaf m mr) kr = r at *
  obtain ⟨lc, ll, le, lr, rfl⟩ : ∃ lc ll le lr, l = node lc ll le lr := by
    cases l with
    | leaf => exact absurd rfl hl
    | node lc ll le lr => exact ⟨_, _, _, _, rfl⟩
  refine Triple.fact (p := le.node ≠ 0 ∧ rootA r ≠ 0) (fun hp hm => ⟨?_, ?_⟩) ?_
  · exact pts_ne_zero (l := (le.node, 1)) (v := .num lc.code) (R := _) ((show _ ⊢ₛ _ by simp only [tr_node, nd]; cancel) _ hm)
  · cases r with
    | leaf => exact absurd rfl hne
    | node rc rl re rr =>
      exact pts_ne_zero (l := (re.node, 1)) (v := .num rc.code) (R := _) ((show _ ⊢ₛ _ by simp only [tr_node, nd]; cancel) _ hm)
  rintro ⟨h1, h2⟩
  rw [nd]
  call (hasLeft_spec (x := e.node) (l := rootA (node lc ll le lr)))
  intro b
  xsub
  simp only [rootA_node, Bool.not_eq_true', bne_eq_false_iff_eq, h1, ↓reduceIte]
  call (hasRight_spec (x := e.node) (l := rootA r))
  intro b
  xsub
  simp only [Bool.not_eq_true', bne_eq_false_iff_eq, h2, ↓reduceIte]
  step
  call (minimumF_spec (p := e.node) (t := r) (N := N) hN)
  intro x
  xsub
  rw [hfirst, ht2, tr_node (e := m), nd]
  steps
  apply Triple.ret
  cancel

/-- recoloring after a node of color `c` with the single child `t` has been unlinked -/
theorem eraseFinishF_spec {a h p x y n N : Nat}  {k : Ctx (Elem V)} {t l r : T (Elem V)} {c : Color} {e m : Elem V} (hrb : (node c l m r).RB n) (hk : RBC k n) (hN : k.length + 1 ≤ N)
    (hlr : (l = leaf ∧ t = r) ∨ (r = leaf ∧ t = l)) :
    Triple nf (fld a 6 h ∗ cx h (rootA t) k ∗ tr (upA h k) t ∗ nd e c.code p x y)
      (do let b ← isBlack e.node
          if b then do
            let rn ← eraseLoopF N a (rootA t) (upA h k)
            (if rn ≠ 0 then setColor rn BLACK else pure ())
            pure e.node
          else pure e.node)
      (fun z => ⌜z = e.node⌝ ∗ fld a 6 h ∗ fld h 2 (rootA (unlink c t k)) ∗ tr h (unlink c t k) ∗ nd e c.code p x y) := by
  simp only [nd]
  call (isBlackF_spec (x := e.node) (c := c))
  intro b
  xsub
  unfold unlink
  cases c with
  | red =>
    simp only [decide_false, Bool.false_eq_true, ↓reduceIte, reduceCtorEq]
    apply Triple.ret
    cancel
    exact ent_of_eq cx_plug
  | black =>
    simp only [decide_true, ↓reduceIte]
    obtain ⟨n, rfl⟩ : ∃ j, n = j + 1 := by
      cases n with
      | zero => simp at hrb
      | succ j => exact ⟨j, rfl⟩
    have hs : Short t n := by
      simp at hrb
      have ht : t.RB n := by rcases hlr with ⟨_, rfl⟩ | ⟨_, rfl⟩; exact hrb.2; exact hrb.1
      refine ⟨fun _ => ht, fun hc => ?_⟩
      cases t with
      | leaf => simp at hc
      | node c a b d => simp at hc; subst hc; simp at ht ⊢; exact ⟨ht.1, ht.2.1⟩
    call (eraseLoop_spec (a := a) (h := h) (k := k) (t := t) (N := N) hs hk hN)
    intro rn
    unfold LoopPost
    xintro t0
    xintro k0
    xintro hr
    obtain ⟨hr, hp⟩ := hr
    rw [hr]
    call (blackenAt_spec (h := h) (k := k0) (t := t0))
    intro _
    rw [hp]
    apply Triple.ret
    cancel

theorem plug_ne_leaf {c : Color} {l r : T (Elem V)} {e : Elem V} {k : Ctx (Elem V)} : plug (node c l e r) k ≠ leaf := by
  intro h
  have := toList_plug (t := node c l e r) (k := k)
  rw [h] at this
  simp at this

/-- `__rebalance_erase` takes exactly one element out and leaves a tree that obeys the rules; the count is not adjusted yet -/
theorem rebalanceEraseF_spec {a h N : Nat} {g : Cfg} {t : T (Elem V)} {F : HProp V} {X Y : List (Elem V)} {e : Elem V} (ht : t.toList = X ++ e :: Y) (hg : t.Good) (hN : t.height + 1 ≤ N) :
    Triple nf (isShape a h g t ∗ F) (rebalanceEraseF N a e.node)
      (fun x => ∃ₛ t' c p l r, ⌜x = e.node ∧ t'.Good ∧ t'.toList = X ++ Y⌝ ∗ hdr a h g ((X ++ Y).length + 1) (firstN (X ++ Y) h) (lastN (X ++ Y) h) ∗ fld h 2 (rootA t') ∗ tr h t' ∗
        nd e c p l r ∗ F) := by
  refine with_facts fun hf => ?_
  have hnod := hf.nodup
  rw [ht] at hnod
  have hen := (hf.ne e (by rw [ht]; simp)).2.1
  obtain ⟨c, l, r, k, htk, hX, hY⟩ := exists_ctx ht
  have hlen : (X ++ e :: Y).length = (X ++ Y).length + 1 := by simp <;> omega
  have hlh := length_height_le (t := node c l e r) (k := k)
  rw [← htk] at hlh
  simp only [T.height] at hlh
  unfold rebalanceEraseF
  rw [if_neg (by simpa using ⟨hf.a0, hen⟩), isShape, ht, hlen, htk, ← cx_plug]
  rw [htk] at hg
  obtain ⟨n, hrb, hk, htop⟩ := Good.ctx hg
  simp only [rootA_node, tr_node, hdr]
  by_cases hlr : l = leaf ∨ r = leaf
  · -- at most one child
    obtain ⟨t1, ht1⟩ : ∃ t1, (l = leaf ∧ t1 = r) ∨ (r = leaf ∧ t1 = l) := by
      rcases hlr with h | h
      · exact ⟨r, Or.inl ⟨h, rfl⟩⟩
      · exact ⟨l, Or.inr ⟨h, rfl⟩⟩
    have hN1 : t1.height ≤ N := by rcases ht1 with ⟨_, rfl⟩ | ⟨_, rfl⟩ <;> omega
    call (chooseEraseF_self (N := N) (c := c.code) (p := upA h k) (l := l) (r := r) (t := t1) (e := e) ht1)
    intro x
    xsub
    dsimp only
    step
    · simpa using hen
    rw [if_pos rfl]
    have htt : (tr e.node l ∗ tr e.node r) = tr e.node t1 := by
      rcases ht1 with ⟨rfl, rfl⟩ | ⟨rfl, rfl⟩ <;> simp [tr_leaf]
    refine Triple.pre (P' := (fld a 6 h ∗ fld h 3 (firstN (X ++ e :: Y) h) ∗ fld h 4 (lastN (X ++ e :: Y) h) ∗ cx h e.node k ∗ fld e.node 2 (upA h k) ∗ tr e.node t1) ∗
      (fld e.node 1 c.code ∗ fld e.node 3 (rootA l) ∗ fld e.node 4 (rootA r) ∗ elm e) ∗ consts a h g ∗ fld a 7 ((X ++ Y).length + 1) ∗ F) (by rw [← htt]; simp only [nd]; cancel) ?_
    refine Triple.bind (Triple.frame (unlinkSelfF_spec (a := a) (h := h) (k := k) (e := e) hN1 ht1 hX hY hnod)) fun rp => ?_
    simp only [sep_assoc]
    apply Triple.pure_left; intro hrp
    rw [hrp]
    refine Triple.pre (P' := (fld a 6 h ∗ cx h (rootA t1) k ∗ tr (upA h k) t1 ∗ nd e c.code (upA h k) (rootA l) (rootA r)) ∗ fld h 3 (firstN (X ++ Y) h) ∗ fld h 4 (lastN (X ++ Y) h) ∗
      consts a h g ∗ fld a 7 ((X ++ Y).length + 1) ∗ F) (by simp only [nd]; cancel) ?_
    refine Triple.post (Triple.frame (eraseFinishF_spec (nf := nf) (a := a) (h := h) (e := e) hrb hk (by omega) ht1)) fun z => ?_
    rw [sep_assoc]
    refine ent_pure_left fun hz => ?_
    apply ent_ex_right (unlink c t1 k)
    apply ent_ex_right c.code
    apply ent_ex_right (upA h k)
    apply ent_ex_right (rootA l)
    apply ent_ex_right (rootA r)
    refine ent_pure_right ⟨hz, unlink_good hrb hk htop ht1, ?_⟩ ?_
    · rw [toList_unlink, hX, hY]
      rcases ht1 with ⟨rfl, rfl⟩ | ⟨rfl, rfl⟩ <;> simp
    · simp only [nd]
      cancel
  · -- two children
    obtain ⟨hl, hr⟩ := not_or.1 hlr
    obtain ⟨cm, m, mr, kr, hpl, hbef, hrk, hkr⟩ := spine_spec (t := r) (k := .R c l e :: k) hr
    have hg2 : (plug (node cm leaf m mr) (kr ++ .R c l e :: k)).Good := by rw [← hpl]; exact hg
    obtain ⟨n2, hrb2, hk2, htop2⟩ := Good.ctx hg2
    have hk3 := RBC_swap (m := m) hk2
    have htop3 : kr ++ .R c l m :: k = [] ∨ topColor (kr ++ .R c l m :: k) = .red → cm = .black := by
      intro h
      rw [topColor_swap (e := e)] at h
      exact htop2 (h.imp (by simp) id)
    have hbk : before kr = [] := by
      clear hpl hbef hrk hg2 hrb2 hk2 htop2 hk3 htop3
      induction kr with
      | nil => rfl
      | cons f kr ih =>
        obtain ⟨c1, e1, r1, rfl⟩ := hkr f (by simp)
        rw [before_L]
        exact ih fun f hf => hkr f (by simp [hf])
    have hYm : Y = m :: (mr.toList ++ after kr ++ after k) := by
      rw [hY, hrk, toList_plug, hbk]; simp
    have hXne : X ≠ [] := by
      rw [hX]
      cases l with
      | leaf => exact absurd rfl hl
      | node => simp
    have hmne : m.node ≠ e.node := by
      rw [hYm] at hnod
      simp [nodes, List.nodup_append] at hnod
      intro h
      exact hnod.2.1.1.1 h.symm
    have hm0 : m.node ≠ 0 := (hf.ne m (by rw [ht, hYm]; simp)).2.1
    subst hrk
    have hlk := length_height_le (t := node cm leaf m mr) (k := kr)
    simp only [T.height] at hlk
    call (chooseEraseF_succ (N := N) (c := c.code) (p := upA h k) (l := l) (mr := mr) (e := e) (m := m) (cm := cm) hl hkr (by omega))
    intro x
    xsub
    dsimp only
    step
    · simpa using hm0
    rw [if_neg hmne]
    refine Triple.pre (P' := (fld a 6 h ∗ cx h e.node k ∗ tr (upA h k) (node c l e (plug (node cm leaf m mr) kr))) ∗ fld h 3 (firstN (X ++ e :: Y) h) ∗ fld h 4 (lastN (X ++ e :: Y) h) ∗
      consts a h g ∗ fld a 7 ((X ++ Y).length + 1) ∗ F) (by simp only [tr_node]; cancel) ?_
    refine Triple.bind (Triple.frame (unlinkSucc_spec (a := a) (h := h) (k := k) (e := e) hkr hl)) fun rp => ?_
    simp only [sep_assoc]
    apply Triple.pure_left; intro hrp
    rw [hrp]
    refine Triple.pre (P' := (fld a 6 h ∗ cx h (rootA mr) (kr ++ .R c l m :: k) ∗ tr (upA h (kr ++ .R c l m :: k)) mr ∗ nd e cm.code (upA h k) (rootA l) (rootK m.node kr)) ∗
      fld h 3 (firstN (X ++ e :: Y) h) ∗ fld h 4 (lastN (X ++ e :: Y) h) ∗ consts a h g ∗ fld a 7 ((X ++ Y).length + 1) ∗ F) (by simp only [nd]; cancel) ?_
    refine Triple.post (Triple.frame (eraseFinishF_spec (nf := nf) (a := a) (h := h) (e := e) (l := leaf) (r := mr) (m := m) hrb2 hk3 (by simp only [List.length_append, List.length_cons]; omega) (Or.inl ⟨rfl, rfl⟩))) fun z => ?_
    rw [sep_assoc]
    refine ent_pure_left fun hz => ?_
    apply ent_ex_right (unlink cm mr (kr ++ .R c l m :: k))
    apply ent_ex_right cm.code
    apply ent_ex_right (upA h k)
    apply ent_ex_right (rootA l)
    apply ent_ex_right (rootK m.node kr)
    refine ent_pure_right ⟨hz, unlink_good hrb2 hk3 htop3 (Or.inl ⟨rfl, rfl⟩), ?_⟩ ?_
    · rw [toList_unlink, hYm, hX]
      have hb2 : ∀ kr' : Ctx (Elem V), before (kr' ++ .R c l m :: k) = before k ++ l.toList ++ [m] ++ before kr' ∧ after (kr' ++ .R c l m :: k) = after kr' ++ after k := by
        intro kr'
        induction kr' with
        | nil => simp
        | cons f kr' ih => cases f <;> simp [ih.1, ih.2]
      rw [(hb2 kr).1, (hb2 kr).2, hbk]
      simp
    · have h1 : firstN (X ++ e :: Y) h = firstN (X ++ Y) h := by rw [firstN_any (h' := h) hXne, firstN_any (h' := h) hXne]
      have hYne : Y ≠ [] := by rw [hYm]; simp
      have h2 : lastN (X ++ e :: Y) h = lastN (X ++ Y) h := by
        have : X ++ e :: Y = (X ++ [e]) ++ Y := by simp
        rw [this, lastN_any (h' := h) hYne, lastN_any (h' := h) hYne]
      rw [h1, h2]
      simp only [nd]
      cancel

end CC.Tree
