import Verif.Tree.Ins
import Verif.Tree.Peek
/-!
# `__rebalance_erase`: the loop
-/
namespace CC.Tree
open CC CC.Tac T
open CC.CList (Elem nodes vals firstN lastN)
variable {V : Type} {nf : Prop}

theorem hasLeft_spec {x l : Nat} : Triple (V := V) nf (fld x 3 l) (hasLeft x) (fun b => ⌜b = (l != 0)⌝ ∗ fld x 3 l) := by
  rw [← sep_emp (fld x 3 l)]
  apply Triple.ne_zero; intro hx
  unfold hasLeft
  rw [if_neg hx]
  steps
  apply Triple.ret
  cancel
theorem hasRight_spec {x l : Nat} : Triple (V := V) nf (fld x 4 l) (hasRight x) (fun b => ⌜b = (l != 0)⌝ ∗ fld x 4 l) := by
  rw [← sep_emp (fld x 4 l)]
  apply Triple.ne_zero; intro hx
  unfold hasRight
  rw [if_neg hx]
  steps
  apply Triple.ret
  cancel

theorem blackLeft_spec {s : Nat} {t : T (Elem V)} : Triple nf (fld s 3 (rootA t) ∗ tr s t) (blackLeft s) (fun b => ⌜b = decide (t.color = .black)⌝ ∗ fld s 3 (rootA t) ∗ tr s t) := by
  unfold blackLeft
  call (hasLeft_spec (x := s) (l := rootA t))
  intro b
  xsub
  cases t with
  | leaf =>
    simp only [rootA_leaf, bne_self_eq_false, Bool.not_false, ↓reduceIte]
    apply Triple.ret
    cancel
  | node c l e r =>
    rw [tr_node, nd]
    focus_atom fld e.node 1 c.code
    apply Triple.ne_zero; intro hx
    have hx' : e.node ≠ 0 := hx
    simp only [rootA_node, bne_iff_ne, ne_eq, hx', not_false_eq_true, Bool.not_eq_true', bne_eq_false_iff_eq, ↓reduceIte]
    step
    rw [← bind_pure (isBlack _)]
    call (isBlackF_spec (x := e.node) (c := c))
    intro b
    xsub
    apply Triple.ret
    cancel
theorem blackRight_spec {s : Nat} {t : T (Elem V)} : Triple nf (fld s 4 (rootA t) ∗ tr s t) (blackRight s) (fun b => ⌜b = decide (t.color = .black)⌝ ∗ fld s 4 (rootA t) ∗ tr s t) := by
  unfold blackRight
  call (hasRight_spec (x := s) (l := rootA t))
  intro b
  xsub
  cases t with
  | leaf =>
    simp only [rootA_leaf, bne_self_eq_false, Bool.not_false, ↓reduceIte]
    apply Triple.ret
    cancel
  | node c l e r =>
    rw [tr_node, nd]
    focus_atom fld e.node 1 c.code
    apply Triple.ne_zero; intro hx
    have hx' : e.node ≠ 0 := hx
    simp only [rootA_node, bne_iff_ne, ne_eq, hx', not_false_eq_true, Bool.not_eq_true', bne_eq_false_iff_eq, ↓reduceIte]
    step
    rw [← bind_pure (isBlack _)]
    call (isBlackF_spec (x := e.node) (c := c))
    intro b
    xsub
    apply Triple.ret
    cancel

theorem bothBlack_spec {s : Nat} {l r : T (Elem V)} : Triple nf (fld s 3 (rootA l) ∗ fld s 4 (rootA r) ∗ tr s l ∗ tr s r) (bothBlack s)
    (fun b => ⌜b = decide (l.color = .black ∧ r.color = .black)⌝ ∗ fld s 3 (rootA l) ∗ fld s 4 (rootA r) ∗ tr s l ∗ tr s r) := by
  unfold bothBlack
  call (blackLeft_spec (s := s) (t := l))
  intro b
  xsub
  by_cases h : l.color = .black
  · simp only [h, decide_true, ↓reduceIte, true_and]
    rw [← bind_pure (blackRight _)]
    call (blackRight_spec (s := s) (t := r))
    intro b
    xsub
    apply Triple.ret
    cancel
  · simp only [h, decide_false, Bool.false_eq_true, ↓reduceIte, false_and]
    apply Triple.ret
    cancel

theorem delInnerL_spec {a h : Nat} {K : Ctx (Elem V)} {cp : Color} {t sn sf : T (Elem V)} {e se : Elem V} (hb : ¬ (sn.color = .black ∧ sf.color = .black)) :
    Triple nf (fld a 6 h ∗ cx h e.node K ∗ tr (upA h K) (node cp t e (node .black sn se sf))) (delInnerL a e.node se.node)
      (fun r => ∃ₛ A s' B x C, ⌜r = s'.node ∧ (delL cp t e sn se sf).1 = (node cp (node .black t e A) s' (node .black B x C))⌝ ∗
        fld a 6 h ∗ cx h e.node K ∗ tr (upA h K) (node cp t e (node .black A s' (node .red B x C)))) := by
  unfold delInnerL
  refine Triple.pre (P' := (fld se.node 4 (rootA sf) ∗ tr se.node sf) ∗ fld a 6 h ∗ cx h e.node K ∗ (fld e.node 1 cp.code ∗ fld e.node 2 (upA h K) ∗ fld e.node 3 (rootA t) ∗
    fld e.node 4 se.node ∗ elm e) ∗ tr e.node t ∗ (fld se.node 1 1 ∗ fld se.node 2 e.node ∗ fld se.node 3 (rootA sn) ∗ elm se) ∗ tr se.node sn) (by simp only [cx_L, cx_R, tr_node, nd, rootA_node, upA_cons, Frame.elem_L, Frame.elem_R, code_red, code_black]; cancel) ?_
  call (blackRight_spec (s := se.node) (t := sf))
  intro b
  xsub
  by_cases h2 : sf.color = .black
  · simp only [h2, decide_true, ↓reduceIte]
    obtain ⟨A, x, B, rfl⟩ := red_of_not_black (t := sn) (fun h => hb ⟨h, h2⟩)
    simp only [tr_node, nd, rootA_node]
    focus_atom fld x.node 1 Color.red.code
    apply Triple.ne_zero; intro hx
    call (hasLeft_spec (x := se.node) (l := x.node))
    intro b
    xsub
    have hx' : x.node ≠ 0 := hx
    simp only [bne_iff_ne, ne_eq, hx', not_false_eq_true, ↓reduceIte]
    steps
    refine Triple.pre (P' := fld a 6 h ∗ cx h se.node (.R cp t e :: K) ∗ tr (upA h (.R cp t e :: K)) (node .red (node .black A x B) se sf)) (by simp only [cx_L, cx_R, tr_node, nd, rootA_node, upA_cons, Frame.elem_L, Frame.elem_R, code_red, code_black]; cancel) ?_
    call (root_spec (a := a) (h := h) (x := se.node) (k := .R cp t e :: K))
    intro rt
    xextract
    intro hrt
    call (rotateRight_spec (h := h) (k := .R cp t e :: K) hrt)
    intro _
    simp only [cx_L, cx_R, nd]
    steps
    apply Triple.ret
    xexists A, x, B, se, sf
    simp only [delL, h2, color_node, reduceCtorEq, and_true, and_false, false_and, true_and, ↓reduceIte]
    simp only [cx_L, cx_R, tr_node, nd, rootA_node, upA_cons, Frame.elem_L, Frame.elem_R, code_red, code_black]
    cancel
    all_goals exact ⟨rfl, rfl⟩
  · simp only [h2, decide_false, Bool.false_eq_true, ↓reduceIte]
    obtain ⟨A, x, B, rfl⟩ := red_of_not_black h2
    apply Triple.ret
    xexists sn, se, A, x, B
    simp only [delL, h2, and_false, false_and, ↓reduceIte, blacken_node]
    simp only [cx_L, cx_R, tr_node, nd, rootA_node, upA_cons, Frame.elem_L, Frame.elem_R, code_red, code_black]
    cancel
    all_goals exact ⟨rfl, rfl⟩

theorem delFinishL_spec {a h : Nat} {K : Ctx (Elem V)} {cp : Color} {t sn sf : T (Elem V)} {e se : Elem V} (hb : ¬ (sn.color = .black ∧ sf.color = .black)) :
    Triple nf (fld a 6 h ∗ cx h e.node K ∗ tr (upA h K) (node cp t e (node .black sn se sf))) (delFinishL a e.node se.node)
      (fun _ => fld a 6 h ∗ cx h (rootA (delL cp t e sn se sf).1) K ∗ tr (upA h K) (delL cp t e sn se sf).1) := by
  unfold delFinishL
  call (delInnerL_spec (a := a) (h := h) (K := K) (cp := cp) (t := t) (e := e) (se := se) hb)
  intro r
  xintro A s' B x C ⟨hr, hd⟩
  rw [hr]
  simp only [cx_L, cx_R, tr_node, nd, rootA_node, upA_cons, Frame.elem_L, Frame.elem_R, code_red, code_black]
  steps
  focus_atom fld x.node 1 0
  apply Triple.ne_zero; intro hx
  call (hasRight_spec (x := s'.node) (l := x.node))
  intro b
  xsub
  have hx' : x.node ≠ 0 := hx
  simp only [bne_iff_ne, ne_eq, hx', not_false_eq_true, ↓reduceIte]
  steps
  refine Triple.pre (P' := fld a 6 h ∗ cx h e.node K ∗ tr (upA h K) (node .black t e (node cp A s' (node .black B x C)))) (by simp only [cx_L, cx_R, tr_node, nd, rootA_node, upA_cons, Frame.elem_L, Frame.elem_R, code_red, code_black]; cancel) ?_
  call (root_spec (a := a) (h := h) (x := e.node) (k := K))
  intro rt
  xextract
  intro hrt
  rw [hd]
  rw [← bind_pure (rotateLeft _ _)]
  call (rotateLeft_spec (h := h) (k := K) hrt)
  intro _
  apply Triple.ret
  rw [rootA_node]
  cancel

theorem delInnerR_spec {a h : Nat} {K : Ctx (Elem V)} {cp : Color} {t sn sf : T (Elem V)} {e se : Elem V} (hb : ¬ (sn.color = .black ∧ sf.color = .black)) :
    Triple nf (fld a 6 h ∗ cx h e.node K ∗ tr (upA h K) (node cp (node .black sf se sn) e t)) (delInnerR a e.node se.node)
      (fun r => ∃ₛ A s' B x C, ⌜r = s'.node ∧ (delR cp sf se sn e t).1 = (node cp (node .black C x B) s' (node .black A e t))⌝ ∗
        fld a 6 h ∗ cx h e.node K ∗ tr (upA h K) (node cp (node .black (node .red C x B) s' A) e t)) := by
  unfold delInnerR
  refine Triple.pre (P' := (fld se.node 3 (rootA sf) ∗ tr se.node sf) ∗ fld a 6 h ∗ cx h e.node K ∗ (fld e.node 1 cp.code ∗ fld e.node 2 (upA h K) ∗ fld e.node 4 (rootA t) ∗
    fld e.node 3 se.node ∗ elm e) ∗ tr e.node t ∗ (fld se.node 1 1 ∗ fld se.node 2 e.node ∗ fld se.node 4 (rootA sn) ∗ elm se) ∗ tr se.node sn) (by simp only [cx_L, cx_R, tr_node, nd, rootA_node, upA_cons, Frame.elem_L, Frame.elem_R, code_red, code_black]; cancel) ?_
  call (blackLeft_spec (s := se.node) (t := sf))
  intro b
  xsub
  by_cases h2 : sf.color = .black
  · simp only [h2, decide_true, ↓reduceIte]
    obtain ⟨A, x, B, rfl⟩ := red_of_not_black (t := sn) (fun h => hb ⟨h, h2⟩)
    simp only [tr_node, nd, rootA_node]
    focus_atom fld x.node 1 Color.red.code
    apply Triple.ne_zero; intro hx
    call (hasRight_spec (x := se.node) (l := x.node))
    intro b
    xsub
    have hx' : x.node ≠ 0 := hx
    simp only [bne_iff_ne, ne_eq, hx', not_false_eq_true, ↓reduceIte]
    steps
    refine Triple.pre (P' := fld a 6 h ∗ cx h se.node (.L cp e t :: K) ∗ tr (upA h (.L cp e t :: K)) (node .red sf se (node .black A x B))) (by simp only [cx_L, cx_R, tr_node, nd, rootA_node, upA_cons, Frame.elem_L, Frame.elem_R, code_red, code_black]; cancel) ?_
    call (root_spec (a := a) (h := h) (x := se.node) (k := .L cp e t :: K))
    intro rt
    xextract
    intro hrt
    call (rotateLeft_spec (h := h) (k := .L cp e t :: K) hrt)
    intro _
    simp only [cx_L, cx_R, nd]
    steps
    apply Triple.ret
    xexists B, x, A, se, sf
    simp only [delR, h2, color_node, reduceCtorEq, and_true, and_false, false_and, true_and, ↓reduceIte]
    simp only [cx_L, cx_R, tr_node, nd, rootA_node, upA_cons, Frame.elem_L, Frame.elem_R, code_red, code_black]
    cancel
    all_goals exact ⟨rfl, rfl⟩
  · simp only [h2, decide_false, Bool.false_eq_true, ↓reduceIte]
    obtain ⟨A, x, B, rfl⟩ := red_of_not_black h2
    apply Triple.ret
    xexists sn, se, B, x, A
    simp only [delR, h2, and_false, false_and, ↓reduceIte, blacken_node]
    simp only [cx_L, cx_R, tr_node, nd, rootA_node, upA_cons, Frame.elem_L, Frame.elem_R, code_red, code_black]
    cancel
    all_goals exact ⟨rfl, rfl⟩

theorem delFinishR_spec {a h : Nat} {K : Ctx (Elem V)} {cp : Color} {t sn sf : T (Elem V)} {e se : Elem V} (hb : ¬ (sn.color = .black ∧ sf.color = .black)) :
    Triple nf (fld a 6 h ∗ cx h e.node K ∗ tr (upA h K) (node cp (node .black sf se sn) e t)) (delFinishR a e.node se.node)
      (fun _ => fld a 6 h ∗ cx h (rootA (delR cp sf se sn e t).1) K ∗ tr (upA h K) (delR cp sf se sn e t).1) := by
  unfold delFinishR
  call (delInnerR_spec (a := a) (h := h) (K := K) (cp := cp) (t := t) (e := e) (se := se) hb)
  intro r
  xintro A s' B x C ⟨hr, hd⟩
  rw [hr]
  simp only [cx_L, cx_R, tr_node, nd, rootA_node, upA_cons, Frame.elem_L, Frame.elem_R, code_red, code_black]
  steps
  focus_atom fld x.node 1 0
  apply Triple.ne_zero; intro hx
  call (hasLeft_spec (x := s'.node) (l := x.node))
  intro b
  xsub
  have hx' : x.node ≠ 0 := hx
  simp only [bne_iff_ne, ne_eq, hx', not_false_eq_true, ↓reduceIte]
  steps
  refine Triple.pre (P' := fld a 6 h ∗ cx h e.node K ∗ tr (upA h K) (node .black (node cp (node .black C x B) s' A) e t)) (by simp only [cx_L, cx_R, tr_node, nd, rootA_node, upA_cons, Frame.elem_L, Frame.elem_R, code_red, code_black]; cancel) ?_
  call (root_spec (a := a) (h := h) (x := e.node) (k := K))
  intro rt
  xextract
  intro hrt
  rw [hd]
  rw [← bind_pure (rotateRight _ _)]
  call (rotateRight_spec (h := h) (k := K) hrt)
  intro _
  apply Triple.ret
  rw [rootA_node]
  cancel

theorem cx_ne_zero {h x : Nat} {k : Ctx (Elem V)} {R : HProp V} {m : Heap V} (hh : (cx h x k ∗ R) m) : ∀ f ∈ k, f.elem.node ≠ 0 := by
  induction k generalizing x R with
  | nil => simp
  | cons f k ih =>
    intro g hg
    cases f with
    | L c e r =>
      rw [cx_L] at hh
      rcases List.mem_cons.1 hg with rfl | hg
      · rw [nd] at hh
        exact pts_ne_zero (l := (e.node, 1)) (v := .num c.code) (R := _) ((show _ ⊢ₛ _ by cancel) _ hh)
      · exact ih (x := e.node) (R := nd e c.code (upA h k) x (rootA r) ∗ tr e.node r ∗ R) ((show _ ⊢ₛ _ by cancel) _ hh) g hg
    | R c l e =>
      rw [cx_R] at hh
      rcases List.mem_cons.1 hg with rfl | hg
      · rw [nd] at hh
        exact pts_ne_zero (l := (e.node, 1)) (v := .num c.code) (R := _) ((show _ ⊢ₛ _ by cancel) _ hh)
      · exact ih (x := e.node) (R := nd e c.code (upA h k) (rootA l) x ∗ tr e.node l ∗ R) ((show _ ⊢ₛ _ by cancel) _ hh) g hg

theorem cx_root_ne_zero {h x : Nat} {f : Frame (Elem V)} {k : Ctx (Elem V)} {R : HProp V} {m : Heap V} (hh : (cx h x (f :: k) ∗ R) m) : rootK x (f :: k) ≠ 0 := by
  obtain ⟨g, hg, he⟩ := rootK_mem (x := x) (f := f) (k := k)
  rw [he]
  exact cx_ne_zero hh g hg

/-- `if (replace_node) replace_node->color = black`, c_tree.c:554-556 -/
theorem blackenAt_spec {h : Nat} {k : Ctx (Elem V)} {t : T (Elem V)} :
    Triple nf (fld h 2 (rootA (plug t k)) ∗ tr h (plug t k)) (if rootA t ≠ 0 then setColor (rootA t) BLACK else pure ())
      (fun _ => fld h 2 (rootA (plug t.blacken k)) ∗ tr h (plug t.blacken k)) := by
  rw [← cx_plug, ← cx_plug]
  cases t with
  | leaf =>
    simp only [rootA_leaf, ne_eq, not_true_eq_false, ↓reduceIte, blacken_leaf]
    apply Triple.ret
    cancel
  | node c l e r =>
    simp only [rootA_node, tr_node, nd, blacken_node]
    focus_atom fld e.node 1 c.code
    apply Triple.ne_zero; intro hx
    have hx' : e.node ≠ 0 := hx
    simp only [ne_eq, hx', not_false_eq_true, ↓reduceIte]
    steps
    apply Triple.ret
    simp only [code_black]
    cancel

theorem eraseLoop_exit {a h N : Nat} (hN : 1 ≤ N) {k : Ctx (Elem V)} {t : T (Elem V)} (hc : k = [] ∨ t.color = .red) :
    Triple nf (fld a 6 h ∗ cx h (rootA t) k ∗ tr (upA h k) t) (eraseLoopF N a (rootA t) (upA h k)) (fun r => ⌜r = rootA t⌝ ∗ fld a 6 h ∗ cx h (rootA t) k ∗ tr (upA h k) t) := by
  obtain ⟨N, rfl⟩ : ∃ N', N = N' + 1 := ⟨N - 1, by omega⟩
  rw [eraseLoopF]
  call (root_spec (a := a) (h := h) (x := rootA t) (k := k))
  intro rt
  xsub
  apply Triple.ite
  · intro _
    apply Triple.ret
    cancel
  intro hne
  have hc := hc.resolve_left (by rintro rfl; exact hne rfl)
  call (isBlack_spec (p := upA h k) (t := t))
  intro b
  xsub
  simp only [hc, reduceCtorEq, decide_false, Bool.not_false, ↓reduceIte]
  apply Triple.ret
  cancel

theorem delL_sub {cp : Color} {t sl sr : T (Elem V)} {e se : Elem V} (h : ¬ (sl.color = .black ∧ sr.color = .black)) : ∃ k, (delL cp t e sl se sr).1 = plug t k ∧ (delL cp t e sl se sr).2 = false := by
  unfold delL
  rw [if_neg h]
  by_cases h2 : sr.color = .black
  · rw [if_pos h2]
    obtain ⟨a, b, c, rfl⟩ := red_of_not_black (fun h1 => h ⟨h1, h2⟩)
    exact ⟨[.L .black e a, .L cp b (node .black c se sr)], rfl, rfl⟩
  · rw [if_neg h2]
    exact ⟨[.L .black e sl, .L cp se sr.blacken], rfl, rfl⟩
theorem delR_sub {cp : Color} {t sl sr : T (Elem V)} {e se : Elem V} (h : ¬ (sl.color = .black ∧ sr.color = .black)) : ∃ k, (delR cp sl se sr e t).1 = plug t k ∧ (delR cp sl se sr e t).2 = false := by
  unfold delR
  rw [if_neg h]
  by_cases h2 : sl.color = .black
  · rw [if_pos h2]
    obtain ⟨a, b, c, rfl⟩ := red_of_not_black (fun h1 => h ⟨h2, h1⟩)
    exact ⟨[.R .black c e, .R cp (node .black sl se a) b], rfl, rfl⟩
  · rw [if_neg h2]
    exact ⟨[.R .black sr e, .R cp sl.blacken se], rfl, rfl⟩
theorem delL_both {cp : Color} {t sl sr : T (Elem V)} {e se : Elem V} (h : sl.color = .black ∧ sr.color = .black) : delL cp t e sl se sr = (node cp t e (node .red sl se sr), true) := by
  unfold delL; rw [if_pos h]
theorem delR_both {cp : Color} {t sl sr : T (Elem V)} {e se : Elem V} (h : sl.color = .black ∧ sr.color = .black) : delR cp sl se sr e t = (node cp (node .red sl se sr) e t, true) := by
  unfold delR; rw [if_pos h]

/-- how the loop leaves the tree: the result is the root of a subtree that still has to be made black -/
def LoopPost (a h : Nat) (t : T (Elem V)) (r : Nat) : HProp V :=
  ∃ₛ t0 k0, ⌜r = rootA t0 ∧ plug t0.blacken k0 = t⌝ ∗ fld a 6 h ∗ fld h 2 (rootA (plug t0 k0)) ∗ tr h (plug t0 k0)

/-- the black height a parent of color `c` lacks -/
def dn : Color → Nat → Nat
  | .red, n => n
  | .black, n => n + 1

theorem short_up {cp : Color} {s : T (Elem V)} {n : Nat} (hs : s.color = cp) (hb : s.blacken.RB (n+1)) : Short s (dn cp n) := by
  cases cp with
  | red => exact ⟨fun h => (by rw [hs] at h; cases h), fun _ => hb⟩
  | black =>
    rw [blacken_eq hs] at hb
    exact ⟨fun _ => hb, fun h => (by rw [hs] at h; cases h)⟩

/-- one round with a black sibling: done, or on to the parent -/
theorem delStepL {a h N : Nat} {K : Ctx (Elem V)} {cp : Color} {t sn sf tt : T (Elem V)} {e se : Elem V} (htc : t.color = .black)
    (hdone : ¬ (sn.color = .black ∧ sf.color = .black) → tt = plug (delL cp t e sn se sf).1 K)
    (hup : (sn.color = .black ∧ sf.color = .black) → Triple nf (fld a 6 h ∗ cx h e.node K ∗ tr (upA h K) (node cp t e (node .red sn se sf))) (eraseLoopF N a e.node (upA h K)) (LoopPost a h tt)) :
    Triple nf (fld a 6 h ∗ cx h e.node K ∗ tr (upA h K) (node cp t e (node .black sn se sf)))
      (do let b ← bothBlack se.node
          if b then do
            setColor se.node RED
            let p ← parent e.node
            eraseLoopF N a e.node p
          else do
            delFinishL a e.node se.node
            pure (rootA t)) (LoopPost a h tt) := by
  refine Triple.pre (P' := (fld se.node 3 (rootA sn) ∗ fld se.node 4 (rootA sf) ∗ tr se.node sn ∗ tr se.node sf) ∗ fld a 6 h ∗ cx h e.node K ∗
    (fld e.node 1 cp.code ∗ fld e.node 2 (upA h K) ∗ fld e.node 3 (rootA t) ∗ fld e.node 4 se.node ∗ elm e) ∗ tr e.node t ∗ (fld se.node 1 1 ∗ fld se.node 2 e.node ∗ elm se)) (by simp only [cx_L, cx_R, tr_node, nd, rootA_node, upA_cons, Frame.elem_L, Frame.elem_R, code_red, code_black]; cancel) ?_
  call (bothBlack_spec (s := se.node) (l := sn) (r := sf))
  intro b
  xsub
  by_cases hb : sn.color = .black ∧ sf.color = .black
  · simp only [hb, and_self, decide_true, ↓reduceIte]
    steps
    refine Triple.pre ?_ (hup hb)
    simp only [cx_L, cx_R, tr_node, nd, rootA_node, upA_cons, Frame.elem_L, Frame.elem_R, code_red, code_black]
    cancel
  · simp only [hb, decide_false, Bool.false_eq_true, ↓reduceIte]
    refine Triple.pre (P' := fld a 6 h ∗ cx h e.node K ∗ tr (upA h K) (node cp t e (node .black sn se sf))) (by simp only [cx_L, cx_R, tr_node, nd, rootA_node, upA_cons, Frame.elem_L, Frame.elem_R, code_red, code_black]; cancel) ?_
    refine Triple.bind (delFinishL_spec hb) fun _ => ?_
    apply Triple.ret
    obtain ⟨k', hk', _⟩ := delL_sub (cp := cp) (t := t) (e := e) (se := se) hb
    unfold LoopPost
    apply ent_ex_right t
    apply ent_ex_right (k' ++ K)
    rw [hdone hb, blacken_eq htc, plug_append, ← hk', cx_plug]
    exact ent_pure_right ⟨rfl, rfl⟩ (by cancel)

/-- a red sibling is rotated away -/
theorem delTurnL_red {a h : Nat} {K : Ctx (Elem V)} {cp : Color} {t sn sf : T (Elem V)} {e se : Elem V} (hsn : sn ≠ leaf) :
    Triple nf (fld a 6 h ∗ cx h e.node K ∗ tr (upA h K) (node cp t e (node .red sn se sf))) (delTurnL a e.node se.node)
      (fun r => ⌜r = rootA sn⌝ ∗ fld a 6 h ∗ cx h e.node (.L .black se sf :: K) ∗ tr (upA h (.L .black se sf :: K)) (node .red t e sn)) := by
  unfold delTurnL
  simp only [tr_node, nd]
  call (isRedF_spec (x := se.node) (c := .red))
  intro b
  xsub
  simp only [decide_true, ↓reduceIte]
  steps
  refine Triple.pre (P' := fld a 6 h ∗ cx h e.node K ∗ tr (upA h K) (node .red t e (node .black sn se sf))) (by simp only [cx_L, cx_R, tr_node, nd, rootA_node, upA_cons, Frame.elem_L, Frame.elem_R, code_red, code_black]; cancel) ?_
  call (root_spec (a := a) (h := h) (x := e.node) (k := K))
  intro rt
  xextract
  intro hrt
  call (rotateLeft_spec (h := h) (k := K) hrt)
  intro _
  simp only [tr_node, nd, rootA_node]
  steps
  apply Triple.ret
  simp only [cx_L, cx_R, tr_node, nd, rootA_node, upA_cons, Frame.elem_L, Frame.elem_R, code_red, code_black]
  cancel

theorem delTurnL_black {a h : Nat} {K : Ctx (Elem V)} {cp : Color} {t sn sf : T (Elem V)} {e se : Elem V} :
    Triple nf (fld a 6 h ∗ cx h e.node K ∗ tr (upA h K) (node cp t e (node .black sn se sf))) (delTurnL a e.node se.node)
      (fun r => ⌜r = se.node⌝ ∗ fld a 6 h ∗ cx h e.node K ∗ tr (upA h K) (node cp t e (node .black sn se sf))) := by
  unfold delTurnL
  simp only [tr_node, nd]
  call (isRedF_spec (x := se.node) (c := .black))
  intro b
  xsub
  simp only [reduceCtorEq, decide_false, Bool.false_eq_true, ↓reduceIte]
  apply Triple.ret
  cancel

/-- one round with a black sibling: done, or on to the parent -/
theorem delStepR {a h N : Nat} {K : Ctx (Elem V)} {cp : Color} {t sn sf tt : T (Elem V)} {e se : Elem V} (htc : t.color = .black)
    (hdone : ¬ (sf.color = .black ∧ sn.color = .black) → tt = plug (delR cp sf se sn e t).1 K)
    (hup : (sf.color = .black ∧ sn.color = .black) → Triple nf (fld a 6 h ∗ cx h e.node K ∗ tr (upA h K) (node cp (node .red sf se sn) e t)) (eraseLoopF N a e.node (upA h K)) (LoopPost a h tt)) :
    Triple nf (fld a 6 h ∗ cx h e.node K ∗ tr (upA h K) (node cp (node .black sf se sn) e t))
      (do let b ← bothBlack se.node
          if b then do
            setColor se.node RED
            let p ← parent e.node
            eraseLoopF N a e.node p
          else do
            delFinishR a e.node se.node
            pure (rootA t)) (LoopPost a h tt) := by
  refine Triple.pre (P' := (fld se.node 3 (rootA sf) ∗ fld se.node 4 (rootA sn) ∗ tr se.node sf ∗ tr se.node sn) ∗ fld a 6 h ∗ cx h e.node K ∗
    (fld e.node 1 cp.code ∗ fld e.node 2 (upA h K) ∗ fld e.node 4 (rootA t) ∗ fld e.node 3 se.node ∗ elm e) ∗ tr e.node t ∗ (fld se.node 1 1 ∗ fld se.node 2 e.node ∗ elm se)) (by simp only [cx_L, cx_R, tr_node, nd, rootA_node, upA_cons, Frame.elem_L, Frame.elem_R, code_red, code_black]; cancel) ?_
  call (bothBlack_spec (s := se.node) (l := sf) (r := sn))
  intro b
  xsub
  by_cases hb : sf.color = .black ∧ sn.color = .black
  · simp only [hb, and_self, decide_true, ↓reduceIte]
    steps
    refine Triple.pre ?_ (hup hb)
    simp only [cx_L, cx_R, tr_node, nd, rootA_node, upA_cons, Frame.elem_L, Frame.elem_R, code_red, code_black]
    cancel
  · simp only [hb, decide_false, Bool.false_eq_true, ↓reduceIte]
    refine Triple.pre (P' := fld a 6 h ∗ cx h e.node K ∗ tr (upA h K) (node cp (node .black sf se sn) e t)) (by simp only [cx_L, cx_R, tr_node, nd, rootA_node, upA_cons, Frame.elem_L, Frame.elem_R, code_red, code_black]; cancel) ?_
    refine Triple.bind (delFinishR_spec (fun h => hb ⟨h.2, h.1⟩)) fun _ => ?_
    apply Triple.ret
    obtain ⟨k', hk', _⟩ := delR_sub (cp := cp) (t := t) (e := e) (se := se) hb
    unfold LoopPost
    apply ent_ex_right t
    apply ent_ex_right (k' ++ K)
    rw [hdone hb, blacken_eq htc, plug_append, ← hk', cx_plug]
    exact ent_pure_right ⟨rfl, rfl⟩ (by cancel)

/-- a red sibling is rotated away -/
theorem delTurnR_red {a h : Nat} {K : Ctx (Elem V)} {cp : Color} {t sn sf : T (Elem V)} {e se : Elem V} (hsn : sn ≠ leaf) :
    Triple nf (fld a 6 h ∗ cx h e.node K ∗ tr (upA h K) (node cp (node .red sf se sn) e t)) (delTurnR a e.node se.node)
      (fun r => ⌜r = rootA sn⌝ ∗ fld a 6 h ∗ cx h e.node (.R .black sf se :: K) ∗ tr (upA h (.R .black sf se :: K)) (node .red sn e t)) := by
  unfold delTurnR
  simp only [tr_node, nd]
  call (isRedF_spec (x := se.node) (c := .red))
  intro b
  xsub
  simp only [decide_true, ↓reduceIte]
  steps
  refine Triple.pre (P' := fld a 6 h ∗ cx h e.node K ∗ tr (upA h K) (node .red (node .black sf se sn) e t)) (by simp only [cx_L, cx_R, tr_node, nd, rootA_node, upA_cons, Frame.elem_L, Frame.elem_R, code_red, code_black]; cancel) ?_
  call (root_spec (a := a) (h := h) (x := e.node) (k := K))
  intro rt
  xextract
  intro hrt
  call (rotateRight_spec (h := h) (k := K) hrt)
  intro _
  simp only [tr_node, nd, rootA_node]
  steps
  apply Triple.ret
  simp only [cx_L, cx_R, tr_node, nd, rootA_node, upA_cons, Frame.elem_L, Frame.elem_R, code_red, code_black]
  cancel

theorem delTurnR_black {a h : Nat} {K : Ctx (Elem V)} {cp : Color} {t sn sf : T (Elem V)} {e se : Elem V} :
    Triple nf (fld a 6 h ∗ cx h e.node K ∗ tr (upA h K) (node cp (node .black sf se sn) e t)) (delTurnR a e.node se.node)
      (fun r => ⌜r = se.node⌝ ∗ fld a 6 h ∗ cx h e.node K ∗ tr (upA h K) (node cp (node .black sf se sn) e t)) := by
  unfold delTurnR
  simp only [tr_node, nd]
  call (isRedF_spec (x := se.node) (c := .black))
  intro b
  xsub
  simp only [reduceCtorEq, decide_false, Bool.false_eq_true, ↓reduceIte]
  apply Triple.ret
  cancel

theorem eraseLoop_spec {a h N : Nat} {k : Ctx (Elem V)} {t : T (Elem V)} {n : Nat} (ht : Short t n) (hk : RBC k (n+1)) (hN : k.length + 1 ≤ N) :
    Triple nf (fld a 6 h ∗ cx h (rootA t) k ∗ tr (upA h k) t) (eraseLoopF N a (rootA t) (upA h k)) (LoopPost a h (delLoop t k)) := by
  induction k generalizing t n N with
  | nil =>
    refine Triple.post (eraseLoop_exit (N := N) (by omega) (Or.inl rfl)) fun r => ?_
    rw [delLoop.eq_def, cx_plug]
    dsimp only
    unfold LoopPost
    apply ent_ex_right t
    apply ent_ex_right []
    refine ent_pure_left fun hr => ?_
    exact ent_pure_right ⟨hr, rfl⟩ (by cancel)
  | cons f k ih =>
    by_cases hc : t.color = .red
    · refine Triple.post (eraseLoop_exit (N := N) (by omega) (Or.inr hc)) fun r => ?_
      rw [delLoop.eq_def, cx_plug]
      simp only [hc, ↓reduceIte]
      unfold LoopPost
      apply ent_ex_right t
      apply ent_ex_right (f :: k)
      refine ent_pure_left fun hr => ?_
      exact ent_pure_right ⟨hr, rfl⟩ (by cancel)
    have hc : t.color = .black := blackL hc
    have hn := ht.1 hc
    obtain ⟨h1, h2, h3⟩ := hk
    simp only [List.length_cons] at hN
    obtain ⟨N, rfl⟩ : ∃ N', N = N' + 1 := ⟨N - 1, by omega⟩
    cases f with
    | L cp e s =>
      cases s with
      | leaf => simp at h1
      | node sc sn se sf =>
      have hr : rootA t ≠ rootK (rootA t) (.L cp e (node sc sn se sf) :: k) ∧ rootA t ≠ se.node ∧ se.node ≠ 0 → Triple nf (fld a 6 h ∗ cx h e.node k ∗ tr (upA h k) (node cp t e (node sc sn se sf)))
          (do let s ← delTurnL a e.node se.node
              let b ← bothBlack s
              if b then do
                setColor s RED
                let p ← parent e.node
                eraseLoopF N a e.node p
              else do
                delFinishL a e.node s
                pure (rootA t)) (LoopPost a h (delLoop t (.L cp e (node sc sn se sf) :: k))) → 
          Triple nf (fld a 6 h ∗ cx h (rootA t) (.L cp e (node sc sn se sf) :: k) ∗ tr (upA h (.L cp e (node sc sn se sf) :: k)) t)
            (eraseLoopF (N + 1) a (rootA t) (upA h (.L cp e (node sc sn se sf) :: k))) (LoopPost a h (delLoop t (.L cp e (node sc sn se sf) :: k))) := by
        rintro ⟨hne, hne2, hne3⟩ hT
        rw [eraseLoopF]
        call (root_spec (a := a) (h := h) (x := rootA t) (k := .L cp e (node sc sn se sf) :: k))
        intro rt
        xsub
        rw [if_neg hne]
        call (isBlack_spec (p := upA h (.L cp e (node sc sn se sf) :: k)) (t := t))
        intro b
        xsub
        simp only [hc, decide_true, Bool.not_true, Bool.false_eq_true, ↓reduceIte, upA_cons, Frame.elem_L]
        refine Triple.bind (Q := fun _ => fld a 6 h ∗ cx h e.node k ∗ tr (upA h k) (node cp t e (node sc sn se sf))) ?_ fun _ => ?_
        · unfold delAssert
          cases t with
          | leaf =>
            simp only [rootA_leaf, ne_eq, not_true_eq_false, ↓reduceIte]
            apply Triple.ret
            simp only [cx_L, cx_R, tr_node, nd, rootA_node, upA_cons, Frame.elem_L, Frame.elem_R, code_red, code_black]
            cancel
          | node tc tl te tr' =>
            simp only [cx_L, cx_R, tr_node, nd, rootA_node, upA_cons, Frame.elem_L, Frame.elem_R, code_red, code_black]
            focus_atom fld te.node 1 tc.code
            apply Triple.ne_zero; intro hx
            have hx' : te.node ≠ 0 := hx
            simp only [ne_eq, hx', not_false_eq_true, ↓reduceIte]
            steps
            · simp
            steps
            
            simp only [↓reduceIte]
            apply Triple.ret
            try simp only [cx_L, cx_R, tr_node, nd, rootA_node, upA_cons, Frame.elem_L, Frame.elem_R, code_red, code_black]
            cancel
        · refine Triple.pre (P' := fld a 6 h ∗ cx h e.node k ∗ nd e cp.code (upA h k) (rootA t) se.node ∗ tr e.node t ∗ tr e.node (node sc sn se sf)) (by simp only [cx_L, cx_R, tr_node, nd, rootA_node, upA_cons, Frame.elem_L, Frame.elem_R, code_red, code_black]; cancel) ?_
          simp only [nd]
          steps
          simp only [↓reduceIte]
          steps
          refine Triple.pre ?_ hT
          simp only [cx_L, cx_R, tr_node, nd, rootA_node, upA_cons, Frame.elem_L, Frame.elem_R, code_red, code_black]
          cancel
      refine Triple.fact (p := rootA t ≠ rootK (rootA t) (.L cp e (node sc sn se sf) :: k) ∧ rootA t ≠ se.node ∧ se.node ≠ 0) (fun m hm => ?_) ?_
      · have hz : se.node ≠ 0 := by
          refine pts_ne_zero (l := (se.node, 1)) (v := .num sc.code) (R := _) ((show _ ⊢ₛ _ by simp only [cx_L, cx_R, tr_node, nd, rootA_node, upA_cons, Frame.elem_L, Frame.elem_R, code_red, code_black]; cancel) _ hm)
        cases t with
        | leaf =>
          exact ⟨fun h9 => cx_root_ne_zero (h := h) (x := 0) (f := .L cp e (node sc sn se sf)) (k := k) (R := _) ((show _ ⊢ₛ _ by rw [rootA_leaf]; cancel) _ hm) h9.symm, fun h => hz h.symm, hz⟩
        | node tc tl te tr' =>
          refine ⟨fun h9 => ?_, fun h9 => ?_, hz⟩
          · refine cx_root_ne (h := h) (x := te.node) (y := te.node) (q := e.node) (f := .L cp e (node sc sn se sf)) (k := k)
              (R := fld a 6 h ∗ (fld te.node 1 tc.code ∗ fld te.node 3 (rootA tl) ∗ fld te.node 4 (rootA tr') ∗ elm te) ∗ tr te.node tl ∗ tr te.node tr')
              ((show _ ⊢ₛ _ by simp only [tr_node, nd, upA_cons, Frame.elem_L]; cancel) _ hm) h9.symm
          · refine nd_ne (e := se) (y := te.node) (q := e.node) (c := sc.code) (p := e.node) (l := rootA sn) (r := rootA sf) (R := _)
              ((show _ ⊢ₛ _ by simp only [tr_node, nd, upA_cons, Frame.elem_L, cx_L]; cancel) _ hm) h9.symm
      intro hfacts
      refine hr hfacts ?_
      cases sc with
      | black =>
        simp at h1
        refine Triple.bind delTurnL_black fun r => ?_
        xsub
        refine delStepL hc (fun hb => ?_) (fun hb => ?_)
        · rw [delLoop.eq_def]
          obtain ⟨_, _, hd⟩ := delL_sub (cp := cp) (t := t) (e := e) (se := se) hb
          simp only [hc, reduceCtorEq, ↓reduceIte, hd, Bool.false_eq_true]
        · have hd : (delL cp t e sn se sf).2 = true := by rw [delL_both hb]
          have hl : delLoop t (.L cp e (node .black sn se sf) :: k) = delLoop (node cp t e (node .red sn se sf)) k := by
            rw [delLoop.eq_def]
            simp only [hc, reduceCtorEq, ↓reduceIte, delL_both hb]
          rw [hl]
          refine ih (t := (node cp t e (node .red sn se sf))) (n := dn cp n) (short_up rfl ?_) ?_ (by omega)
          · have := delL_up (e := e) (se := se) (cp := cp) hn h1.1 h1.2 hd
            rw [delL_both hb] at this
            exact this
          · cases cp <;> exact h3
      | red =>
        simp at h1 h2
        obtain ⟨hl1, hr1, hlb, hrb⟩ := h1
        cases cp with
        | red => exact absurd rfl h2
        | black =>
        cases sn with
        | leaf => simp at hl1
        | node c2 A b B =>
          simp at hlb
          obtain rfl : c2 = .black := hlb
          refine Triple.bind (delTurnL_red (by simp)) fun r => ?_
          xsub
          refine delStepL (sn := A) (sf := B) hc (fun hb => ?_) (fun hb => ?_)
          · rw [delLoop.eq_def]
            obtain ⟨_, _, hd⟩ := delL_sub (cp := .red) (t := t) (e := e) (se := b) hb
            simp only [hc, reduceCtorEq, ↓reduceIte, hd, Bool.false_eq_true]
          · refine Triple.post (eraseLoop_exit (N := N) (by omega) (a := a) (h := h) (t := (node .red t e (node .red A b B))) (k := .L .black se sf :: k) (Or.inr rfl)) fun r => ?_
            rw [delLoop.eq_def]
            simp only [hc, reduceCtorEq, ↓reduceIte, delL_both hb]
            unfold LoopPost
            apply ent_ex_right (node .red t e (node .red A b B))
            apply ent_ex_right (.L .black se sf :: k)
            rw [cx_plug]
            refine ent_pure_left fun hr => ?_
            exact ent_pure_right ⟨hr, rfl⟩ (by cancel)
    | R cp s e =>
      cases s with
      | leaf => simp at h1
      | node sc sf se sn =>
      have hr : rootA t ≠ rootK (rootA t) (.R cp (node sc sf se sn) e :: k) ∧ rootA t ≠ se.node ∧ se.node ≠ 0 → Triple nf (fld a 6 h ∗ cx h e.node k ∗ tr (upA h k) (node cp (node sc sf se sn) e t))
          (do let s ← delTurnR a e.node se.node
              let b ← bothBlack s
              if b then do
                setColor s RED
                let p ← parent e.node
                eraseLoopF N a e.node p
              else do
                delFinishR a e.node s
                pure (rootA t)) (LoopPost a h (delLoop t (.R cp (node sc sf se sn) e :: k))) → 
          Triple nf (fld a 6 h ∗ cx h (rootA t) (.R cp (node sc sf se sn) e :: k) ∗ tr (upA h (.R cp (node sc sf se sn) e :: k)) t)
            (eraseLoopF (N + 1) a (rootA t) (upA h (.R cp (node sc sf se sn) e :: k))) (LoopPost a h (delLoop t (.R cp (node sc sf se sn) e :: k))) := by
        rintro ⟨hne, hne2, hne3⟩ hT
        rw [eraseLoopF]
        call (root_spec (a := a) (h := h) (x := rootA t) (k := .R cp (node sc sf se sn) e :: k))
        intro rt
        xsub
        rw [if_neg hne]
        call (isBlack_spec (p := upA h (.R cp (node sc sf se sn) e :: k)) (t := t))
        intro b
        xsub
        simp only [hc, decide_true, Bool.not_true, Bool.false_eq_true, ↓reduceIte, upA_cons, Frame.elem_R]
        refine Triple.bind (Q := fun _ => fld a 6 h ∗ cx h e.node k ∗ tr (upA h k) (node cp (node sc sf se sn) e t)) ?_ fun _ => ?_
        · unfold delAssert
          cases t with
          | leaf =>
            simp only [rootA_leaf, ne_eq, not_true_eq_false, ↓reduceIte]
            apply Triple.ret
            simp only [cx_L, cx_R, tr_node, nd, rootA_node, upA_cons, Frame.elem_L, Frame.elem_R, code_red, code_black]
            cancel
          | node tc tl te tr' =>
            simp only [cx_L, cx_R, tr_node, nd, rootA_node, upA_cons, Frame.elem_L, Frame.elem_R, code_red, code_black]
            focus_atom fld te.node 1 tc.code
            apply Triple.ne_zero; intro hx
            have hx' : te.node ≠ 0 := hx
            simp only [ne_eq, hx', not_false_eq_true, ↓reduceIte]
            steps
            · simp
            steps
            have hx2 : ¬ se.node = te.node := fun h => hne2 h.symm
            simp only [hx2, ↓reduceIte]
            steps
            simp only [beq_self_eq_true]
            refine Triple.eq_prog (m' := pure ()) rfl ?_
            apply Triple.ret
            try simp only [cx_L, cx_R, tr_node, nd, rootA_node, upA_cons, Frame.elem_L, Frame.elem_R, code_red, code_black]
            cancel
        · refine Triple.pre (P' := fld a 6 h ∗ cx h e.node k ∗ nd e cp.code (upA h k) se.node (rootA t) ∗ tr e.node t ∗ tr e.node (node sc sf se sn)) (by simp only [cx_L, cx_R, tr_node, nd, rootA_node, upA_cons, Frame.elem_L, Frame.elem_R, code_red, code_black]; cancel) ?_
          simp only [nd]
          steps
          simp only [hne2, ↓reduceIte]
          steps
          refine Triple.pre ?_ hT
          simp only [cx_L, cx_R, tr_node, nd, rootA_node, upA_cons, Frame.elem_L, Frame.elem_R, code_red, code_black]
          cancel
      refine Triple.fact (p := rootA t ≠ rootK (rootA t) (.R cp (node sc sf se sn) e :: k) ∧ rootA t ≠ se.node ∧ se.node ≠ 0) (fun m hm => ?_) ?_
      · have hz : se.node ≠ 0 := by
          refine pts_ne_zero (l := (se.node, 1)) (v := .num sc.code) (R := _) ((show _ ⊢ₛ _ by simp only [cx_L, cx_R, tr_node, nd, rootA_node, upA_cons, Frame.elem_L, Frame.elem_R, code_red, code_black]; cancel) _ hm)
        cases t with
        | leaf =>
          exact ⟨fun h9 => cx_root_ne_zero (h := h) (x := 0) (f := .R cp (node sc sf se sn) e) (k := k) (R := _) ((show _ ⊢ₛ _ by rw [rootA_leaf]; cancel) _ hm) h9.symm, fun h => hz h.symm, hz⟩
        | node tc tl te tr' =>
          refine ⟨fun h9 => ?_, fun h9 => ?_, hz⟩
          · refine cx_root_ne (h := h) (x := te.node) (y := te.node) (q := e.node) (f := .R cp (node sc sf se sn) e) (k := k)
              (R := fld a 6 h ∗ (fld te.node 1 tc.code ∗ fld te.node 3 (rootA tl) ∗ fld te.node 4 (rootA tr') ∗ elm te) ∗ tr te.node tl ∗ tr te.node tr')
              ((show _ ⊢ₛ _ by simp only [tr_node, nd, upA_cons, Frame.elem_R]; cancel) _ hm) h9.symm
          · refine nd_ne (e := se) (y := te.node) (q := e.node) (c := sc.code) (p := e.node) (l := rootA sf) (r := rootA sn) (R := _)
              ((show _ ⊢ₛ _ by simp only [tr_node, nd, upA_cons, Frame.elem_R, cx_R]; cancel) _ hm) h9.symm
      intro hfacts
      refine hr hfacts ?_
      cases sc with
      | black =>
        simp at h1
        refine Triple.bind delTurnR_black fun r => ?_
        xsub
        refine delStepR hc (fun hb => ?_) (fun hb => ?_)
        · rw [delLoop.eq_def]
          obtain ⟨_, _, hd⟩ := delR_sub (cp := cp) (t := t) (e := e) (se := se) hb
          simp only [hc, reduceCtorEq, ↓reduceIte, hd, Bool.false_eq_true]
        · have hd : (delR cp sf se sn e t).2 = true := by rw [delR_both hb]
          have hl : delLoop t (.R cp (node .black sf se sn) e :: k) = delLoop (node cp (node .red sf se sn) e t) k := by
            rw [delLoop.eq_def]
            simp only [hc, reduceCtorEq, ↓reduceIte, delR_both hb]
          rw [hl]
          refine ih (t := (node cp (node .red sf se sn) e t)) (n := dn cp n) (short_up rfl ?_) ?_ (by omega)
          · have := delR_up (e := e) (se := se) (cp := cp) hn h1.1 h1.2 hd
            rw [delR_both hb] at this
            exact this
          · cases cp <;> exact h3
      | red =>
        simp at h1 h2
        obtain ⟨hl1, hr1, hlb, hrb⟩ := h1
        cases cp with
        | red => exact absurd rfl h2
        | black =>
        cases sn with
        | leaf => simp at hr1
        | node c2 A b B =>
          simp at hrb
          obtain rfl : c2 = .black := hrb
          refine Triple.bind (delTurnR_red (by simp)) fun r => ?_
          xsub
          refine delStepR (sn := B) (sf := A) hc (fun hb => ?_) (fun hb => ?_)
          · rw [delLoop.eq_def]
            obtain ⟨_, _, hd⟩ := delR_sub (cp := .red) (t := t) (e := e) (se := b) hb
            simp only [hc, reduceCtorEq, ↓reduceIte, hd, Bool.false_eq_true]
          · refine Triple.post (eraseLoop_exit (N := N) (by omega) (a := a) (h := h) (t := (node .red (node .red A b B) e t)) (k := .R .black sf se :: k) (Or.inr rfl)) fun r => ?_
            rw [delLoop.eq_def]
            simp only [hc, reduceCtorEq, ↓reduceIte, delR_both hb]
            unfold LoopPost
            apply ent_ex_right (node .red (node .red A b B) e t)
            apply ent_ex_right (.R .black sf se :: k)
            rw [cx_plug]
            refine ent_pure_left fun hr => ?_
            exact ent_pure_right ⟨hr, rfl⟩ (by cancel)

end CC.Tree
