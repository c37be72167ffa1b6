import Verif.Tree.Rot
/-!
# `__rebalance_insert`
-/
namespace CC.Tree
open CC CC.Tac T
open CC.CList (Elem nodes vals firstN lastN)
variable {V : Type} {nf : Prop}

theorem isLeft_spec {x p l : Nat} : Triple (V := V) nf (fld x 2 p ∗ fld p 3 l) (isLeft x) (fun r => ⌜r = (l == x)⌝ ∗ fld x 2 p ∗ fld p 3 l) := by
  apply Triple.ne_zero; intro hx
  unfold isLeft
  rw [if_neg hx]
  steps
  apply Triple.ret
  cancel
theorem isRight_spec {x p r : Nat} : Triple (V := V) nf (fld x 2 p ∗ fld p 4 r) (isRight x) (fun b => ⌜b = (r == x)⌝ ∗ fld x 2 p ∗ fld p 4 r) := by
  apply Triple.ne_zero; intro hx
  unfold isRight
  rw [if_neg hx]
  steps
  apply Triple.ret
  cancel

theorem isRed_spec {p : Nat} {t : T (Elem V)} : Triple nf (tr p t) (isRed (rootA t)) (fun r => ⌜r = decide (t.color = .red)⌝ ∗ tr p t) := by
  unfold isRed
  cases t with
  | leaf =>
    rw [rootA_leaf, if_pos rfl]
    apply Triple.ret
    cancel
  | node c l e r =>
    rw [rootA_node, tr_node, nd]
    simp only [sep_assoc]
    apply Triple.ne_zero; intro hx
    rw [if_neg hx]
    steps
    apply Triple.ret
    cancel
    cases c <;> rfl

theorem isBlack_spec {p : Nat} {t : T (Elem V)} : Triple nf (tr p t) (isBlack (rootA t)) (fun r => ⌜r = decide (t.color = .black)⌝ ∗ tr p t) := by
  unfold isBlack
  cases t with
  | leaf =>
    rw [rootA_leaf, if_pos rfl]
    apply Triple.ret
    cancel
  | node c l e r =>
    rw [rootA_node, tr_node, nd]
    simp only [sep_assoc]
    apply Triple.ne_zero; intro hx
    rw [if_neg hx]
    steps
    apply Triple.ret
    cancel
    cases c <;> rfl

/-- the color of a node one of whose fields is at hand -/
theorem isRedF_spec {x : Nat} {c : Color} : Triple (V := V) nf (fld x 1 c.code) (isRed x) (fun r => ⌜r = decide (c = .red)⌝ ∗ fld x 1 c.code) := by
  rw [← sep_emp (fld x 1 c.code)]
  apply Triple.ne_zero; intro hx
  unfold isRed
  rw [if_neg hx]
  steps
  apply Triple.ret
  cancel
  cases c <;> rfl
theorem isBlackF_spec {x : Nat} {c : Color} : Triple (V := V) nf (fld x 1 c.code) (isBlack x) (fun r => ⌜r = decide (c = .black)⌝ ∗ fld x 1 c.code) := by
  rw [← sep_emp (fld x 1 c.code)]
  apply Triple.ne_zero; intro hx
  unfold isBlack
  rw [if_neg hx]
  steps
  apply Triple.ret
  cancel
  cases c <;> rfl

theorem grandParent_spec {x p g : Nat} : Triple (V := V) nf (fld x 2 p ∗ fld p 2 g) (grandParent x) (fun r => ⌜r = g⌝ ∗ fld x 2 p ∗ fld p 2 g) := by
  rw [← bind_pure (grandParent x)]
  unfold grandParent
  simp only [bind_assoc]
  steps
  apply Triple.ret
  cancel

theorem uncle_L {x p g u : Nat} : Triple (V := V) nf (fld x 2 p ∗ fld p 2 g ∗ fld g 3 p ∗ fld g 4 u) (uncle x)
    (fun r => ⌜r = u⌝ ∗ fld x 2 p ∗ fld p 2 g ∗ fld g 3 p ∗ fld g 4 u) := by
  rw [← bind_pure (uncle x)]
  unfold uncle
  simp only [bind_assoc]
  step
  call (isLeft_spec (x := p) (p := g) (l := p))
  intro r
  xsub
  simp only [beq_self_eq_true, ↓reduceIte, bind_assoc]
  call (grandParent_spec (x := x) (p := p) (g := g))
  intro r
  xsub
  steps
  apply Triple.ret
  cancel

theorem uncle_R {x p g u : Nat} (hne : u ≠ p) : Triple (V := V) nf (fld x 2 p ∗ fld p 2 g ∗ fld g 3 u) (uncle x)
    (fun r => ⌜r = u⌝ ∗ fld x 2 p ∗ fld p 2 g ∗ fld g 3 u) := by
  rw [← bind_pure (uncle x)]
  unfold uncle
  simp only [bind_assoc]
  step
  call (isLeft_spec (x := p) (p := g) (l := u))
  intro r
  xsub
  rw [if_neg (by simpa using hne)]
  simp only [bind_assoc]
  call (grandParent_spec (x := x) (p := p) (g := g))
  intro r
  xsub
  steps
  apply Triple.ret
  cancel

theorem insRecolor_L {x p g u : Nat} {c1 c2 c3 : Nat} :
    Triple (V := V) nf (fld x 2 p ∗ fld p 1 c1 ∗ fld p 2 g ∗ fld g 1 c2 ∗ fld g 3 p ∗ fld g 4 u ∗ fld u 1 c3) (insRecolor x)
      (fun r => ⌜r = g⌝ ∗ fld x 2 p ∗ fld p 1 1 ∗ fld p 2 g ∗ fld g 1 0 ∗ fld g 3 p ∗ fld g 4 u ∗ fld u 1 1) := by
  rw [← bind_pure (insRecolor x)]
  unfold insRecolor
  simp only [bind_assoc]
  steps
  call (uncle_L (x := x) (p := p) (g := g) (u := u))
  intro r
  xsub
  steps
  call (grandParent_spec (x := x) (p := p) (g := g))
  intro r
  xsub
  steps
  call (grandParent_spec (x := x) (p := p) (g := g))
  intro r
  xsub
  apply Triple.ret
  cancel

theorem insRecolor_R {x p g u : Nat} {c1 c2 c3 : Nat} (hne : u ≠ p) :
    Triple (V := V) nf (fld x 2 p ∗ fld p 1 c1 ∗ fld p 2 g ∗ fld g 1 c2 ∗ fld g 3 u ∗ fld u 1 c3) (insRecolor x)
      (fun r => ⌜r = g⌝ ∗ fld x 2 p ∗ fld p 1 1 ∗ fld p 2 g ∗ fld g 1 0 ∗ fld g 3 u ∗ fld u 1 1) := by
  rw [← bind_pure (insRecolor x)]
  unfold insRecolor
  simp only [bind_assoc]
  steps
  call (uncle_R (x := x) (p := p) (g := g) (u := u) hne)
  intro r
  xsub
  steps
  call (grandParent_spec (x := x) (p := p) (g := g))
  intro r
  xsub
  steps
  call (grandParent_spec (x := x) (p := p) (g := g))
  intro r
  xsub
  apply Triple.ret
  cancel

/-- the loop ends at the root and below a black node -/
theorem insertLoop_exit {a h N : Nat} (hN : 1 ≤ N) {k : Ctx (Elem V)} {t : T (Elem V)} (ht : t ≠ leaf) (hk : k = [] ∨ topColor k = .black) :
    Triple nf (fld a 6 h ∗ cx h (rootA t) k ∗ tr (upA h k) t) (insertLoopF N a (rootA t)) (fun _ => fld a 6 h ∗ cx h (rootA t) k ∗ tr (upA h k) t) := by
  obtain ⟨c, l, z, r, rfl⟩ : ∃ c l z r, t = node c l z r := by
    cases t with
    | leaf => exact absurd rfl ht
    | node c l z r => exact ⟨_, _, _, _, rfl⟩
  show Triple nf (fld a 6 h ∗ cx h z.node k ∗ tr (upA h k) (node c l z r)) (insertLoopF N a z.node) (fun _ => fld a 6 h ∗ cx h z.node k ∗ tr (upA h k) (node c l z r))
  obtain ⟨N, rfl⟩ : ∃ N', N = N' + 1 := ⟨N - 1, by omega⟩
  rw [insertLoopF]
  cases k with
  | nil =>
    call (root_spec (a := a) (h := h) (x := z.node) (k := []))
    intro rt
    xsub
    simp only [rootK_nil, ↓reduceIte]
    apply Triple.ret
    cancel
  | cons f k =>
    simp at hk
    refine Triple.fact (p := rootK z.node (f :: k) ≠ z.node) (fun m hm => ?_) ?_
    · exact cx_root_ne (h := h) (x := z.node) (y := z.node) (q := f.elem.node)
        (R := fld a 6 h ∗ (fld z.node 1 c.code ∗ fld z.node 3 (rootA l) ∗ fld z.node 4 (rootA r) ∗ elm z) ∗ tr z.node l ∗ tr z.node r)
        ((show _ ⊢ₛ _ by simp only [tr_node, nd, upA_cons]; cancel) _ hm)
    intro hne
    call (root_spec (a := a) (h := h) (x := z.node) (k := f :: k))
    intro rt
    xsub
    rw [if_neg hne]
    simp only [tr_node, nd, upA_cons]
    step
    cases f with
    | L fc fe fs =>
      simp only [cx_L, nd, Frame.elem_L]
      call (isRedF_spec (x := fe.node) (c := fc))
      intro b
      xsub
      simp at hk
      subst hk
      simp only [reduceCtorEq, decide_false, Bool.not_false, ↓reduceIte]
      apply Triple.ret
      cancel
    | R fc fs fe =>
      simp only [cx_R, nd, Frame.elem_R]
      call (isRedF_spec (x := fe.node) (c := fc))
      intro b
      xsub
      simp at hk
      subst hk
      simp only [reduceCtorEq, decide_false, Bool.not_false, ↓reduceIte]
      apply Triple.ret
      cancel

theorem blackL {u : T (Elem V)} (h : ¬ u.color = .red) : u.color = .black := by cases hc : u.color <;> simp_all

theorem insertLoop_spec {a h N : Nat} {k : Ctx (Elem V)} {l r : T (Elem V)} {z : Elem V} {n : Nat} (hk : RBC k n) (hN : k.length + 1 ≤ N) :
    Triple nf (fld a 6 h ∗ cx h z.node k ∗ tr (upA h k) (node .red l z r)) (insertLoopF N a z.node)
      (fun _ => fld a 6 h ∗ fld h 2 (rootA (insLoop (node .red l z r) k)) ∗ tr h (insLoop (node .red l z r) k)) := by
  induction hm : k.length using Nat.strongRecOn generalizing k l z r n N with
  | _ m ih =>
  subst hm
  by_cases hb : k = [] ∨ topColor k = .black
  · rw [insLoop_black hb]
    refine Triple.post (insertLoop_exit (N := N) (by omega) (a := a) (h := h) (t := node .red l z r) (by simp) hb) fun _ => ?_
    rw [cx_plug]
    exact ent_refl _
  match k, hk with
  | [], _ => simp at hb
  | [f], hk =>
    obtain ⟨h1, h2, h3⟩ := hk
    cases hf : f.color with
    | black => simp [hf] at hb
    | red => exact absurd rfl (h2 hf).2.1
  | f :: g :: k, hk =>
    simp at hb
    obtain ⟨h1, h2, h3, h4, h5⟩ := hk
    have hfr : f.color = .red := by cases hf : f.color <;> simp_all
    have hgb : g.color = .black := by have := h2 hfr; simpa using this.2.2
    rw [hfr, hgb] at h5
    rw [hfr] at h3
    simp only [Color.up] at h5 h3
    rw [insLoop.eq_def]
    simp only [hfr, reduceCtorEq, ↓reduceIte]
    refine Triple.fact (p := rootK z.node (f :: g :: k) ≠ z.node) (fun m hm => ?_) ?_
    · exact cx_root_ne (h := h) (x := z.node) (y := z.node) (q := f.elem.node)
        (R := fld a 6 h ∗ (fld z.node 1 Color.red.code ∗ fld z.node 3 (rootA l) ∗ fld z.node 4 (rootA r) ∗ elm z) ∗ tr z.node l ∗ tr z.node r)
        ((show _ ⊢ₛ _ by simp only [tr_node, nd, upA_cons]; cancel) _ hm)
    intro hne
    simp only [List.length_cons] at hN
    obtain ⟨N, rfl⟩ : ∃ N', N = N' + 1 := ⟨N - 1, by omega⟩
    rw [insertLoopF]
    call (root_spec (a := a) (h := h) (x := z.node) (k := f :: g :: k))
    intro rt
    xsub
    rw [if_neg hne]
    cases f with
    | L fc p s =>
      simp at hfr h1; subst hfr
      cases g with
      | L gc g u =>
        simp at hgb h3; subst hgb
        refine Triple.fact (p := rootA u ≠ p.node ∧ rootA s ≠ z.node) (fun m hm => ⟨?_, ?_⟩) ?_
        · exact (cx_ne (h := h) (x := p.node) (y := p.node) (q := g.node) (k := .L .black g u :: k)
            (R := fld a 6 h ∗ (fld p.node 1 Color.red.code ∗ fld p.node 3 z.node ∗ fld p.node 4 (rootA s) ∗ elm p) ∗ tr p.node s ∗ tr p.node (node .red l z r))
            ((show _ ⊢ₛ _ by simp only [cx_L, cx_R, tr_node, nd, rootA_node, upA_cons, Frame.elem_L, Frame.elem_R]; cancel) _ hm) (.L .black g u) (by simp)).2
        · exact (cx_ne (h := h) (x := z.node) (y := z.node) (q := p.node) (k := .L .red p s :: .L .black g u :: k)
            (R := fld a 6 h ∗ (fld z.node 1 Color.red.code ∗ fld z.node 3 (rootA l) ∗ fld z.node 4 (rootA r) ∗ elm z) ∗ tr z.node l ∗ tr z.node r)
            ((show _ ⊢ₛ _ by simp only [cx_L, cx_R, tr_node, nd, rootA_node, upA_cons, Frame.elem_L, Frame.elem_R]; cancel) _ hm) (.L .red p s) (by simp)).2
        rintro ⟨hup, hsz⟩
        simp only [cx_L, cx_R, tr_node, nd, upA_cons, Frame.elem_L, Frame.elem_R]
        step
        call (isRedF_spec (x := p.node) (c := .red))
        intro b
        xsub
        simp only [decide_true, Bool.not_true, Bool.false_eq_true, ↓reduceIte]
        call (isLeft_spec (x := p.node) (p := g.node) (l := p.node))
        intro b
        xsub
        simp only [beq_self_eq_true, ↓reduceIte]
        call (uncle_L (x := z.node) (p := p.node) (g := g.node) (u := rootA u))
        intro b
        xsub
        call (isRed_spec (p := g.node) (t := u))
        intro b
        xsub
        by_cases hu : u.color = .red
        · obtain ⟨ul, ue, ur, rfl⟩ : ∃ ul ue ur, u = node .red ul ue ur := by
            cases u with
            | leaf => simp at hu
            | node c a b d => simp at hu; subst hu; exact ⟨_, _, _, rfl⟩
          simp only [color_node, decide_true, ↓reduceIte, tr_node, nd, rootA_node, blacken_node]
          call (insRecolor_L (x := z.node) (p := p.node) (g := g.node) (u := ue.node))
          intro r
          xsub
          refine Triple.pre (P' := fld a 6 h ∗ cx h g.node k ∗ tr (upA h k) (node .red (node .black (node .red l z r) p s) g (node .black ul ue ur))) ?_ (ih k.length (by simp <;> omega) h5 (by omega) rfl)
          simp only [tr_node, nd, rootA_node, Color.code]
          cancel
        · have hu' := blackL hu
          simp only [hu', reduceCtorEq, decide_false, Bool.false_eq_true, ↓reduceIte, insTurnL, bind_assoc]
          call (isRight_spec (x := z.node) (p := p.node) (r := rootA s))
          intro b
          xsub
          simp only [beq_iff_eq, hsz, ↓reduceIte, pure_bind]
          steps
          call (grandParent_spec (x := z.node) (p := p.node) (g := g.node))
          intro b
          xsub
          step
          call (grandParent_spec (x := z.node) (p := p.node) (g := g.node))
          intro b
          xsub
          refine Triple.pre (P' := fld a 6 h ∗ cx h g.node k ∗ tr (upA h k) (node .red (node .black (node .red l z r) p s) g u)) (by simp only [tr_node, nd, rootA_node, Color.code]; cancel) ?_
          call (root_spec (a := a) (h := h) (x := g.node) (k := k))
          intro rt
          xextract
          intro hrt
          call (rotateRight_spec (h := h) (k := k) hrt)
          intro _
          refine Triple.pre (P' := fld a 6 h ∗ cx h (rootA (node .red l z r)) (.L .black p (node .red s g u) :: k) ∗ tr (upA h (.L .black p (node .red s g u) :: k)) (node .red l z r)) ?_
            (Triple.post (insertLoop_exit (N := N) (by omega) (a := a) (h := h) (t := node .red l z r) (by simp) (Or.inr rfl)) fun _ => ?_)
          · simp only [cx_L, cx_R, tr_node, nd, rootA_node, upA_cons, Frame.elem_L, Frame.elem_R, Color.code]
            cancel
          · rw [cx_plug]
            exact ent_refl _
      | R gc u g =>
        simp at hgb h3; subst hgb
        refine Triple.fact (p := rootA u ≠ p.node ∧ rootA s ≠ z.node) (fun m hm => ⟨?_, ?_⟩) ?_
        · exact (cx_ne (h := h) (x := p.node) (y := p.node) (q := g.node) (k := .R .black u g :: k)
            (R := fld a 6 h ∗ (fld p.node 1 Color.red.code ∗ fld p.node 3 z.node ∗ fld p.node 4 (rootA s) ∗ elm p) ∗ tr p.node s ∗ tr p.node (node .red l z r))
            ((show _ ⊢ₛ _ by simp only [cx_L, cx_R, tr_node, nd, rootA_node, upA_cons, Frame.elem_L, Frame.elem_R]; cancel) _ hm) (.R .black u g) (by simp)).2
        · exact (cx_ne (h := h) (x := z.node) (y := z.node) (q := p.node) (k := .L .red p s :: .R .black u g :: k)
            (R := fld a 6 h ∗ (fld z.node 1 Color.red.code ∗ fld z.node 3 (rootA l) ∗ fld z.node 4 (rootA r) ∗ elm z) ∗ tr z.node l ∗ tr z.node r)
            ((show _ ⊢ₛ _ by simp only [cx_L, cx_R, tr_node, nd, rootA_node, upA_cons, Frame.elem_L, Frame.elem_R]; cancel) _ hm) (.L .red p s) (by simp)).2
        rintro ⟨hup, hsz⟩
        simp only [cx_L, cx_R, tr_node, nd, upA_cons, Frame.elem_L, Frame.elem_R]
        step
        call (isRedF_spec (x := p.node) (c := .red))
        intro b
        xsub
        simp only [decide_true, Bool.not_true, Bool.false_eq_true, ↓reduceIte]
        call (isLeft_spec (x := p.node) (p := g.node) (l := rootA u))
        intro b
        xsub
        simp only [beq_iff_eq, hup, ↓reduceIte]
        call (uncle_R (x := z.node) (p := p.node) (g := g.node) (u := rootA u) hup)
        intro b
        xsub
        call (isRed_spec (p := g.node) (t := u))
        intro b
        xsub
        by_cases hu : u.color = .red
        · obtain ⟨ul, ue, ur, rfl⟩ : ∃ ul ue ur, u = node .red ul ue ur := by
            cases u with
            | leaf => simp at hu
            | node c a b d => simp at hu; subst hu; exact ⟨_, _, _, rfl⟩
          simp only [color_node, decide_true, ↓reduceIte, tr_node, nd, rootA_node, blacken_node]
          call (insRecolor_R (x := z.node) (p := p.node) (g := g.node) (u := ue.node) hup)
          intro r
          xsub
          refine Triple.pre (P' := fld a 6 h ∗ cx h g.node k ∗ tr (upA h k) (node .red (node .black ul ue ur) g (node .black (node .red l z r) p s))) ?_ (ih k.length (by simp <;> omega) h5 (by omega) rfl)
          simp only [tr_node, nd, rootA_node, Color.code]
          cancel
        · have hu' := blackL hu
          simp only [hu', reduceCtorEq, decide_false, Bool.false_eq_true, ↓reduceIte, insTurnR, bind_assoc]
          call (isLeft_spec (x := z.node) (p := p.node) (l := z.node))
          intro b
          xsub
          simp only [beq_self_eq_true, ↓reduceIte, bind_assoc]
          step
          refine Triple.pre (P' := fld a 6 h ∗ cx h p.node (.R .black u g :: k) ∗ tr (upA h (.R .black u g :: k)) (node .red (node .red l z r) p s)) (by simp only [cx_L, cx_R, tr_node, nd, rootA_node, upA_cons, Frame.elem_L, Frame.elem_R]; cancel) ?_
          call (root_spec (a := a) (h := h) (x := p.node) (k := .R .black u g :: k))
          intro rt
          xextract
          intro hrt
          call (rotateRight_spec (h := h) (k := .R .black u g :: k) hrt)
          intro _
          simp only [pure_bind, cx_L, cx_R, tr_node, nd, rootA_node, upA_cons, Frame.elem_L, Frame.elem_R]
          steps
          call (grandParent_spec (x := p.node) (p := z.node) (g := g.node))
          intro b
          xsub
          step
          call (grandParent_spec (x := p.node) (p := z.node) (g := g.node))
          intro b
          xsub
          refine Triple.pre (P' := fld a 6 h ∗ cx h g.node k ∗ tr (upA h k) (node .red u g (node .black l z (node .red r p s)))) (by simp only [tr_node, nd, rootA_node, Color.code]; cancel) ?_
          call (root_spec (a := a) (h := h) (x := g.node) (k := k))
          intro rt
          xextract
          intro hrt
          call (rotateLeft_spec (h := h) (k := k) hrt)
          intro _
          refine Triple.pre (P' := fld a 6 h ∗ cx h (rootA (node .red r p s)) (.R .black (node .red u g l) z :: k) ∗ tr (upA h (.R .black (node .red u g l) z :: k)) (node .red r p s)) ?_
            (Triple.post (insertLoop_exit (N := N) (by omega) (a := a) (h := h) (t := (node .red r p s)) (by simp) (Or.inr rfl)) fun _ => ?_)
          · simp only [cx_L, cx_R, tr_node, nd, rootA_node, upA_cons, Frame.elem_L, Frame.elem_R, Color.code]
            cancel
          · rw [cx_plug]
            exact ent_refl _
    | R fc s p =>
      simp at hfr h1; subst hfr
      cases g with
      | L gc g u =>
        simp at hgb h3; subst hgb
        refine Triple.fact (p := rootA u ≠ p.node ∧ rootA s ≠ z.node) (fun m hm => ⟨?_, ?_⟩) ?_
        · exact (cx_ne (h := h) (x := p.node) (y := p.node) (q := g.node) (k := .L .black g u :: k)
            (R := fld a 6 h ∗ (fld p.node 1 Color.red.code ∗ fld p.node 3 (rootA s) ∗ fld p.node 4 z.node ∗ elm p) ∗ tr p.node s ∗ tr p.node (node .red l z r))
            ((show _ ⊢ₛ _ by simp only [cx_L, cx_R, tr_node, nd, rootA_node, upA_cons, Frame.elem_L, Frame.elem_R]; cancel) _ hm) (.L .black g u) (by simp)).2
        · exact (cx_ne (h := h) (x := z.node) (y := z.node) (q := p.node) (k := .R .red s p :: .L .black g u :: k)
            (R := fld a 6 h ∗ (fld z.node 1 Color.red.code ∗ fld z.node 3 (rootA l) ∗ fld z.node 4 (rootA r) ∗ elm z) ∗ tr z.node l ∗ tr z.node r)
            ((show _ ⊢ₛ _ by simp only [cx_L, cx_R, tr_node, nd, rootA_node, upA_cons, Frame.elem_L, Frame.elem_R]; cancel) _ hm) (.R .red s p) (by simp)).2
        rintro ⟨hup, hsz⟩
        simp only [cx_L, cx_R, tr_node, nd, upA_cons, Frame.elem_L, Frame.elem_R]
        step
        call (isRedF_spec (x := p.node) (c := .red))
        intro b
        xsub
        simp only [decide_true, Bool.not_true, Bool.false_eq_true, ↓reduceIte]
        call (isLeft_spec (x := p.node) (p := g.node) (l := p.node))
        intro b
        xsub
        simp only [beq_self_eq_true, ↓reduceIte]
        call (uncle_L (x := z.node) (p := p.node) (g := g.node) (u := rootA u))
        intro b
        xsub
        call (isRed_spec (p := g.node) (t := u))
        intro b
        xsub
        by_cases hu : u.color = .red
        · obtain ⟨ul, ue, ur, rfl⟩ : ∃ ul ue ur, u = node .red ul ue ur := by
            cases u with
            | leaf => simp at hu
            | node c a b d => simp at hu; subst hu; exact ⟨_, _, _, rfl⟩
          simp only [color_node, decide_true, ↓reduceIte, tr_node, nd, rootA_node, blacken_node]
          call (insRecolor_L (x := z.node) (p := p.node) (g := g.node) (u := ue.node))
          intro r
          xsub
          refine Triple.pre (P' := fld a 6 h ∗ cx h g.node k ∗ tr (upA h k) (node .red (node .black s p (node .red l z r)) g (node .black ul ue ur))) ?_ (ih k.length (by simp <;> omega) h5 (by omega) rfl)
          simp only [tr_node, nd, rootA_node, Color.code]
          cancel
        · have hu' := blackL hu
          simp only [hu', reduceCtorEq, decide_false, Bool.false_eq_true, ↓reduceIte, insTurnL, bind_assoc]
          call (isRight_spec (x := z.node) (p := p.node) (r := z.node))
          intro b
          xsub
          simp only [beq_self_eq_true, ↓reduceIte, bind_assoc]
          step
          refine Triple.pre (P' := fld a 6 h ∗ cx h p.node (.L .black g u :: k) ∗ tr (upA h (.L .black g u :: k)) (node .red s p (node .red l z r))) (by simp only [cx_L, cx_R, tr_node, nd, rootA_node, upA_cons, Frame.elem_L, Frame.elem_R]; cancel) ?_
          call (root_spec (a := a) (h := h) (x := p.node) (k := .L .black g u :: k))
          intro rt
          xextract
          intro hrt
          call (rotateLeft_spec (h := h) (k := .L .black g u :: k) hrt)
          intro _
          simp only [pure_bind, cx_L, cx_R, tr_node, nd, rootA_node, upA_cons, Frame.elem_L, Frame.elem_R]
          steps
          call (grandParent_spec (x := p.node) (p := z.node) (g := g.node))
          intro b
          xsub
          step
          call (grandParent_spec (x := p.node) (p := z.node) (g := g.node))
          intro b
          xsub
          refine Triple.pre (P' := fld a 6 h ∗ cx h g.node k ∗ tr (upA h k) (node .red (node .black (node .red s p l) z r) g u)) (by simp only [tr_node, nd, rootA_node, Color.code]; cancel) ?_
          call (root_spec (a := a) (h := h) (x := g.node) (k := k))
          intro rt
          xextract
          intro hrt
          call (rotateRight_spec (h := h) (k := k) hrt)
          intro _
          refine Triple.pre (P' := fld a 6 h ∗ cx h (rootA (node .red s p l)) (.L .black z (node .red r g u) :: k) ∗ tr (upA h (.L .black z (node .red r g u) :: k)) (node .red s p l)) ?_
            (Triple.post (insertLoop_exit (N := N) (by omega) (a := a) (h := h) (t := (node .red s p l)) (by simp) (Or.inr rfl)) fun _ => ?_)
          · simp only [cx_L, cx_R, tr_node, nd, rootA_node, upA_cons, Frame.elem_L, Frame.elem_R, Color.code]
            cancel
          · rw [cx_plug]
            exact ent_refl _
      | R gc u g =>
        simp at hgb h3; subst hgb
        refine Triple.fact (p := rootA u ≠ p.node ∧ rootA s ≠ z.node) (fun m hm => ⟨?_, ?_⟩) ?_
        · exact (cx_ne (h := h) (x := p.node) (y := p.node) (q := g.node) (k := .R .black u g :: k)
            (R := fld a 6 h ∗ (fld p.node 1 Color.red.code ∗ fld p.node 3 (rootA s) ∗ fld p.node 4 z.node ∗ elm p) ∗ tr p.node s ∗ tr p.node (node .red l z r))
            ((show _ ⊢ₛ _ by simp only [cx_L, cx_R, tr_node, nd, rootA_node, upA_cons, Frame.elem_L, Frame.elem_R]; cancel) _ hm) (.R .black u g) (by simp)).2
        · exact (cx_ne (h := h) (x := z.node) (y := z.node) (q := p.node) (k := .R .red s p :: .R .black u g :: k)
            (R := fld a 6 h ∗ (fld z.node 1 Color.red.code ∗ fld z.node 3 (rootA l) ∗ fld z.node 4 (rootA r) ∗ elm z) ∗ tr z.node l ∗ tr z.node r)
            ((show _ ⊢ₛ _ by simp only [cx_L, cx_R, tr_node, nd, rootA_node, upA_cons, Frame.elem_L, Frame.elem_R]; cancel) _ hm) (.R .red s p) (by simp)).2
        rintro ⟨hup, hsz⟩
        simp only [cx_L, cx_R, tr_node, nd, upA_cons, Frame.elem_L, Frame.elem_R]
        step
        call (isRedF_spec (x := p.node) (c := .red))
        intro b
        xsub
        simp only [decide_true, Bool.not_true, Bool.false_eq_true, ↓reduceIte]
        call (isLeft_spec (x := p.node) (p := g.node) (l := rootA u))
        intro b
        xsub
        simp only [beq_iff_eq, hup, ↓reduceIte]
        call (uncle_R (x := z.node) (p := p.node) (g := g.node) (u := rootA u) hup)
        intro b
        xsub
        call (isRed_spec (p := g.node) (t := u))
        intro b
        xsub
        by_cases hu : u.color = .red
        · obtain ⟨ul, ue, ur, rfl⟩ : ∃ ul ue ur, u = node .red ul ue ur := by
            cases u with
            | leaf => simp at hu
            | node c a b d => simp at hu; subst hu; exact ⟨_, _, _, rfl⟩
          simp only [color_node, decide_true, ↓reduceIte, tr_node, nd, rootA_node, blacken_node]
          call (insRecolor_R (x := z.node) (p := p.node) (g := g.node) (u := ue.node) hup)
          intro r
          xsub
          refine Triple.pre (P' := fld a 6 h ∗ cx h g.node k ∗ tr (upA h k) (node .red (node .black ul ue ur) g (node .black s p (node .red l z r)))) ?_ (ih k.length (by simp <;> omega) h5 (by omega) rfl)
          simp only [tr_node, nd, rootA_node, Color.code]
          cancel
        · have hu' := blackL hu
          simp only [hu', reduceCtorEq, decide_false, Bool.false_eq_true, ↓reduceIte, insTurnR, bind_assoc]
          call (isLeft_spec (x := z.node) (p := p.node) (l := rootA s))
          intro b
          xsub
          simp only [beq_iff_eq, hsz, ↓reduceIte, pure_bind]
          steps
          call (grandParent_spec (x := z.node) (p := p.node) (g := g.node))
          intro b
          xsub
          step
          call (grandParent_spec (x := z.node) (p := p.node) (g := g.node))
          intro b
          xsub
          refine Triple.pre (P' := fld a 6 h ∗ cx h g.node k ∗ tr (upA h k) (node .red u g (node .black s p (node .red l z r)))) (by simp only [tr_node, nd, rootA_node, Color.code]; cancel) ?_
          call (root_spec (a := a) (h := h) (x := g.node) (k := k))
          intro rt
          xextract
          intro hrt
          call (rotateLeft_spec (h := h) (k := k) hrt)
          intro _
          refine Triple.pre (P' := fld a 6 h ∗ cx h (rootA (node .red l z r)) (.R .black (node .red u g s) p :: k) ∗ tr (upA h (.R .black (node .red u g s) p :: k)) (node .red l z r)) ?_
            (Triple.post (insertLoop_exit (N := N) (by omega) (a := a) (h := h) (t := node .red l z r) (by simp) (Or.inr rfl)) fun _ => ?_)
          · simp only [cx_L, cx_R, tr_node, nd, rootA_node, upA_cons, Frame.elem_L, Frame.elem_R, Color.code]
            cancel
          · rw [cx_plug]
            exact ent_refl _

theorem rebalanceInsertF_spec {a h N : Nat} {k : Ctx (Elem V)} {l r : T (Elem V)} {z : Elem V} {n : Nat} (hk : RBC k n) (hN : k.length + 1 ≤ N) (ha : a ≠ 0) (hz : z.node ≠ 0) :
    Triple nf (fld a 6 h ∗ cx h z.node k ∗ tr (upA h k) (node .red l z r)) (rebalanceInsertF N a z.node)
      (fun _ => fld a 6 h ∗ fld h 2 (rootA (insLoop (node .red l z r) k).blacken) ∗ tr h (insLoop (node .red l z r) k).blacken) := by
  unfold rebalanceInsertF
  rw [if_neg (by simp [ha, hz])]
  call (insertLoop_spec (N := N) (a := a) (h := h) (z := z) (l := l) (r := r) hk hN)
  intro _
  generalize ht : insLoop (node .red l z r) k = t
  have hne : t ≠ leaf := by
    intro hl
    have := toList_insLoop (t := node .red l z r) (k := k)
    rw [ht, hl] at this
    simp at this
  cases t with
  | leaf => exact absurd rfl hne
  | node c tl e tr =>
    rw [← cx_nil, ← upA_nil (V := V) (h := h)]
    call (root_spec (a := a) (h := h) (x := e.node) (k := []))
    intro rt
    xsub
    simp only [rootK_nil, tr_node, nd, blacken_node, rootA_node, cx_nil, upA_nil]
    rw [← bind_pure (setColor _ _)]
    steps
    apply Triple.ret
    simp only [Color.code]
    cancel

end CC.Tree
