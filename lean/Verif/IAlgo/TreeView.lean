import Verif.Tree.Bare
import Verif.IAlgo.Views
/-!
# Trees (sets, maps and their multi variants), forwards and backwards, as structure and elements
-/
namespace CC.IAlgo
open CC CC.Tac CC.Iter CC.Algo
open CC.CList (Elem nodes firstN lastN)
open CC.Tree (T Ctx rootA Color)
variable {V β : Type} {nf : Prop} {Z : Nat → Nat} {F : HProp V} {a h : Nat} {g : Tree.Cfg} {es : List (Elem V)}

/-- the memory of a tree without the values of its elements -/
def treeS (a h : Nat) (g : Tree.Cfg) (es : List (Elem V)) : HProp V :=
  ∃ₛ t, ⌜t.toList = es ∧ t.Good ∧ g.vt ≠ 0⌝ ∗ Tree.Bare.isShape a h g t

theorem treeS_facts {m : Heap V} (hh : (treeS a h g es ∗ F) m) : Tree.Facts a h es ∧ g.vt ≠ 0 := by
  unfold treeS at hh
  rw [hex_sep] at hh
  obtain ⟨t, ht⟩ := hh
  rw [sep_assoc] at ht
  obtain ⟨⟨h1, _, h3⟩, h4⟩ := hpure_sep_apply.1 ht
  have := Tree.Bare.shape_facts h4
  rw [h1] at this
  exact ⟨this, h3⟩

theorem treeS_node0 {m : Heap V} (hh : (treeS a h g es ∗ F) m) {i : Nat} (hi : i ≤ es.length) : nodeAt es h i ≠ 0 := by
  have f := (treeS_facts hh).1
  rcases nodeAt_cases (s := h) hi with ⟨e, he, h1⟩ | h1
  · rw [h1]; exact (f.ne e he).2.1
  · rw [h1]; exact f.h0

theorem treeS_inj {m : Heap V} (hh : (treeS a h g es ∗ F) m) {i j : Nat} (hi : i ≤ es.length) (hj : j ≤ es.length) (he : nodeAt es h i = nodeAt es h j) : i = j := by
  have f := (treeS_facts hh).1
  exact nodeAt_inj f.nodup (fun e he => (f.ne e he).1) hi hj he

theorem treeS_run {m : M V β} {p : β → Prop} (hk : ∀ t : T (Elem V), t.toList = es → t.Good → g.vt ≠ 0 →
      Triple nf (Tree.Bare.isShape a h g t ∗ emp) m (fun x => ⌜p x⌝ ∗ Tree.Bare.isShape a h g t ∗ emp)) : Triple nf (treeS a h g es) m (fun x => ⌜p x⌝ ∗ treeS a h g es) := by
  unfold treeS
  refine Triple.ex_left fun t => ?_
  apply Triple.pure_left
  rintro ⟨h1, h2, h3⟩
  have := hk t h1 h2 h3
  rw [sep_emp] at this
  refine Triple.post this fun x => ?_
  refine sep_mono (ent_refl _) ?_
  exact ent_ex_right t (ent_pure_right ⟨h1, h2, h3⟩ (ent_refl _))

theorem treeS_next {i : Nat} (hi : i < es.length) : Triple nf (treeS a h g es) (Tree.iterIncrement (nodeAt es h i)) (fun r => ⌜r = nodeAt es h (i + 1)⌝ ∗ treeS a h g es) := by
  obtain ⟨X, e, Y, hx, _, h1, h2, _, _⟩ := split_at hi
  refine treeS_run fun t t1 t2 t3 => ?_
  rw [h1, h2, ← bind_pure (Tree.iterIncrement _)]
  refine Tree.Bare.increment_cps (t1.trans hx) ?_
  exact Triple.ret (ent_pure_right rfl (ent_refl _))

theorem treeS_prev {i : Nat} (hi : i < es.length) : Triple nf (treeS a h g es) (Tree.iterDecrement (nodeAt es h (i + 1))) (fun r => ⌜r = nodeAt es h i⌝ ∗ treeS a h g es) := by
  obtain ⟨X, e, Y, hx, _, h1, h2, _, _⟩ := split_at hi
  refine treeS_run fun t t1 t2 t3 => ?_
  rw [h1, h2, ← bind_pure (Tree.iterDecrement _)]
  have hl : t.toList = (X ++ [e]) ++ Y := by rw [t1, hx]; simp
  refine Tree.Bare.decrement_pos hl t2 (by simp) ?_
  refine Triple.ret (ent_pure_right ?_ (ent_refl _))
  rw [CList.lastN_append_cons]
  rfl

theorem treeS_val {i : Nat} (hi : i < es.length) : Triple nf (treeS a h g es) (Tree.iterDereference (nodeAt es h i)) (fun r => ⌜r = boxAt es i⌝ ∗ treeS a h g es) := by
  obtain ⟨X, e, Y, hx, _, h1, _, h2, _⟩ := split_at hi
  refine treeS_run fun t t1 t2 t3 => ?_
  rw [h1, h2]
  unfold Tree.iterDereference
  refine ldN_reads (Tree.Bare.rd_box (t1.trans hx)) ?_
  exact Triple.ret (ent_pure_right rfl (ent_refl _))

theorem treeS_type : Triple nf (treeS a h g es) (Tree.vtype a) (fun r => ⌜r = g.vt⌝ ∗ treeS a h g es) := by
  refine treeS_run fun t t1 t2 t3 => ?_
  rw [← bind_pure (Tree.vtype a)]
  refine ldN_reads Tree.Bare.rd_vtype ?_
  exact Triple.ret (ent_pure_right rfl (ent_refl _))

theorem treeS_begin : Triple nf (treeS a h g es) (Tree.begin_ a) (fun r => ⌜r = nodeAt es h 0⌝ ∗ treeS a h g es) := by
  refine treeS_run fun t t1 t2 t3 => ?_
  rw [← bind_pure (Tree.begin_ a)]
  refine Tree.Bare.begin_cps t3 ?_
  exact Triple.ret (ent_pure_right (by rw [t1]; rfl) (ent_refl _))

theorem treeS_end : Triple nf (treeS a h g es) (Tree.end_ a) (fun r => ⌜r = nodeAt es h es.length⌝ ∗ treeS a h g es) := by
  refine treeS_run fun t t1 t2 t3 => ?_
  rw [← bind_pure (Tree.end_ a)]
  refine Tree.Bare.end_cps t3 ?_
  exact Triple.ret (ent_pure_right (by rw [nodeAt_len]) (ent_refl _))

theorem treeS_ok (hty : g.vt ≠ 0) : (treeSrc a h g es).Ok nf Z (treeS a h g es) := by
  refine ok_nodal (.inr (.inr (.inr (.inl rfl)))) hty (fun m F hh i hi => ?_) (fun m F hh i j hi hj he => ?_) ?_ ?_ (fun i hi => ?_) (fun _ i hi => ?_) (fun i hi => ?_)
  · intro he
    exact treeS_node0 hh hi (Pay.node.inj he)
  · exact treeS_inj hh hi hj (Pay.node.inj he)
  · exact endOf_spec treeS_type (node_spec treeS_begin)
  · exact endOf_spec treeS_type (node_spec treeS_end)
  · exact node_spec (treeS_next hi)
  · exact node_spec (treeS_prev hi)
  · exact treeS_val hi

theorem treeSR_ok (hty : g.vt ≠ 0) : (treeSrcR a h g es).Ok nf Z (treeS a h g es) := by
  refine ok_nodal (.inr (.inr (.inr (.inr rfl)))) hty (fun m F hh i hi => ?_) (fun m F hh i j hi hj he => ?_) ?_ ?_ (fun i hi => ?_) (fun _ i hi => ?_) (fun i hi => ?_)
  · intro he
    exact treeS_node0 hh (by omega) (Pay.node.inj he)
  · have := treeS_inj hh (by omega) (by omega) (Pay.node.inj he)
    change i ≤ es.length at hi
    change j ≤ es.length at hj
    omega
  · exact endOf_spec treeS_type (node_spec treeS_end)
  · simp only [treeSrcR, Nat.sub_self]
    exact endOf_spec treeS_type (node_spec treeS_begin)
  · change i < es.length at hi
    have := treeS_prev (nf := nf) (a := a) (h := h) (g := g) (es := es) (i := es.length - (i + 1)) (by omega)
    rw [show es.length - (i + 1) + 1 = es.length - i by omega] at this
    exact node_spec this
  · change i < es.length at hi
    have := treeS_next (nf := nf) (a := a) (h := h) (g := g) (es := es) (i := es.length - (i + 1)) (by omega)
    rw [show es.length - (i + 1) + 1 = es.length - i by omega] at this
    exact node_spec this
  · change i < es.length at hi
    have := treeS_prev (nf := nf) (a := a) (h := h) (g := g) (es := es) (i := es.length - (i + 1)) (by omega)
    rw [show es.length - (i + 1) + 1 = es.length - i by omega] at this
    show Triple nf _ (Tree.revDereference (nodeAt es h (es.length - i))) _
    unfold Tree.revDereference
    refine Triple.bind this fun p => ?_
    refine Triple.pure_left fun hp => ?_
    subst hp
    have := treeS_val (nf := nf) (a := a) (h := h) (g := g) (es := es) (i := es.length - (i + 1)) (by omega)
    rw [show es.length - (i + 1) = es.length - 1 - i by omega] at this ⊢
    exact this

/-! ### structure and values -/

/-- the values of a subtree -/
def cells : List (Elem V) → HProp V
  | [] => emp
  | e :: es => pts (e.box, 1) (.obj (some e.val)) ∗ cells es

theorem cells_append {X Y : List (Elem V)} : cells (X ++ Y) = (cells X ∗ cells Y) := by
  induction X with
  | nil => rw [List.nil_append, cells, emp_sep]
  | cons x X ih => rw [List.cons_append, cells, cells, ih]; ac_rfl

theorem tr_bare {p : Nat} {t : T (Elem V)} : Tree.tr p t = (Tree.Bare.tr p t ∗ cells t.toList) := by
  induction t generalizing p with
  | leaf => rw [Tree.tr_leaf, Tree.Bare.tr_leaf, Tree.T.toList_leaf, cells, emp_sep]
  | node c l e r ihl ihr =>
    rw [Tree.tr_node, Tree.Bare.tr_node, ihl, ihr, Tree.T.toList_node, cells_append, cells, Tree.nd, Tree.Bare.nd, Tree.elm, Tree.Bare.elm]
    ac_rfl

theorem shape_bare {t : T (Elem V)} : Tree.isShape a h g t = (Tree.Bare.isShape a h g t ∗ cells t.toList) := by
  rw [Tree.isShape, Tree.Bare.isShape, tr_bare]
  ac_rfl

theorem tree_bare : Tree.isTree a h g es = (treeS a h g es ∗ cells es) := by
  unfold Tree.isTree treeS
  rw [hex_sep]
  congr 1
  funext t
  rw [sep_assoc]
  apply ent_antisymm
  · refine ent_pure_left fun ht => ent_pure_right ht ?_
    rw [shape_bare, ht.1]
    exact ent_refl _
  · refine ent_pure_left fun ht => ent_pure_right ht ?_
    rw [shape_bare, ht.1]
    exact ent_refl _

/-- the same tree with other values -/
theorem relabel {us : List (Elem V)} (t : T (Elem V)) (hn : us.map Elem.node = t.toList.map Elem.node) (hb : us.map Elem.box = t.toList.map Elem.box) :
    ∃ t' : T (Elem V), t'.toList = us ∧ t'.color = t.color ∧ (∀ n, t.RB n → t'.RB n) ∧ rootA t' = rootA t ∧ ∀ p, Tree.Bare.tr p t' = Tree.Bare.tr p t := by
  induction t generalizing us with
  | leaf =>
    simp only [Tree.T.toList_leaf, List.map_nil, List.map_eq_nil_iff] at hn
    exact ⟨.leaf, by rw [hn]; rfl, rfl, fun n h => h, rfl, fun p => rfl⟩
  | node c l e r ihl ihr =>
    simp only [Tree.T.toList_node, List.map_append, List.map_cons] at hn hb
    obtain ⟨U1, U2, rfl, hn1, hn2⟩ := List.map_eq_append_iff.1 hn
    obtain ⟨u, U3, rfl, hu, hn3⟩ := List.map_eq_cons_iff.1 hn2
    rw [List.map_append, List.map_cons] at hb
    have hlen : (U1.map Elem.box).length = (l.toList.map Elem.box).length := by
      have := congrArg List.length hn1
      simpa using this
    obtain ⟨hb1, hb2⟩ := List.append_inj hb hlen
    rw [List.cons.injEq] at hb2
    obtain ⟨l', hl1, hl2, hl3, hl4, hl5⟩ := ihl hn1 hb1
    obtain ⟨r', hr1, hr2, hr3, hr4, hr5⟩ := ihr hn3 hb2.2
    refine ⟨.node c l' u r', ?_, rfl, ?_, hu, ?_⟩
    · rw [Tree.T.toList_node, hl1, hr1]
    · intro n h
      cases c with
      | red => rw [Tree.T.RB_red] at h ⊢; exact ⟨hl3 n h.1, hr3 n h.2.1, by rw [hl2]; exact h.2.2.1, by rw [hr2]; exact h.2.2.2⟩
      | black =>
        cases n with
        | zero => exact absurd h Tree.T.RB_black_zero
        | succ n => rw [Tree.T.RB_black] at h ⊢; exact ⟨hl3 n h.1, hr3 n h.2⟩
    · intro p
      rw [Tree.Bare.tr_node, Tree.Bare.tr_node, hl5, hr5, hl4, hr4, Tree.Bare.nd, Tree.Bare.nd, Tree.Bare.elm, Tree.Bare.elm, hu, hb2.1]

theorem treeS_mono {us : List (Elem V)} (hn : us.map Elem.node = es.map Elem.node) (hb : us.map Elem.box = es.map Elem.box) : treeS a h g es ⊢ₛ treeS a h g us := by
  refine ent_ex_left fun t => ent_pure_left fun ⟨h1, ⟨h2, k, h3⟩, h4⟩ => ?_
  obtain ⟨t', r1, r2, r3, r4, r5⟩ := relabel (us := us) t (by rw [h1, hn]) (by rw [h1, hb])
  refine ent_ex_right t' (ent_pure_right ⟨r1, ⟨r2.trans h2, k, r3 k h3⟩, h4⟩ ?_)
  rw [Tree.Bare.isShape, Tree.Bare.isShape, r4, r5, r1, h1]
  have hl : us.length = es.length := by simpa using congrArg List.length hn
  have hf : firstN us h = firstN es h := by
    cases us <;> cases es <;> simp_all [firstN]
  have hla : lastN us h = lastN es h := by
    show (us.map Elem.node).getLastD h = (es.map Elem.node).getLastD h
    rw [hn]
  rw [hl, hf, hla]
  exact ent_refl _

theorem setVals_node {xs : List (Elem V)} {vs : List V} (hl : vs.length = xs.length) : (setVals xs vs).map Elem.node = xs.map Elem.node := by
  induction xs generalizing vs with
  | nil => simp [setVals]
  | cons x xs ih =>
    cases vs with
    | nil => simp at hl
    | cons v vs => simp only [setVals, List.zipWith_cons_cons, List.map_cons]; rw [← setVals, ih (by simpa using hl)]

theorem setVals_box {xs : List (Elem V)} {vs : List V} (hl : vs.length = xs.length) : (setVals xs vs).map Elem.box = xs.map Elem.box := by
  induction xs generalizing vs with
  | nil => simp [setVals]
  | cons x xs ih =>
    cases vs with
    | nil => simp at hl
    | cons v vs => simp only [setVals, List.zipWith_cons_cons, List.map_cons]; rw [← setVals, ih (by simpa using hl)]

theorem treeS_setVals {vs : List V} (hl : vs.length = es.length) : treeS a h g (setVals es vs) = treeS a h g es :=
  ent_antisymm (treeS_mono (setVals_node hl).symm (setVals_box hl).symm) (treeS_mono (setVals_node hl) (setVals_box hl))

theorem cells_seg {vs : List V} (hl : vs.length = es.length) : cells (setVals es vs) = seg (lslots es) 0 vs := by
  induction es generalizing vs with
  | nil =>
    have : vs = [] := List.length_eq_zero_iff.1 hl
    subst this
    rfl
  | cons e es ih =>
    cases vs with
    | nil => simp at hl
    | cons v vs =>
      rw [seg_cons, seg_lcons]
      simp only [setVals, List.zipWith_cons_cons]
      rw [← setVals, cells, ih (by simpa using hl)]
      rfl

/-- the tree with the values `vs` in the places of its elements -/
theorem tree_seg {vs : List V} (hl : vs.length = es.length) : Tree.isTree a h g (setVals es vs) = (seg (boxAt es) 0 vs ∗ treeS a h g es) := by
  rw [tree_bare, treeS_setVals hl, cells_seg hl, boxAt_lslots, sep_comm]

theorem treeS_box {m : Heap V} (hh : (treeS a h g es ∗ F) m) {i : Nat} (hi : i < es.length) : (boxAt es i).1 ≠ 0 := by
  obtain ⟨X, e, Y, hx, _, _, _, h2, _⟩ := split_at hi
  rw [h2]
  exact ((treeS_facts hh).1.ne e (by rw [hx]; simp)).2.2.1

theorem tree_view (hty : g.vt ≠ 0) : View Z (fun vs => Tree.isTree a h g (setVals es vs)) (treeSrc a h g es) (treeS a h g es) where
  eq := fun _ hl => tree_seg hl
  ok := treeS_ok hty
  real := fun _ _ hh _ hi => treeS_box hh hi

theorem treeR_view (hty : g.vt ≠ 0) : View Z (fun vs => Tree.isTree a h g (setVals es vs.reverse)) (treeSrcR a h g es) (treeS a h g es) where
  eq := by
    intro vs hl
    have hl : vs.length = es.length := hl
    show Tree.isTree a h g (setVals es vs.reverse) = (seg (fun i => boxAt es (es.length - 1 - i)) 0 vs ∗ treeS a h g es)
    rw [tree_seg (by rw [List.length_reverse, hl])]
    congr 1
    exact (seg_rev fun k hk => by rw [Nat.zero_add, Nat.zero_add, hl]).symm
  ok := treeSR_ok hty
  real := by
    intro _ _ hh i hi
    have hi : i < es.length := hi
    exact treeS_box hh (by omega)

end CC.IAlgo
